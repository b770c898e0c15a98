import Verif.Model.Outcome
import Verif.Model.Math
import Verif.Model.Box
import Verif.Model.Counter
import Verif.Model.PriorityQueue
import Verif.Model.Text
import Verif.Props.Geometry
import Verif.Props.MinMax
import Verif.Props.Containers
import Verif.Props.Text
import Verif.Props.XYCut
import Verif.Props.PageSegmentation
import Verif.Props.Words
import Verif.Props.Stacked
import Verif.Props.TextLines
import Verif.Props.LineHierarchy
import Verif.Props.TextBlocks
import Verif.Props.BlockRules
import Verif.Spec.BlockShape
import Verif.Props.BlockShape
import Verif.Props.ReadingOrder
import Verif.Props.Serializers
import Verif.Props.Jsonl
import Verif.Props.Dehyphenation
import Verif.Props.Diacritics
import Verif.Props.Scripts
import Verif.Props.Statistics
import Verif.Props.Bpe
import Verif.Props.Roles
import Verif.Props.Cli
import Verif.Props.Type1
import Verif.Props.Type1Glyph
import Verif.Props.Type1Safety
import Verif.Props.FontInfo
import Verif.Model.Parsing
import Verif.Spec.Parsing
import Verif.Props.Parsing
import Verif.Props.ParsedBoxes
import Verif.Model.Pipeline
import Verif.Props.PipelineWords
import Verif.Props.PipelineLines
import Verif.Props.PipelineStages
import Verif.Props.PipelineRun
import Verif.Props.PipelineEnd
import Verif.Props.Pipeline
import Verif.Spec.ParsedChars
import Verif.Props.ParsedChars
import Verif.Model.GlyphTable
import Verif.Spec.GlyphTable
import Verif.Props.GlyphTable
import Verif.Spec.Wiring
import Verif.Props.PipelineTrace
import Verif.Props.WiringLines
import Verif.Props.WiringRun
import Verif.Props.WiringPage
import Verif.Props.WiringHierarchy
import Verif.Props.Wiring
import Verif.Props.WiringOutput
import Verif.Model.Vocab
import Verif.Spec.Vocab
import Verif.Props.Vocab
import Verif.Spec.Guillotine
import Verif.Props.Guillotine
import Verif.Model.Visualization
import Verif.Spec.Visualization
import Verif.Props.Visualization
import Verif.Props.VisualizationRun
import Verif.Model.ItemLabel
import Verif.Spec.ItemLabel
import Verif.Props.ItemLabel
import Verif.Props.LineContent
import Verif.Props.ItemLabelRun
import Verif.Model.CharMap
import Verif.Model.EndToEnd
import Verif.Spec.EndToEnd
import Verif.Props.EndToEnd
import Verif.Props.FontsKnown
import Verif.Model.Program
import Verif.Props.Program
import Verif.Props.PrimaryCuts
import Verif.Spec.Float
import Verif.Model.FloatMath
import Verif.Props.Float
import Verif.Spec.OrderFree
import Verif.Props.OrderFree
import Verif.Model.EmbeddedFont
import Verif.Spec.EmbeddedFont
import Verif.Props.EmbeddedFont
import Verif.Conformance.MathUtils
import Verif.Conformance.PdfElementsUtils
import Verif.Conformance.Comparators
import Verif.Conformance.Counter
import Verif.Conformance.TextUtils
import Verif.Spec.Move
import Verif.Props.MoveWords
import Verif.Props.MoveCuts
import Verif.Props.MoveSegments
import Verif.Props.MoveOrder
import Verif.Props.MoveLines
import Verif.Props.MoveHierarchy
import Verif.Props.MovePages
import Verif.Props.MoveBlocks
import Verif.Props.MoveStages
import Verif.Props.MoveRun
import Verif.Props.MoveEnd
import Verif.Props.Move
import Verif.Spec.Ownership
import Verif.Props.Ownership
import Verif.Props.OwnershipRun
import Verif.Spec.Append
import Verif.Props.AppendBlocks
import Verif.Props.AppendRun
import Verif.Props.Append
import Verif.Spec.Formats
import Verif.Props.Formats
import Verif.Model.Help
import Verif.Spec.Help
import Verif.Props.Help
import Verif.UnitTests
import Verif.Spec.Switches
import Verif.Props.Switches
import Verif.Spec.Links
import Verif.Props.Links
import Verif.Model.Report
import Verif.Props.Report
import Verif.Spec.Utf8
import Verif.Props.Utf8
import Verif.Spec.Prediction
import Verif.Props.Prediction
import Verif.Spec.Nested
import Verif.Props.Nested
import Verif.Spec.Direction
import Verif.Props.Direction
import Verif.Props.MoveNetwork
import Verif.Spec.Memory
import Verif.Props.Memory
import Verif.Spec.BlankPages
import Verif.Props.BlankPages
import Verif.Model.Descriptions
import Verif.Spec.Descriptions
import Verif.Props.Descriptions
import Verif.Spec.Ranks
import Verif.Props.Ranks
import Verif.Spec.Selection
import Verif.Props.Selection
import Verif.Spec.HashOrder
import Verif.Props.HashOrder
import Verif.Spec.Paragraph
import Verif.Props.ParagraphWords
import Verif.Props.ParagraphCuts
import Verif.Props.ParagraphLines
import Verif.Props.ParagraphBlocks
import Verif.Props.ParagraphStats
import Verif.Props.ParagraphOrder
import Verif.Props.ParagraphHyphens
import Verif.Props.ParagraphBoxes
import Verif.Props.ParagraphJson
import Verif.Props.ParagraphProgram
import Verif.Props.Paragraph

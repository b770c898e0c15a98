import Verif.Props.WiringLines

/-!
# C69: a run of all stages as equations
-/

namespace Verif.Props

open Verif.Math Verif.Elements Verif.Spec Verif.Words Verif.TextLines Verif.Pipeline Verif.Counter Verif.Statistics
open Verif.ReadingOrder (RElem Role)
open Verif.Cli (Stage StageConfig Env Config)

/-- No stage is skipped, except perhaps the dehyphenation. -/
def AllStages (cfg : Config) : Prop := ∀ st ≠ .dehyphenation, Enabled cfg st

/-- The pages after block detection. -/
def blocksAdded (lib : Pipeline.Lib) (ps : List Page) (bss : List (List TextBlocks.Block)) : List Page :=
  List.zipWith (fun (p : Page) bs => { p with textLines := p.segments.flatMap (·.lines), blocks := p.blocks ++ bs.map fun b => ⟨b, lib.uninitialised⟩ }) ps bss

/-- What block detection reads, with the figures of the given pages. -/
def blocksDocOn (lib : Pipeline.Lib) (d : Document) (ps : List Page) : TextBlocks.Doc :=
  { blocksDoc lib d with figures := fun pn => ((ps[pn.toNat - 1]?).map (·.figures)).getD [] }

/-- A run of all stages: the results of the stages. -/
structure WholeRun (lib : Pipeline.Lib) (d0 d' : Document) (s1 s4 : Stats) (ps2 ps3 ps6 : List Page) (ls6 : List TextLine)
    (bst : TextBlocks.State) (bss : List (List TextBlocks.Block)) (rs : List Role) : Prop where
  glyphs : glyphStatistics lib.lines.hash d0.stats (d0.pages.map (·.characters)) = .ok s1
  marks : mapPages (fun p => (Diacritics.processPage lib.compose p.characters).bind fun cs => .ok { p with characters := cs }) d0.pages = .ok ps2
  words : mapPages (wordsPage lib) ps2 = .ok ps3
  wordStats : wordStatistics lib.lines.hash s1 (ps3.map (·.words)) = .ok s4
  lines : linesPages lib s4.avgCharWidth 0 (ps3.map (segmentPage lib s4)) = .ok (ps6, ls6)
  scripts : d'.lines = ls6.map fun l => { l with line := (Scripts.scriptLine s4.mostFreqFontSize l.line).1, base := (Scripts.scriptLine s4.mostFreqFontSize l.line).2 }
  lineStats : lineStatistics lib.lines s4 (ps6.flatMap fun p => p.segments.map (basedLines d')) = .ok d'.stats
  fonts : d'.fontInfos = d0.fontInfos
  blocks : TextBlocks.process lib.lines.hash (blocksDocOn lib d' ps6) (blocksState d') (ps6.map fun p => p.segments.map (·.lines)) = .ok (bst, bss)
  roles : predictRoles lib { d' with pages := blocksAdded lib ps6 bss } = .ok rs
  pages : d'.pages = ((assignRoles (blocksAdded lib ps6 bss) rs).map (orderPage lib d'.stats)).map fun p => { p with textLines := p.blocks.flatMap (·.block.lines) }

theorem wi_did {lib : Pipeline.Lib} {cfg : Config} {st : Stage} {d d' : Document} (hE : Enabled cfg st) (hs : st ≠ .lines) (h : Did lib cfg st d d') :
    stage lib st d = .ok d' := by
  unfold Did at h
  rw [if_pos hE] at h
  obtain ⟨m, h1, h2⟩ := h
  rw [if_neg hs] at h2
  rw [h2]; exact h1

theorem wi_bind {α β : Type} {o : Outcome α} {f : α → Outcome β} {b : β} (h : o.bind f = .ok b) : ∃ a, o = .ok a ∧ f a = .ok b := by
  cases o with
  | ok a => exact ⟨a, rfl, h⟩
  | throw m => cases h
  | ub m => cases h

theorem wi_ok {α : Type} {a b : α} (h : (Outcome.ok a) = .ok b) : b = a := by cases h; rfl

theorem wi_predict_congr {lib : Pipeline.Lib} {d d' : Document} (h1 : d.pages = d'.pages) (h2 : d.lines = d'.lines) (h3 : d.fontInfos = d'.fontInfos) :
    predictRoles lib d = predictRoles lib d' := by
  have : featurePage lib d = featurePage lib d' := by
    funext p
    unfold featurePage blockWords
    rw [h2]
  unfold predictRoles
  rw [this, h1, h3]

theorem wi_blocksDoc_congr {lib : Pipeline.Lib} {d d' : Document} {ps : List Page} (h1 : d.lines = d'.lines) (h2 : d.stats = d'.stats) (h3 : d.fontInfos = d'.fontInfos)
    (h4 : d.pages.map (·.figures) = ps.map (·.figures)) :
    blocksDocOn lib d' ps = blocksDoc lib d := by
  unfold blocksDocOn blocksDoc
  simp only [TextBlocks.Doc.mk.injEq, h1, h2, h3, true_and, and_true]
  funext pn
  have := congrArg (fun l => l[pn.toNat - 1]?) h4
  simp only [List.getElem?_map] at this
  rw [this]

/-- The last stage only sets the marks of hyphenated words. -/
theorem wi_dehyphenated {lib : Pipeline.Lib} {cfg : Config} {d d' : Document} (h : Did lib cfg .dehyphenation d d') : ∃ hy, d' = { d with hyphens := hy } := by
  by_cases hE : Enabled cfg .dehyphenation
  · exact ⟨_, wi_ok (wi_did hE (by decide) h : dehyphenationStage d = .ok d')⟩
  · unfold Did at h
    rw [if_neg hE] at h
    exact ⟨d.hyphens, h⟩

/-- A run of all stages that ends with exit code 0. -/
theorem wi_run {lib : Pipeline.Lib} {cfg : Config} {d0 d' : Document} {e : ℕ → Document} (ha : AllStages cfg) (h : TraceOf lib cfg d0 d' e) :
    ∃ s1 s4 ps2 ps3 ps6 ls6 bst bss rs, WholeRun lib d0 d' s1 s4 ps2 ps3 ps6 ls6 bst bss rs ∧ (e 9).pages = blocksAdded lib ps6 bss := by
  have h0 := h.start
  obtain ⟨s1, g1, x1⟩ := wi_bind (wi_did (ha _ (by decide)) (by decide) h.glyphStatistics : glyphStage lib (e 0) = .ok (e 1))
  replace x1 := wi_ok x1
  obtain ⟨ps2, g2, x2⟩ := wi_bind (wi_did (ha _ (by decide)) (by decide) h.diacritics : diacriticsStage lib (e 1) = .ok (e 2))
  replace x2 := wi_ok x2
  obtain ⟨ps3, g3, x3⟩ := wi_bind (wi_did (ha _ (by decide)) (by decide) h.words : wordsStage lib (e 2) = .ok (e 3))
  replace x3 := wi_ok x3
  obtain ⟨s4, g4, x4⟩ := wi_bind (wi_did (ha _ (by decide)) (by decide) h.wordStatistics : wordStatsStage lib (e 3) = .ok (e 4))
  replace x4 := wi_ok x4
  have x5 := wi_ok (wi_did (ha _ (by decide)) (by decide) h.segmentation : segmentationStage lib (e 4) = .ok (e 5))
  have h6 := h.lines
  unfold Did at h6
  rw [if_pos (ha _ (by decide))] at h6
  obtain ⟨m6, y6, x6⟩ := h6
  rw [if_pos rfl] at x6
  obtain ⟨⟨ps6, ls6⟩, g6, y6⟩ := wi_bind (show linesStage lib (e 5) = .ok m6 from y6)
  replace y6 := wi_ok y6
  have x7 := wi_ok (wi_did (ha _ (by decide)) (by decide) h.scripts : scriptsStage (e 6) = .ok (e 7))
  obtain ⟨s8, g8, x8⟩ := wi_bind (wi_did (ha _ (by decide)) (by decide) h.lineStatistics : lineStatsStage lib (e 7) = .ok (e 8))
  replace x8 := wi_ok x8
  obtain ⟨⟨bst, bss⟩, g9, x9⟩ := wi_bind (wi_did (ha _ (by decide)) (by decide) h.blocks : blocksStage lib (e 8) = .ok (e 9))
  replace x9 := wi_ok x9
  obtain ⟨rs, g10, x10⟩ := wi_bind (wi_did (ha _ (by decide)) (by decide) h.readingOrder : orderStage lib (e 9) = .ok (e 10))
  replace x10 := wi_ok x10
  obtain ⟨hy, x11⟩ := wi_dehyphenated h.dehyphenation
  have hd := h.result
  clear h ha
  generalize e 0 = a0 at *; generalize e 1 = a1 at *; generalize e 2 = a2 at *; generalize e 3 = a3 at *; generalize e 4 = a4 at *
  generalize e 5 = a5 at *; generalize e 6 = a6 at *; generalize e 7 = a7 at *; generalize e 8 = a8 at *; generalize e 9 = a9 at *
  generalize e 10 = a10 at *; generalize e 11 = a11 at *
  have f1 : d'.lines = a8.lines := by rw [hd, x11, x10, x9]; rfl
  have f2 : d'.stats = a8.stats := by rw [hd, x11, x10, x9]; rfl
  have f3 : d'.fontInfos = a8.fontInfos := by rw [hd, x11, x10, x9]; rfl
  have f3' : d'.fontInfos = d0.fontInfos := by rw [f3, x8, x7, x6, y6, x5, x4, x3, x2, x1, h0]; rfl
  have f4 : a9.pages = blocksAdded lib ps6 bss := by
    rw [x9, x8, x7, x6, y6]
    simp only [blocksAdded, linesFromSegments, List.zipWith_map_left]
  have f5 : d'.pages = ((assignRoles a9.pages rs).map (orderPage lib a9.stats)).map fun p => { p with textLines := p.blocks.flatMap (·.block.lines) } := by
    rw [hd, x11, x10]; rfl
  have f6 : a9.stats = a8.stats := by rw [x9]
  have f7 : a9.lines = a8.lines := by rw [x9]
  have f8 : a9.fontInfos = a8.fontInfos := by rw [x9]
  have f9 : a8.pages.map (fun p => p.segments.map (·.lines)) = ps6.map fun p => p.segments.map (·.lines) := by
    rw [x8, x7, x6, y6]; simp [linesFromSegments, Function.comp_def]
  have f10 : a8.pages.map (·.figures) = ps6.map (·.figures) := by
    rw [x8, x7, x6, y6]; simp [linesFromSegments, Function.comp_def]
  have f11 : a7.lines = a8.lines := by rw [x8]
  have f12 : a7.pages.flatMap (fun p => p.segments.map (basedLines a7)) = ps6.flatMap (fun p => p.segments.map (basedLines d')) := by
    have : basedLines a7 = basedLines d' := by funext s; unfold basedLines; rw [f11, f1]
    rw [this, x7, x6, y6]
    simp only [linesFromSegments, List.flatMap_map]
  have f13 : a8.stats = s8 := by rw [x8]
  have f14 : blocksState a8 = blocksState d' := by unfold blocksState; rw [f1]
  refine ⟨s1, s4, ps2, ps3, ps6, ls6, bst, bss, rs, ?_, f4⟩
  rw [f12] at g8
  rw [f9, ← wi_blocksDoc_congr f1.symm f2.symm f3.symm f10, f14] at g9
  rw [f4, f6, ← f2] at f5
  rw [wi_predict_congr (d' := { d' with pages := blocksAdded lib ps6 bss }) f4 (f7.trans f1.symm) (f8.trans f3.symm)] at g10
  rw [← f13, ← f2] at g8
  clear f2 f3 f4 f6 f7 f8 f9 f10 f12 f13 f14 hd x11 x10 x9
  subst h0 x1 x2 x3 x4 x5 y6 x6 x7 x8
  refine ⟨g1, g2, g3, g4, g6, f1, g8, ?_, g9, g10, f5⟩
  exact f3'

end Verif.Props

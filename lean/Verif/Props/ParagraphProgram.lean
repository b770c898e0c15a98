import Verif.Props.Program
import Verif.Props.Paragraph

/-!
# C99: the program on a column set in fixed-width type
-/

namespace Verif.Props

open Verif Verif.Parsing Verif.EndToEnd Verif.Spec
open Verif.Text (Str)
open Verif.Pipeline (Document env toSDoc)
open Verif.Cli (Config Given Action Stage)

/-- The PDF file has one page, which consists of the rows, in a font that is not italic; `p` is the page. -/
structure TypedFile [Marks] (w : World) (g : Given) (path : Str) (rows : List (List (List Char))) (p : Pipeline.Page) : Prop where
  page : ∀ s, run (tablesOf w.numbers) {} (EndToEnd.seen (g.flag "skip-embedded-font-files-parsing") (w.events path)) = .ok s →
    (toDocument s).pages = [p] ∧ ∀ i, (toDocument s).fontInfos ['F'] = some i → i.isItalic = false
  rows : TypedPage rows p
  countable : p.characters.length < 2 ^ 32

/-- **C99 (program).** `pdftotext++ file.pdf out`, or with `--skip-words-dehyphenation`: if the program ends with exit code 0, it writes the paragraphs of the page, each on one line, with an empty line between them. -/
theorem c99_program [Marks] (w : World) (hl : LibOk w.lib) (g : Given) (path : Str) (h : Call w g path) (hr : Readable w g path)
    (hskip : ∀ st, st ≠ Stage.dehyphenation → g.flag (Cli.skipOption st) = false) (hrole : g.role = []) (hfmt : g.format = [] ∨ g.format = ["txt".toList])
    {W : ℕ} {rows : List (List (List Char))} {p : Pipeline.Page} (ht : TypedFile w g path rows p) (hc : Column W rows) (hrun : RunningText rows)
    (hsmall : ∀ row ∈ rows, ∃ w ∈ row, ∃ c ∈ w, 'a' ≤ c ∧ c ≤ 'z') (hexit : (program w g).exit = some 0) :
    ∃ out rest, (program w g).actions = (Cli.writeOutput w.os
        (['\n', '\n'].intercalate ((cutLike (paragraphs W rows) (if g.flag "skip-words-dehyphenation" then rows else joinRows rows)).map fun g => rowText g.flatten) ++ ['\n']) out).map .write ++ rest ∧
      (∀ x, Action.write x ∉ rest) ∧ (g.outputFile = [] → out = ['-']) ∧ (∀ p, g.outputFile = [p] → out = p) := by
  obtain ⟨a, ha, hp, hs, hen⟩ := pg_args h
  have hd := pg_drawable hr hs
  obtain ⟨d', ts', hok, text, rest, g4, g5, g6, g7, htext⟩ := pg_success w hl g path h hr hexit hrole hfmt a ha
  obtain ⟨s, h1, h2, _⟩ := c75_full_run hl hd (fun st hst => (hen st).mpr (hskip st hst)) hok
  rw [hs] at h1
  obtain ⟨k1, k2⟩ := ht.page s h1
  refine ⟨a.outputFile, rest, ?_, g5, g6, g7⟩
  rw [g4, htext, (c99_hyphens h2 k1 ht.rows hc hrun k2 hsmall ht.countable).2.2.2]
  have he : Enabled (Cli.configOf a) .dehyphenation ↔ g.flag "skip-words-dehyphenation" = false := hen .dehyphenation
  cases hf : g.flag "skip-words-dehyphenation" with
  | false => rw [if_pos (he.mpr hf), if_neg (by decide)]
  | true =>
    have : ¬ Enabled (Cli.configOf a) .dehyphenation := by rw [he, hf]; decide
    rw [if_neg this, if_pos rfl]

/-! ### Example -/

/-- The places of the characters of the example, row by row. -/
def ptPlaces : List ((ℕ × ℕ) × Char) :=
  [((10, 10), 'a'), ((15, 10), 'b'), ((25, 10), 'c'), ((30, 10), 'd'), ((35, 10), '-'), ((10, 21), 'f'), ((15, 21), 'g'), ((20, 21), 'h'), ((25, 21), 'i'), ((35, 21), 'j'),
   ((10, 32), 'k'), ((15, 32), 'l'), ((25, 32), 'm'), ((30, 32), 'n')]

/-- A character that is drawn: the font file has glyphs from 4 below to 6 above the baseline. -/
def ptEvent (x y : ℕ) (c : Char) : Event := .drawChar
  { font := some { exFont with charName := [c] }, uLen := 1, mapped := some [c], fontTrans := (10, 0, 0, -10)
    fontSize := 10, horizScaling := 1, rise := 0, textMat := (1, 0, 0, 1), curX := x, curY := 800 - (y + 6)
    ctm := ⟨1, 0, 0, -1, 0, 800⟩, transformedFontSize := 10, clip := ⟨0, 0, 600, 800⟩, codes := [c.toNat] }

/-- What Poppler reports about the page. -/
def ptEvents : List Event :=
  [.startPage 1 ⟨0, 0, 600, 800⟩, .updateFont (some ⟨{ exParseGfx with name := some ['F'] }, some ([], fun _ => some (0, -400, 500, 600))⟩)] ++
    ptPlaces.map (fun q => ptEvent q.1.1 q.1.2 q.2) ++ [.endPage]

/-- The rows of the example. -/
def ptRows : List (List (List Char)) := [["ab".toList, "cd-".toList], ["fghi".toList, "j".toList], ["kl".toList, "mn".toList]]

/-- The characters are numbered in the order in which they are drawn; their glyphs have the names of the characters. -/
def ptMarks : Marks :=
  ⟨fun x y => (ptPlaces.map (·.1)).idxOf (x, y), fun x y => (ptPlaces.map (·.1)).idxOf (x, y), fun x y => ((ptPlaces.find? fun q => q.1 = (x, y)).map fun q => [q.2]).getD [], fun y => y + 10⟩

/-- The computer with the PDF file. -/
def ptWorld : World := { exWorld with events := fun _ => ptEvents }

/-- `pdftotext++ a.pdf b/out.txt`. -/
def ptCall : Given where
  pdfFile := ["a.pdf".toList]
  outputFile := ["b/out.txt".toList]

/-- The result of the parser. -/
def ptState : Option State :=
  match run (tablesOf ptWorld.numbers) {} (EndToEnd.seen (ptCall.flag "skip-embedded-font-files-parsing") (ptWorld.events "a.pdf".toList)) with
  | .ok s => some s
  | _ => none

/-- The page. -/
def ptPage : Pipeline.Page := ((ptState.map toDocument).bind fun d => d.pages.head?).getD { pageNum := 0, characters := [] }

set_option maxHeartbeats 4000000 in
/-- The premises of the theorem about the program are met by a file with a paragraph of three rows. -/
theorem c99_premises_program : Call ptWorld ptCall "a.pdf".toList ∧ Readable ptWorld ptCall "a.pdf".toList ∧ (∀ st, st ≠ Stage.dehyphenation → ptCall.flag (Cli.skipOption st) = false) ∧
    (@TypedFile ptMarks ptWorld ptCall "a.pdf".toList ptRows ptPage) ∧ Column 40 ptRows ∧ RunningText ptRows ∧ (∀ row ∈ ptRows, ∃ w ∈ row, ∃ c ∈ w, 'a' ≤ c ∧ c ≤ 'z') ∧
    (program ptWorld ptCall).exit = some 0 ∧
    ∃ out rest, (program ptWorld ptCall).actions = (Cli.writeOutput ptWorld.os "ab cdfghi j kl mn\n".toList out).map .write ++ rest ∧ (∀ x, Action.write x ∉ rest) ∧ out = "b/out.txt".toList := by
  have h1 : Call ptWorld ptCall "a.pdf".toList := ⟨by decide +kernel, rfl, by decide +kernel⟩
  have h2 : Readable ptWorld ptCall "a.pdf".toList := by
    refine ⟨by decide +kernel, ⟨?_, ?_⟩, ee_inPage (by decide +kernel)⟩
    · intro g hg
      cases Option.some.inj hg
      rfl
    · repeat' first | exact trivial | refine ⟨rfl, ?_⟩
  have h3 : ∀ st, st ≠ Stage.dehyphenation → ptCall.flag (Cli.skipOption st) = false := fun _ _ => rfl
  have h4 : @TypedFile ptMarks ptWorld ptCall "a.pdf".toList ptRows ptPage := by
    refine @TypedFile.mk ptMarks ptWorld ptCall _ ptRows ptPage ?_ (@TypedPage.mk ptMarks ptRows ptPage (by decide +kernel) (by decide +kernel) (by decide +kernel) (by decide +kernel) (by decide +kernel)) (by decide +kernel)
    intro s hs
    have e : ptState = some s := by unfold ptState; rw [hs]
    have e1 : (ptState.map fun s => (toDocument s).pages.length) = some 1 := by decide +kernel
    have e2 : (ptState.map fun s => ((toDocument s).fontInfos ['F']).map (·.isItalic)) = some (some false) := by decide +kernel
    have e3 : ptPage = ((toDocument s).pages.head?).getD { pageNum := 0, characters := [] } := by unfold ptPage; rw [e]; rfl
    rw [e, Option.map_some, Option.some.injEq] at e1 e2
    obtain ⟨q, hq⟩ := List.length_eq_one_iff.mp e1
    refine ⟨by rw [e3, hq]; rfl, ?_⟩
    intro i hi
    rw [hi, Option.map_some, Option.some.injEq] at e2
    exact e2
  have h5 : Column 40 ptRows := by
    refine ⟨by decide, by decide, by decide, by decide, Or.inr fun v hv => ?_, by decide, _, List.mem_cons_self, by decide⟩
    rw [show ptRows.map (rowEnd 10) = [40, 40, 35] by decide]
    rw [show List.count 40 [40, 40, 35] = 2 by decide]
    by_cases h1 : v = 35
    · subst h1; decide
    · rw [List.count_eq_zero.mpr (by simp [hv, h1])]
      decide
  have h6 : RunningText ptRows := pp_running (by decide) (by decide +kernel) (fun row hrow w _ ht => absurd ht ((by decide : ∀ row ∈ ptRows, row.tail ≠ []) row hrow))
  have h7 : ∀ row ∈ ptRows, ∃ w ∈ row, ∃ c ∈ w, 'a' ≤ c ∧ c ≤ 'z' := by decide
  have h8 : (program ptWorld ptCall).exit = some 0 := by decide +kernel
  refine ⟨h1, h2, h3, h4, h5, h6, h7, h8, ?_⟩
  letI := ptMarks
  obtain ⟨out, rest, g1, g2, _, g4⟩ := c99_program ptWorld refPipeline_ok ptCall "a.pdf".toList h1 h2 h3 rfl (.inl rfl) h4 h5 h6 h7 h8
  rw [show ['\n', '\n'].intercalate ((cutLike (paragraphs 40 ptRows) (if ptCall.flag "skip-words-dehyphenation" then ptRows else joinRows ptRows)).map fun g => rowText g.flatten) ++ ['\n'] =
    "ab cdfghi j kl mn\n".toList by decide +kernel] at g1
  exact ⟨out, rest, g1, g2, g4 _ rfl⟩

end Verif.Props

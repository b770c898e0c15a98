import Verif.Model.Program
import Verif.Props.FontsKnown
import Verif.Props.Cli

/-!
# C77: the whole program
-/

namespace Verif.Props

open Verif Verif.Parsing Verif.Spec.Parsing Verif.Spec.EndToEnd Verif.EndToEnd
open Verif.Text (Str)
open Verif.Pipeline (Document env toSDoc predictRoles)
open Verif.Cli (Stage Config Given Run Action Write)

/-- The call names one PDF file, is accepted by the parser of the command line, and does not just ask for help. -/
structure Call (w : World) (g : Given) (path : Str) : Prop where
  accepted : (Cli.parseArgs w.serializers g).isOk = true
  file : g.pdfFile = [path]
  noHelp : g.flag "help" = false ∧ g.flag "version" = false ∧ g.flag "full-help" = false

/-- The drawing operations of the PDF file come in their order, and its characters lie within the pages. -/
structure Readable (w : World) (g : Given) (path : Str) : Prop where
  loads : w.loadError path = none
  orderly : Orderly (tablesOf w.numbers) false (w.events path)
  inPage : InPage (tablesOf w.numbers) (EndToEnd.seen (g.flag "skip-embedded-font-files-parsing") (w.events path))

/-- The text that is drawn on the pages, under the clip boxes of the pages, in UTF-8. -/
def drawnText (w : World) (g : Given) (path : Str) : Str :=
  ((pageTexts (tablesOf w.numbers) (EndToEnd.seen (g.flag "skip-embedded-font-files-parsing") (w.events path))).map EndToEnd.utf8).flatten

theorem pg_args {w : World} {g : Given} {path : Str} (h : Call w g path) :
    ∃ a, Cli.parseArgs w.serializers g = .ok a ∧ a.pdfFile = path ∧ (Cli.configOf a).skipFontFiles = g.flag "skip-embedded-font-files-parsing" ∧
      ∀ st, Enabled (Cli.configOf a) st ↔ g.flag (Cli.skipOption st) = false := by
  have h0 := h.accepted
  cases ha : Cli.parseArgs w.serializers g with
  | throw m => rw [ha] at h0; cases h0
  | ub m => rw [ha] at h0; cases h0
  | ok a =>
    refine ⟨a, rfl, ?_, (c45_other_options _ g a ha).1, ?_⟩
    · have hp := ha
      unfold Cli.parseArgs at hp
      obtain ⟨x1, _, hp⟩ := wi_bind hp
      obtain ⟨x2, _, hp⟩ := wi_bind hp
      obtain ⟨x3, _, hp⟩ := wi_bind hp
      obtain ⟨x4, _, hp⟩ := wi_bind hp
      obtain ⟨x5, _, hp⟩ := wi_bind hp
      obtain ⟨x6, _, hp⟩ := wi_bind hp
      obtain ⟨x7, _, hp⟩ := wi_bind hp
      rw [h.file] at hp
      cases hp
      rfl
    · intro st
      have hs : (st, Cli.skipOption st) ∈ skipTable := by cases st <;> decide
      have := c45_skip_options _ g a ha st _ hs
      unfold Enabled
      rw [← Bool.not_eq_true, this, Bool.not_eq_true]

/-- The drawing operations as the run sees them. -/
theorem pg_drawable {w : World} {g : Given} {path : Str} (h : Readable w g path) {cfg : Config}
    (hc : cfg.skipFontFiles = g.flag "skip-embedded-font-files-parsing") : Drawable w.numbers cfg (w.events path) :=
  ⟨h.orderly, by rw [hc]; exact h.inPage⟩

/-- How the engine ends. -/
theorem pg_engine (w : World) (cfg : Config) (path : Str) :
    (∀ status d ts, Cli.process (env w.lib (w.loadError path) (parse w.numbers (w.events path)) w.duration) cfg ⟨{}, some []⟩ = .ok (status, ⟨d, ts⟩) →
      Cli.engineOf (fun path => env w.lib (w.loadError path) (parse w.numbers (w.events path)) w.duration) toSDoc {} cfg path =
        .finished status (toSDoc d) (ts.getD [])) ∧
    (∀ m, Cli.process (env w.lib (w.loadError path) (parse w.numbers (w.events path)) w.duration) cfg ⟨{}, some []⟩ = .throw m →
      Cli.engineOf (fun path => env w.lib (w.loadError path) (parse w.numbers (w.events path)) w.duration) toSDoc {} cfg path =
        if m = "invalid_argument" then .invalidArgument else .otherException) ∧
    (∀ m, Cli.process (env w.lib (w.loadError path) (parse w.numbers (w.events path)) w.duration) cfg ⟨{}, some []⟩ = .ub m →
      Cli.engineOf (fun path => env w.lib (w.loadError path) (parse w.numbers (w.events path)) w.duration) toSDoc {} cfg path = .otherException) := by
  refine ⟨?_, ?_, ?_⟩
  · intro status d ts h
    unfold Cli.engineOf
    rw [h]
  · intro m h
    unfold Cli.engineOf
    rw [h]
  · intro m h
    unfold Cli.engineOf
    rw [h]

/-- **C77 (file that can't be loaded).** The program writes nothing and ends with Poppler's error code. -/
theorem c77_load_failure (w : World) (g : Given) (path : Str) (h : Call w g path) (code : ℤ) (hl : w.loadError path = some code) (hc : 0 < code) :
    program w g = ⟨[], some code⟩ := by
  obtain ⟨a, ha, hp, _, _⟩ := pg_args h
  obtain ⟨ts, hts, _⟩ := c44_load_failure (env w.lib (w.loadError path) (parse w.numbers (w.events path)) w.duration) (Cli.configOf a) {} (some []) code hl
  have he := (pg_engine w (Cli.configOf a) path).1 _ _ _ hts
  rw [← hp] at he
  exact (c45_exit_codes w.os _ w.clock w.serializers w.seen g h.noHelp).1 a code _ _ ha he hc

/-- **C77 (exit code).** If the PDF file can be loaded and its characters lie within the pages, the program ends with exit code 0 and writes the text once - unless the semantic roles can't be predicted, for one of the
reasons of C76; then it writes nothing, prints an error and ends with exit code 3 (if the model can't be loaded), or is terminated. -/
theorem c77_exit_code (w : World) (hl : LibOk w.lib) (g : Given) (path : Str) (h : Call w g path) (hr : Readable w g path) :
    (∃ text out rest, program w g = ⟨(Cli.writeOutput w.os text out).map .write ++ rest, some 0⟩ ∧ (∀ x, Action.write x ∉ rest) ∧
      (g.outputFile = [] → out = ['-']) ∧ (∀ p, g.outputFile = [p] → out = p)) ∨
    g.flag "skip-reading-order-detection" = false ∧ ∃ d1, PredictionFails w.lib d1 ∧
      ((∃ m, predictRoles w.lib d1 = .throw m ∧ program w g = if m = "invalid_argument" then ⟨[.error], some 3⟩ else ⟨[], none⟩) ∨
       ∃ m, predictRoles w.lib d1 = .ub m) := by
  obtain ⟨a, ha, hp, hs, hen⟩ := pg_args h
  have hd := pg_drawable hr hs
  have hE := pg_engine w (Cli.configOf a) path
  rw [hr.loads] at hE
  rcases c76_failure_reasons hl hd w.duration (some []) with ⟨d', ts', hok⟩ | ⟨he, d1, hf, ⟨m, h1, h2⟩ | ⟨m, h1, _⟩⟩
  · left
    have he := hE.1 _ _ _ hok
    rw [← hp] at he
    obtain ⟨text, roles, rest, _, _, g3, g4, g5, g6, g7⟩ := c45_output w.os _ w.clock w.serializers w.seen g a ha 0 _ _ h.noHelp he le_rfl
    refine ⟨text, a.outputFile, rest, ?_, g5, g6, g7⟩
    unfold program
    rw [← g3, ← g4]
  · right
    refine ⟨(hen .readingOrder).mp he, d1, hf, .inl ⟨m, h1, ?_⟩⟩
    have hee := hE.2.1 m h2
    rw [← hp] at hee
    by_cases hm : m = "invalid_argument"
    · rw [if_pos hm] at hee ⊢
      exact (c45_exit_codes w.os _ w.clock w.serializers w.seen g h.noHelp).2.1 a ha hee
    · rw [if_neg hm] at hee ⊢
      obtain ⟨-, -, -, -, -, -, -, -, -, hh, hv, hfh, -⟩ := parseArgs_ok ha
      unfold program Cli.main
      rw [ha]
      simp only [Cli.mainAfterParsing]
      rw [hh, hv, hfh, h.noHelp.1, h.noHelp.2.1, h.noHelp.2.2, hee]
      simp
  · right
    exact ⟨(hen .readingOrder).mp he, d1, hf, .inr ⟨m, h1⟩⟩

/-- The stages without which there is no text are not skipped. -/
def NothingSkipped (g : Given) : Prop :=
  ∀ name ∈ ["skip-words-detection", "skip-page-segmentation", "skip-text-lines-detection", "skip-text-blocks-detection"], g.flag name = false

/-- The operators of mathematical formulas on a page do not interfere (C25). -/
def OperatorsApart (w : World) (g : Given) (path : Str) : Prop :=
  ∀ a s, Cli.parseArgs w.serializers g = .ok a → run (tablesOf w.numbers) {} (EndToEnd.seen (g.flag "skip-embedded-font-files-parsing") (w.events path)) = .ok s →
    ∀ p ∈ (toDocument s).pages, ∀ cs ws, DetectedWords w.lib (Cli.configOf a) p cs ws → NoConflict ws

/-- A run with exit code 0: the text that is written. -/
theorem pg_success (w : World) (hl : LibOk w.lib) (g : Given) (path : Str) (h : Call w g path) (hr : Readable w g path)
    (hexit : (program w g).exit = some 0) (hrole : g.role = []) (hfmt : g.format = [] ∨ g.format = ["txt".toList])
    (a : Cli.Args) (ha : Cli.parseArgs w.serializers g = .ok a) :
    ∃ d' ts', Cli.process (env w.lib none (parse w.numbers (w.events path)) w.duration) (Cli.configOf a) ⟨{}, some []⟩ = .ok (0, ⟨d', ts'⟩) ∧
      ∃ text rest, (program w g).actions = (Cli.writeOutput w.os text a.outputFile).map .write ++ rest ∧ (∀ x, Action.write x ∉ rest) ∧
      (g.outputFile = [] → a.outputFile = ['-']) ∧ (∀ p, g.outputFile = [p] → a.outputFile = p) ∧
      text = Serialize.plainText allRoles (toSDoc d') := by
  obtain ⟨a', ha', hp, hs, hen⟩ := pg_args h
  rw [ha] at ha'
  cases ha'
  have hd := pg_drawable hr hs
  have hE := pg_engine w (Cli.configOf a) path
  rw [hr.loads] at hE
  rcases c76_failure_reasons hl hd w.duration (some []) with ⟨d', ts', hok⟩ | ⟨_, d1, _, hfail⟩
  · have he := hE.1 _ _ _ hok
    rw [← hp] at he
    obtain ⟨text, roles, rest, g1, g2, g3, g4, g5, g6, g7⟩ := c45_output w.os _ w.clock w.serializers w.seen g a ha 0 _ _ h.noHelp he le_rfl
    refine ⟨d', ts', hok, text, rest, g4, g5, g6, g7, ?_⟩
    have hroles : roles = allRoles := by
      rcases g1 with ⟨_, rfl⟩ | ⟨hne, _⟩
      · decide +kernel
      · exact absurd hrole hne
    rw [← hroles]
    rcases g2 with ⟨_, rfl⟩ | ⟨hx, _⟩
    · rfl
    · exfalso
      rcases hfmt with hf | hf
      · rw [hf] at hx; cases hx
      · rw [hf] at hx; revert hx; decide +kernel
  · exfalso
    obtain ⟨-, -, -, -, -, -, -, -, -, hh, hv, hfh, -⟩ := parseArgs_ok ha
    have hfin : program w g = Cli.mainAfterParsing w.os (Cli.engineOf (fun path => env w.lib (w.loadError path) (parse w.numbers (w.events path)) w.duration) toSDoc {}) w.clock a := by
      unfold program Cli.main; rw [ha]
    rw [hfin] at hexit
    revert hexit
    unfold Cli.mainAfterParsing
    rw [hh, hv, hfh, h.noHelp.1, h.noHelp.2.1, h.noHelp.2.2, hp]
    simp only [Bool.false_eq_true, if_false]
    rcases hfail with ⟨m, _, h2⟩ | ⟨m, _, h2⟩
    · rw [hE.2.1 m h2]
      by_cases hm : m = "invalid_argument"
      · rw [if_pos hm]; simp
      · rw [if_neg hm]; simp
    · rw [hE.2.2 m h2]; simp

/-- **C77 (text, partial).** `pdftotext++ --skip-diacritic-marks-merging --skip-words-dehyphenation file.pdf out`: if the program ends with exit code 0, the text that it writes to `out` consists of exactly the visible
characters that are drawn on the pages of the PDF file, in UTF-8, each as often as it is drawn.  Missing: text under other clip boxes (C50) and interfering operators (C25). -/
theorem c77_text_partial (w : World) (hl : LibOk w.lib) (g : Given) (path : Str) (h : Call w g path) (hr : Readable w g path)
    (hn : NothingSkipped g) (hdi : g.flag "skip-diacritic-marks-merging" = true) (hde : g.flag "skip-words-dehyphenation" = true)
    (hrole : g.role = []) (hfmt : g.format = [] ∨ g.format = ["txt".toList]) (hop : OperatorsApart w g path)
    (hexit : (program w g).exit = some 0) :
    ∃ text out rest, (program w g).actions = (Cli.writeOutput w.os text out).map .write ++ rest ∧ (∀ x, Action.write x ∉ rest) ∧
      (g.outputFile = [] → out = ['-']) ∧ (∀ p, g.outputFile = [p] → out = p) ∧
      (text.filter visible).Perm ((drawnText w g path).filter visible) := by
  obtain ⟨a, ha, hp, hs, hen⟩ := pg_args h
  have hd := pg_drawable hr hs
  obtain ⟨d', ts', hok, text, rest, g4, g5, g6, g7, htext⟩ := pg_success w hl g path h hr hexit hrole hfmt a ha
  refine ⟨text, a.outputFile, rest, g4, g5, g6, g7, ?_⟩
  rw [htext]
  have key := c75_text_partial hl hd (dur := w.duration) (ts := some []) (ts' := ts') (d' := d')
    ⟨(hen _).mpr (hn _ (by decide)), (hen _).mpr (hn _ (by decide)), (hen _).mpr (hn _ (by decide)), (hen _).mpr (hn _ (by decide))⟩
    (by rw [hen]; simp [Cli.skipOption, hdi]) (by rw [hen]; simp [Cli.skipOption, hde])
    (by intro s hs'; rw [hs] at hs'; exact hop a s ha hs') hok
  rw [hs] at key
  exact key

/-- No word is hyphenated twice in a row (C37). -/
def NoChains (w : World) (g : Given) (path : Str) : Prop :=
  ∀ a d' ts, Cli.parseArgs w.serializers g = .ok a →
    Cli.process (env w.lib none (parse w.numbers (w.events path)) w.duration) (Cli.configOf a) ⟨{}, some []⟩ = .ok (0, ⟨d', ts⟩) →
    NoChain (((Dehyphenation.allLines (toSDoc d')).map fun l => l.words.map (·.text)).filter fun l => !l.isEmpty)

/-- The characters of a page in the order in which they were drawn, after merging the diacritical marks (C38); `t` is their text without the merged marks. -/
def MergedText (compose : List ℕ → Str) (drawn : List Words.Glyph) (t : Str) : Prop :=
  ∃ cs, Diacritics.processPage compose drawn = .ok cs ∧
    t = (cs.filter fun c => c.markOf.isNone).flatMap fun c => if c.baseOf.isSome then c.textWithMark else c.text

/-- **C77 (text with the default options, partial).** `pdftotext++ file.pdf out`: if the program ends with exit code 0, the text that it writes to `out` consists of exactly the visible characters that are drawn on the
pages, after merging diacritical marks, without the hyphens of hyphenated words.  Missing: as in `c77_text_partial`, and words hyphenated twice (C37). -/
theorem c77_default_text_partial (w : World) (hl : LibOk w.lib) (g : Given) (path : Str) (h : Call w g path) (hr : Readable w g path)
    (hn : NothingSkipped g) (hdi : g.flag "skip-diacritic-marks-merging" = false) (hde : g.flag "skip-words-dehyphenation" = false)
    (hrole : g.role = []) (hfmt : g.format = [] ∨ g.format = ["txt".toList]) (hop : OperatorsApart w g path) (hch : NoChains w g path)
    (hexit : (program w g).exit = some 0) :
    ∃ text out rest s texts k, (program w g).actions = (Cli.writeOutput w.os text out).map .write ++ rest ∧ (∀ x, Action.write x ∉ rest) ∧
      (g.outputFile = [] → out = ['-']) ∧ (∀ p, g.outputFile = [p] → out = p) ∧
      run (tablesOf w.numbers) {} (EndToEnd.seen (g.flag "skip-embedded-font-files-parsing") (w.events path)) = .ok s ∧
      List.Forall₂ (fun p t => MergedText w.lib.compose p.characters t) (toDocument s).pages texts ∧
      (text.filter visible ++ List.replicate k '-').Perm (texts.flatten.filter visible) := by
  obtain ⟨a, ha, hp, hs, hen⟩ := pg_args h
  have hd := pg_drawable hr hs
  obtain ⟨d', ts', hok, text, rest, g4, g5, g6, g7, htext⟩ := pg_success w hl g path h hr hexit hrole hfmt a ha
  obtain ⟨s, h1, h2⟩ := ee_parse hd
  obtain ⟨texts, k, e1, e2⟩ := c65_plain_text_dehyphenated_partial (lib := w.lib) (n := 1) (cfg := Cli.configOf a) (d0 := toDocument s) (d' := d')
    ⟨by decide, hl, ⟨(hen _).mpr (hn _ (by decide)), (hen _).mpr (hn _ (by decide)), (hen _).mpr (hn _ (by decide)), (hen _).mpr (hn _ (by decide))⟩,
      c75_parsed _ _ s h1 hd.inPage, hop a s ha (by rw [← hs]; exact h1), ⟨_, _, _, _, _, h2 _ _, hok⟩⟩
    ((hen _).mpr hde) (hch a d' ts' ha hok)
  refine ⟨text, a.outputFile, rest, s, texts, k, g4, g5, g6, g7, by rw [← hs]; exact h1, e1.imp ?_, by rw [htext]; exact e2⟩
  intro p t ht
  obtain ⟨cs, q1, q2⟩ := ht
  rw [if_pos ((hen .diacritics).mpr hdi)] at q1
  exact ⟨cs, q1, q2⟩

/-! ### Example -/

/-- A computer with one PDF file. -/
def exWorld : World where
  lib := refPipeline
  numbers _ := []
  loadError path := if path = "a.pdf".toList then none else some 1
  events _ := eeEvents
  os := ⟨fun _ => false, fun _ => true⟩
  duration _ := 0
  clock _ := 0
  serializers := ⟨[.txt, .txtExtended], List.Perm.refl _⟩
  seen := (false, false, false)

/-- `pdftotext++ a.pdf b/out.txt` without merging of diacritical marks and without dehyphenation. -/
def exCall (file : String) : Given where
  pdfFile := [file.toList]
  outputFile := ["b/out.txt".toList]
  flag name := decide (name = "skip-diacritic-marks-merging") || decide (name = "skip-words-dehyphenation")

/-- Non-vacuity: the call of the example meets the assumptions; the text is written, and the exit code is 0. -/
example : Call exWorld (exCall "a.pdf") "a.pdf".toList ∧ Readable exWorld (exCall "a.pdf") "a.pdf".toList ∧ NothingSkipped (exCall "a.pdf") ∧
    program exWorld (exCall "a.pdf") = ⟨[.write (.shell "mkdir -p b".toList), .write (.file "b/out.txt".toList (EndToEnd.utf8 "aé ©\n".toList))], some 0⟩ := by
  refine ⟨⟨by decide +kernel, rfl, by decide +kernel⟩, ⟨by decide +kernel, eeEvents_drawable.orderly, eeEvents_drawable.inPage⟩, ?_, by decide +kernel⟩
  intro name hn
  revert hn; revert name
  decide +kernel

/-- Non-vacuity: a file that can't be loaded. -/
example : program exWorld (exCall "b.pdf") = ⟨[], some 1⟩ :=
  c77_load_failure exWorld (exCall "b.pdf") "b.pdf".toList ⟨by decide +kernel, rfl, by decide +kernel⟩ 1 (by decide +kernel) (by decide)

/-- Non-vacuity: the operators of the example do not interfere. -/
example : OperatorsApart exWorld (exCall "a.pdf") "a.pdf".toList := by
  intro a s ha hs p hp cs ws hd
  have hdis : ¬ Enabled (Cli.configOf a) .diacritics := by
    have := (c45_skip_options _ _ a ha .diacritics "skip-diacritic-marks-merging" (by decide)).mpr (by decide +kernel)
    unfold Enabled
    rw [this]; decide
  obtain ⟨h1, b, h2⟩ := hd
  rw [if_neg hdis] at h1
  subst h1
  have key : (match run (tablesOf fun _ => []) {} (EndToEnd.seen false eeEvents) with
      | .ok s => (toDocument s).pages.all fun p => noOperators (Words.detectWords refPipeline.lines.hash (Words.Active.reset p.pageNum) p.pageNum p.characters)
      | _ => false) = true := by decide +kernel
  have hs' : run (tablesOf fun _ => []) {} (EndToEnd.seen false eeEvents) = .ok s := hs
  rw [hs'] at key
  have := List.all_eq_true.mp key p hp
  have h2' : Words.detectWords refPipeline.lines.hash (Words.Active.reset p.pageNum) p.pageNum p.characters = .ok (ws, b) := h2
  rw [h2'] at this
  exact noOperators_spec this

end Verif.Props

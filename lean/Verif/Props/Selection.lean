import Verif.Spec.Selection
import Verif.Props.Program
import Verif.Props.Jsonl

/-!
# C97: the output options only select
-/

namespace Verif.Props

open Verif.Spec Verif.Pipeline Verif.Serialize Verif.EndToEnd
open Verif.ReadingOrder (Role)
open Verif.Cli (Stage StageConfig Env Config Given Action)
open Verif.Text (Str)

/-- What can be printed of a block. -/
def paragraphOf (b : SBlock) : Paragraph := ⟨b.role, b.isEmphasized, printedBlock b⟩

/-- What can be printed of a document. -/
def paragraphsOf (doc : SDoc) : List (List Paragraph) := doc.pages.map fun p => p.blocks.map paragraphOf

theorem se_pick (roles : List Role) (doc : SDoc) : pick roles (paragraphsOf doc) = doc.pages.map fun p => (p.blocks.filter fun b => decide (b.role ∈ roles)).map paragraphOf := by
  unfold pick paragraphsOf
  rw [List.map_map]
  apply List.map_congr_left
  intro p _
  simp only [Function.comp_apply, List.filter_map]
  rfl

theorem se_text (roles : List Role) (doc : SDoc) : plainText roles doc = pickedText roles (paragraphsOf doc) := by
  rw [c34_plain_text_partial, pickedText, se_pick]
  congr 2
  induction doc.pages with
  | nil => rfl
  | cons p ps ih =>
    rw [List.flatMap_cons, List.filter_append, List.map_append, ih, List.map_cons, List.flatten_cons, List.map_append, List.map_map]
    rfl

/-- The pieces of a page, with other blocks. -/
def mapPiece {α β : Type} (f : α → β) : Piece α → Piece β
  | .blank => .blank
  | .block b => .block (f b)
  | .pageEnd => .pageEnd

theorem se_layout {α β : Type} (f : α → β) {pages : List (List α)} {ps : List (Piece α)} (h : IsLayout pages ps) :
    IsLayout (pages.map fun bs => bs.map f) (ps.map (mapPiece f)) := by
  have e1 : (fun p : Piece α => (mapPiece f p).isItem) = Piece.isItem := by funext p; cases p <;> rfl
  have e2 : (fun p : Piece α => (mapPiece f p).isBody) = Piece.isBody := by funext p; cases p <;> rfl
  refine ⟨?_, ?_, ?_⟩
  · rw [List.filter_map]
    have : Piece.isItem ∘ mapPiece f = Piece.isItem := e1
    rw [this, h.items, List.map_flatMap, List.flatMap_map]
    apply List.flatMap_congr
    intro bs _
    rw [List.map_append, List.map_map, List.map_map]
    rfl
  · rw [List.filter_map]
    have : Piece.isBody ∘ mapPiece f = Piece.isBody := e2
    rw [this, h.blanks, ← List.map_flatten, List.map_map]
    have hi : ∀ l : List (Piece α), (l.intersperse Piece.blank).map (mapPiece f) = (l.map (mapPiece f)).intersperse Piece.blank := by
      intro l
      induction l with
      | nil => rfl
      | cons a l ih =>
        cases l with
        | nil => rfl
        | cons b l =>
          rw [List.intersperse_cons_cons, List.map_cons, List.map_cons, ih]
          rfl
    rw [hi, List.map_map]
    rfl
  · intro p hp hb
    rw [← List.map_tail, List.zip_map] at hp
    obtain ⟨⟨q1, q2⟩, hq, rfl⟩ := List.mem_map.mp hp
    have hb : mapPiece f q1 = Piece.blank := hb
    have := h.before (q1, q2) hq (by cases q1 with | blank => rfl | block b => cases hb | pageEnd => cases hb)
    show (mapPiece f q2).isBody = true
    rw [← this]
    exact congrFun e2 q2

theorem se_extended (roles : List Role) (doc : SDoc) : PickedExtended roles (paragraphsOf doc) (plainTextExtended roles doc) := by
  obtain ⟨ps, h1, h2, _⟩ := c35_extended roles doc
  refine ⟨ps.map (mapPiece paragraphOf), ?_, ?_⟩
  · have := se_layout paragraphOf h1
    rw [se_pick]
    unfold printedPages at this
    rw [List.map_map] at this
    exact this
  · rw [h2, List.flatMap_map]
    congr 1
    apply List.flatMap_congr
    intro p _
    cases p <;> rfl

/-- **C97.** Of every document there is one list of paragraphs per page, with their roles, from which the plain text and the extended plain text for all choices of roles are picked. -/
theorem c97_roles (doc : SDoc) : ∃ pages : List (List Paragraph), pages.length = doc.pages.length ∧
    ∀ roles, plainText roles doc = pickedText roles pages ∧ PickedExtended roles pages (plainTextExtended roles doc) :=
  ⟨paragraphsOf doc, by simp [paragraphsOf], fun roles => ⟨se_text roles doc, se_extended roles doc⟩⟩

/-! ## JSONL -/

/-- The records of a unit, with the roles of their blocks. -/
def entriesOf (P : Printer) (doc : SDoc) : Unit' → List Entry
  | .pages => doc.pages.map fun p => ⟨none, pageRecord P p⟩
  | .characters => (doc.pages.flatMap (·.blocks)).flatMap fun b => b.words.flatMap fun w =>
      (w.chars.filter fun c => !c.isMark).map fun c => ⟨some b.role, charRecord P b w c ((doc.fontInfos c.fontName).getD {})⟩
  | .words => (doc.pages.flatMap (·.blocks)).flatMap fun b => b.words.map fun w => ⟨some b.role, wordRecord P b w⟩
  | .textBlocks => (doc.pages.flatMap (·.blocks)).map fun b => ⟨some b.role, blockRecord P b⟩
  | .figures => (doc.pages.flatMap (·.figures)).map fun f => ⟨none, rectRecord P "figure" f⟩
  | .shapes => (doc.pages.flatMap (·.shapes)).map fun f => ⟨none, rectRecord P "shape" f⟩
  | .textLines => []

theorem se_blocks (roles : List Role) (f : SBlock → List Str) (bs : List SBlock) :
    onLines (chosenEntries roles (bs.flatMap fun b => (f b).map fun r => ⟨some b.role, r⟩)) =
      (bs.filter fun b => decide (b.role ∈ roles)).flatMap fun b => (f b).flatMap lineOf := by
  unfold onLines chosenEntries
  induction bs with
  | nil => rfl
  | cons b bs ih =>
    rw [List.flatMap_cons, List.filter_append, List.flatMap_append, ih, List.filter_map]
    by_cases hb : b.role ∈ roles
    · rw [List.filter_cons_of_pos (by simpa using hb), List.flatMap_cons]
      congr 1
      rw [List.filter_eq_self.mpr (by intro r _; simpa using hb), List.flatMap_map]
      rfl
    · rw [List.filter_cons_of_neg (by simpa using hb), List.filter_eq_nil_iff.mpr (by intro r _; simpa using hb)]
      rfl

theorem se_plain (roles : List Role) (rs : List Str) : onLines (chosenEntries roles (rs.map fun r => ⟨none, r⟩)) = rs.flatMap lineOf := by
  unfold onLines chosenEntries
  rw [List.filter_eq_self.mpr, List.flatMap_map]
  · rfl
  · intro e he
    obtain ⟨r, _, rfl⟩ := List.mem_map.mp he
    rfl

theorem se_unit (P : Printer) (roles : List Role) (doc : SDoc) (u : Unit') (out : Str) (h : serializeUnit P roles doc u = .ok out) :
    out = onLines (chosenEntries roles (entriesOf P doc u)) := by
  cases u with
  | pages =>
    have h := (Outcome.ok.inj h).symm
    have e := se_plain roles (doc.pages.map (pageRecord P))
    rw [List.map_map, List.flatMap_map] at e
    rw [h]
    exact e.symm
  | figures =>
    have h := (Outcome.ok.inj h).symm
    have e := se_plain roles ((doc.pages.flatMap (·.figures)).map (rectRecord P "figure"))
    rw [List.map_map, List.flatMap_map, List.flatMap_assoc] at e
    rw [h]
    exact e.symm
  | shapes =>
    have h := (Outcome.ok.inj h).symm
    have e := se_plain roles ((doc.pages.flatMap (·.shapes)).map (rectRecord P "shape"))
    rw [List.map_map, List.flatMap_map, List.flatMap_assoc] at e
    rw [h]
    exact e.symm
  | textLines => exact (Outcome.ok.inj h).symm
  | words =>
    have h := (Outcome.ok.inj h).symm
    have e := se_blocks roles (fun b => b.words.map (wordRecord P b)) (doc.pages.flatMap (·.blocks))
    simp only [List.map_map, List.flatMap_map] at e
    rw [h]
    unfold serializeWords
    rw [selectedBlocks_eq]
    exact e.symm
  | textBlocks =>
    have h := (Outcome.ok.inj h).symm
    have e := se_blocks roles (fun b => [blockRecord P b]) (doc.pages.flatMap (·.blocks))
    simp only [List.map_cons, List.map_nil, List.flatMap_cons, List.flatMap_nil, List.append_nil] at e
    rw [← List.map_eq_flatMap] at e
    rw [h]
    unfold serializeTextBlocks
    rw [selectedBlocks_eq]
    exact e.symm
  | characters =>
    have h : serializeCharacters P roles doc = .ok out := h
    unfold serializeCharacters at h
    rw [selectedBlocks_eq] at h
    rcases serializeBlockChars_eq P doc (chosenBlocks roles doc) with ⟨_, h2⟩ | ⟨_, h2⟩
    · rw [h2] at h; cases h
    · rw [h2] at h
      have h := (Outcome.ok.inj h).symm
      have e := se_blocks roles (fun b => b.words.flatMap fun w => (w.chars.filter fun c => !c.isMark).map fun c => charRecord P b w c ((doc.fontInfos c.fontName).getD {}))
        (doc.pages.flatMap (·.blocks))
      rw [h]
      unfold entriesOf chosenBlocks charLines
      generalize doc.pages.flatMap (·.blocks) = bs at e
      simp only [List.map_flatMap, List.map_map, List.flatMap_assoc, List.flatMap_map] at e
      exact e.symm

/-- **C97.** Of every document there is one list of records per unit, with the roles of their blocks, from which the JSONL output for all choices of roles and units, in whatever order
the units are processed, is picked. -/
theorem c97_records (P : Printer) (doc : SDoc) : ∃ entries : Unit' → List Entry, ∀ roles units out, jsonl P roles doc units = .ok out →
    out = onLines (units.flatMap fun u => chosenEntries roles (entries u)) := by
  refine ⟨entriesOf P doc, fun roles units => ?_⟩
  induction units with
  | nil => intro out h; exact (Outcome.ok.inj h).symm
  | cons u us ih =>
    intro out h
    rw [jsonl] at h
    cases h1 : serializeUnit P roles doc u with
    | throw m => rw [h1] at h; cases h
    | ub m => rw [h1] at h; cases h
    | ok a =>
      rw [h1] at h
      simp only [Outcome.bind] at h
      cases h2 : jsonl P roles doc us with
      | throw m => rw [h2] at h; cases h
      | ub m => rw [h2] at h; cases h
      | ok b =>
        rw [h2] at h
        have h := (Outcome.ok.inj h).symm
        rw [h, se_unit P roles doc u a h1, ih b h2, List.flatMap_cons]
        unfold onLines
        rw [List.flatMap_append]

/-- **C97.** Choosing more roles adds records and removes none; the order of the units is the order of their records. -/
theorem c97_more_roles (P : Printer) (doc : SDoc) {roles roles' : List Role} (hr : roles ⊆ roles') (units : List Unit') (out out' : Str)
    (h : jsonl P roles doc units = .ok out) (h' : jsonl P roles' doc units = .ok out') :
    ∃ es es' : List Entry, out = onLines es ∧ out' = onLines es' ∧ es.Sublist es' ∧ ∀ e ∈ es', e ∉ es → ∃ r, e.role = some r ∧ r ∉ roles := by
  obtain ⟨entries, he⟩ := c97_records P doc
  refine ⟨_, _, he roles units out h, he roles' units out' h', ?_, ?_⟩
  · induction units generalizing out out' with
    | nil => exact .slnil
    | cons u us ih =>
      rw [List.flatMap_cons, List.flatMap_cons]
      refine List.Sublist.append ?_ ?_
      · unfold chosenEntries
        refine List.monotone_filter_right _ fun e he => ?_
        cases hq : e.role with
        | none => rfl
        | some r =>
          rw [hq] at he
          simp only [decide_eq_true_eq] at he ⊢
          exact hr he
      · clear ih h h'
        induction us with
        | nil => exact .slnil
        | cons v vs ih =>
          rw [List.flatMap_cons, List.flatMap_cons]
          refine List.Sublist.append ?_ ih
          unfold chosenEntries
          refine List.monotone_filter_right _ fun e he => ?_
          cases hq : e.role with
          | none => rfl
          | some r =>
            rw [hq] at he
            simp only [decide_eq_true_eq] at he ⊢
            exact hr he
  · intro e he' hne
    obtain ⟨u, hu, hin⟩ := List.mem_flatMap.mp he'
    unfold chosenEntries at hin
    obtain ⟨h1, h2⟩ := List.mem_filter.mp hin
    cases hq : e.role with
    | none =>
      exfalso
      exact hne (List.mem_flatMap.mpr ⟨u, hu, List.mem_filter.mpr ⟨h1, by rw [hq]⟩⟩)
    | some r =>
      refine ⟨r, rfl, fun hr' => hne (List.mem_flatMap.mpr ⟨u, hu, List.mem_filter.mpr ⟨h1, ?_⟩⟩)⟩
      rw [hq]
      simpa using hr'

/-! ## The program -/

theorem se_steps {lib : Pipeline.Lib} {le : Option ℤ} {numbers : Str → List ℚ} {events : List Parsing.Event} {dur : ℕ → ℕ} {cfg cfg' : Config}
    (hs : cfg.skipFontFiles = cfg'.skipFontFiles) (hd : ∀ st, Enabled cfg st ↔ Enabled cfg' st) :
    steps (env lib le (EndToEnd.parse numbers events) dur) cfg = steps (env lib le (EndToEnd.parse numbers events) dur) cfg' := by
  unfold steps
  have h1 : (env lib le (EndToEnd.parse numbers events) dur).parse cfg.parsing cfg.skipFontFiles = (env lib le (EndToEnd.parse numbers events) dur).parse cfg'.parsing cfg'.skipFontFiles := by
    rw [hs]; rfl
  have h2 : (fun st => decide ((cfg.stage st).disabled = false)) = fun st => decide ((cfg'.stage st).disabled = false) := by
    funext st
    exact decide_eq_decide.mpr (hd st)
  rw [h1]
  congr 2
  rw [h2]
  rfl

/-- Two calls with the same options on what is detected. -/
theorem se_process {w : World} {g g' : Given} {path : Str} (h : Call w g path) (h' : Call w g' path) (hf : ∀ name ∈ skipNames, g.flag name = g'.flag name)
    {a a' : Cli.Args} (ha : Cli.parseArgs w.serializers g = .ok a) (ha' : Cli.parseArgs w.serializers g' = .ok a') :
    steps (env w.lib none (EndToEnd.parse w.numbers (w.events path)) w.duration) (Cli.configOf a) =
      steps (env w.lib none (EndToEnd.parse w.numbers (w.events path)) w.duration) (Cli.configOf a') := by
  obtain ⟨b, hb, _, h2, h3⟩ := pg_args h
  obtain ⟨b', hb', _, h2', h3'⟩ := pg_args h'
  rw [ha] at hb
  rw [ha'] at hb'
  cases hb
  cases hb'
  refine se_steps ?_ ?_
  · rw [h2, h2']
    exact hf _ (by simp [skipNames])
  · intro st
    rw [h3, h3', hf (Cli.skipOption st) (by cases st <;> simp [skipNames, Cli.skipOption])]

/-- How a call ends. -/
theorem se_main {w : World} {g : Given} {path : Str} (h : Call w g path) (hload : w.loadError path = none) {a : Cli.Args} (ha : Cli.parseArgs w.serializers g = .ok a) :
    (∀ d', runAll (steps (env w.lib none (EndToEnd.parse w.numbers (w.events path)) w.duration) (Cli.configOf a)) {} = .ok d' →
      (program w g).exit = some 0 ∧ ∃ text roles out rest,
        (g.role = [] ∧ roles = Cli.getRoles ∨ g.role ≠ [] ∧ Cli.validateAll Cli.validateRole g.role = .ok roles) ∧
        ((g.format = [] ∨ g.format = ["txt".toList]) ∧ text = plainText roles (toSDoc d') ∨ g.format = ["txt-extended".toList] ∧ text = plainTextExtended roles (toSDoc d')) ∧
        (program w g).actions = (Cli.writeOutput w.os text out).map .write ++ rest ∧ (∀ x, Action.write x ∉ rest) ∧
        (g.outputFile = [] → out = ['-']) ∧ (∀ p, g.outputFile = [p] → out = p)) ∧
    (∀ m, runAll (steps (env w.lib none (EndToEnd.parse w.numbers (w.events path)) w.duration) (Cli.configOf a)) {} = .throw m →
      program w g = if m = "invalid_argument" then ⟨[.error], some 3⟩ else ⟨[], none⟩) ∧
    (∀ m, runAll (steps (env w.lib none (EndToEnd.parse w.numbers (w.events path)) w.duration) (Cli.configOf a)) {} = .ub m → program w g = ⟨[], none⟩) := by
  obtain ⟨b, hb, hp, _, _⟩ := pg_args h
  rw [ha] at hb
  cases hb
  obtain ⟨q1, q2, q3⟩ := c44_stages (env w.lib none (EndToEnd.parse w.numbers (w.events path)) w.duration) (Cli.configOf a) {} (some []) rfl
  have hE := pg_engine w (Cli.configOf a) path
  rw [hload] at hE
  have hother : Cli.engineOf (fun path => env w.lib (w.loadError path) (EndToEnd.parse w.numbers (w.events path)) w.duration) toSDoc {} (Cli.configOf a) path = .otherException →
      program w g = ⟨[], none⟩ := by
    intro hee
    obtain ⟨-, -, -, -, -, -, -, -, -, hh, hv, hfh, -⟩ := parseArgs_ok ha
    unfold program Cli.main
    rw [ha]
    simp only [Cli.mainAfterParsing]
    rw [hh, hv, hfh, h.noHelp.1, h.noHelp.2.1, h.noHelp.2.2, hp, hee]
    simp
  refine ⟨?_, ?_, ?_⟩
  · intro d' hd
    obtain ⟨ts', hok, _⟩ := q1 d' hd
    have he := hE.1 _ _ _ hok
    rw [← hp] at he
    obtain ⟨text, roles, rest, g1, g2, g3, g4, g5, g6, g7⟩ := c45_output w.os _ w.clock w.serializers w.seen g a ha 0 _ _ h.noHelp he le_rfl
    exact ⟨g3, text, roles, a.outputFile, rest, g1, g2, g4, g5, g6, g7⟩
  · intro m hm
    have hee := hE.2.1 m (q2 m hm)
    by_cases hi : m = "invalid_argument"
    · rw [if_pos hi] at hee ⊢
      rw [← hp] at hee
      exact (c45_exit_codes w.os _ w.clock w.serializers w.seen g h.noHelp).2.1 a ha hee
    · rw [if_neg hi] at hee ⊢
      exact hother hee
  · intro m hm
    exact hother (hE.2.2 m (q3 m hm))

/-- **C97.** For every file and every choice of skipped stages there is one list of paragraphs per page such that every call of the program that succeeds writes the paragraphs with the
roles that the call asks for, in the format that it asks for, to the place that it asks for. -/
theorem c97_program (w : World) (path : Str) (hload : w.loadError path = none) (flags : String → Bool) :
    ∃ pages : List (List Paragraph), ∀ g, Call w g path → (∀ name ∈ skipNames, g.flag name = flags name) → (program w g).exit = some 0 → ∃ text roles out rest,
      (g.role = [] ∧ roles = Cli.getRoles ∨ g.role ≠ [] ∧ Cli.validateAll Cli.validateRole g.role = .ok roles) ∧
      ((g.format = [] ∨ g.format = ["txt".toList]) ∧ text = pickedText roles pages ∨ g.format = ["txt-extended".toList] ∧ PickedExtended roles pages text) ∧
      (program w g).actions = (Cli.writeOutput w.os text out).map .write ++ rest ∧ (∀ x, Action.write x ∉ rest) ∧
      (g.outputFile = [] → out = ['-']) ∧ (∀ p, g.outputFile = [p] → out = p) := by
  by_cases hex : ∃ g, Call w g path ∧ (∀ name ∈ skipNames, g.flag name = flags name) ∧ (program w g).exit = some 0
  swap
  · exact ⟨[], fun g h hf he => absurd ⟨g, h, hf, he⟩ hex⟩
  obtain ⟨g0, h0, hf0, he0⟩ := hex
  obtain ⟨a0, ha0, _⟩ := pg_args h0
  obtain ⟨m1, m2, m3⟩ := se_main h0 hload ha0
  cases hd : runAll (steps (env w.lib none (EndToEnd.parse w.numbers (w.events path)) w.duration) (Cli.configOf a0)) {} with
  | throw m =>
    rw [m2 m hd] at he0
    split at he0 <;> cases he0
  | ub m => rw [m3 m hd] at he0; cases he0
  | ok d' =>
    refine ⟨paragraphsOf (toSDoc d'), ?_⟩
    intro g h hf he
    obtain ⟨a, ha, _⟩ := pg_args h
    have hst := se_process h0 h (fun name hn => (hf0 name hn).trans (hf name hn).symm) ha0 ha
    rw [hst] at hd
    obtain ⟨_, text, roles, out, rest, g1, g2, g3⟩ := (se_main h hload ha).1 d' hd
    refine ⟨text, roles, out, rest, g1, ?_, g3⟩
    rcases g2 with ⟨g2, rfl⟩ | ⟨g2, rfl⟩
    · exact .inl ⟨g2, se_text roles _⟩
    · exact .inr ⟨g2, se_extended roles _⟩

/-- **C97.** Whether the program succeeds, and its exit code, do not depend on roles, format, types, output file, verbosity and visualization. -/
theorem c97_exit_code (w : World) (path : Str) (hload : w.loadError path = none) (g g' : Given) (h : Call w g path) (h' : Call w g' path)
    (hf : ∀ name ∈ skipNames, g.flag name = g'.flag name) : (program w g).exit = (program w g').exit := by
  obtain ⟨a, ha, _⟩ := pg_args h
  obtain ⟨a', ha', _⟩ := pg_args h'
  obtain ⟨m1, m2, m3⟩ := se_main h hload ha
  obtain ⟨m1', m2', m3'⟩ := se_main h' hload ha'
  rw [← se_process h h' hf ha ha'] at m1' m2' m3'
  cases hd : runAll (steps (env w.lib none (EndToEnd.parse w.numbers (w.events path)) w.duration) (Cli.configOf a)) {} with
  | throw m => rw [m2 m hd, m2' m hd]
  | ub m => rw [m3 m hd, m3' m hd]
  | ok d' => rw [(m1 d' hd).1, (m1' d' hd).1]

/-! ## Examples -/

/-- The call of the example that asks for the paragraphs only, in the extended format. -/
def exChosen : Given := { exCall "a.pdf" with role := ["paragraph".toList], format := ["txt-extended".toList] }

/-- The premises are met by two calls with different outputs. -/
theorem c97_premises : exWorld.loadError "a.pdf".toList = none ∧ Call exWorld (exCall "a.pdf") "a.pdf".toList ∧ Call exWorld exChosen "a.pdf".toList ∧
    (∀ name ∈ skipNames, (exCall "a.pdf").flag name = exChosen.flag name) ∧
    program exWorld (exCall "a.pdf") = ⟨[.write (.shell "mkdir -p b".toList), .write (.file "b/out.txt".toList (EndToEnd.utf8 "aé ©\n".toList))], some 0⟩ ∧
    program exWorld exChosen = ⟨[.write (.shell "mkdir -p b".toList), .write (.file "b/out.txt".toList (EndToEnd.utf8 "[PARAGRAPH] aé ©\n\x0c\n".toList))], some 0⟩ := by
  refine ⟨by decide +kernel, ⟨by decide +kernel, rfl, by decide +kernel⟩, ⟨by decide +kernel, rfl, by decide +kernel⟩, fun _ _ => rfl, by decide +kernel, by decide +kernel⟩

/-- JSONL: other roles and other orders of the units. -/
example : (jsonl ⟨fun _ => ['0'], fun _ => ['0']⟩ [.title] sampleDoc [.textBlocks, .words]).isOk = true ∧ (jsonl ⟨fun _ => ['0'], fun _ => ['0']⟩ allRoles sampleDoc [.words, .pages]).isOk = true ∧
    (pickedText [.title] (paragraphsOf sampleDoc)) = "foobar x\n".toList ∧ (chosenEntries [.title] (entriesOf ⟨fun _ => ['0'], fun _ => ['0']⟩ sampleDoc .words)).length = 3 ∧
    (chosenEntries allRoles (entriesOf ⟨fun _ => ['0'], fun _ => ['0']⟩ sampleDoc .words)).length = 5 := by
  refine ⟨by decide +kernel, by decide +kernel, by decide +kernel, by decide +kernel, by decide +kernel⟩

end Verif.Props

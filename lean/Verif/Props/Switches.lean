import Verif.Spec.Switches
import Verif.Props.Append

/-!
# C86: what the switches of the last stages can change
-/

namespace Verif.Props

open Verif.Math Verif.Elements Verif.Spec Verif.Words Verif.TextLines Verif.Pipeline Verif.Serialize
open Verif.ReadingOrder (RElem Role)
open Verif.Cli (Stage StageConfig Env Config)

variable {lib : Pipeline.Lib} {n : ℕ} {cfg cfg' : Config} {parse : StageConfig → Bool → Document → Outcome Document} {dur : ℕ → ℕ}

/-! ## A run, split before the reading order -/

/-- Parsing and the stages up to the detection of the text blocks. -/
def sw_core (lib : Pipeline.Lib) (parse : StageConfig → Bool → Document → Outcome Document) (dur : ℕ → ℕ) (cfg : Config) (d : Document) : Outcome Document :=
  runAll ([parse cfg.parsing cfg.skipFontFiles] ++
    [Stage.glyphStatistics, .diacritics, .words, .wordStatistics, .segmentation, .lines, .scripts, .lineStatistics, .blocks].flatMap
      (stageSteps (env lib none parse dur) cfg)) d

/-- Reading order detection, if it is not switched off. -/
def sw_order (lib : Pipeline.Lib) (cfg : Config) (d : Document) : Outcome Document := if Enabled cfg .readingOrder then orderStage lib d else .ok d

/-- Dehyphenation, if it is not switched off, and the last step. -/
def sw_end (cfg : Config) (d : Document) : Document :=
  linesFromBlocks (if Enabled cfg .dehyphenation then
    { d with hyphens := ((Dehyphenation.allLines (toSDoc d)).foldl Dehyphenation.step (d.hyphens, none)).1 } else d)

theorem sw_steps (d : Document) : runAll (steps (env lib none parse dur) cfg) d =
    (sw_core lib parse dur cfg d).bind fun e => (sw_order lib cfg e).bind fun e' => .ok (sw_end cfg e') := by
  have hs : steps (env lib none parse dur) cfg = ([parse cfg.parsing cfg.skipFontFiles] ++
      [Stage.glyphStatistics, .diacritics, .words, .wordStatistics, .segmentation, .lines, .scripts, .lineStatistics, .blocks].flatMap
        (stageSteps (env lib none parse dur) cfg)) ++ (stageSteps (env lib none parse dur) cfg .readingOrder ++
        (stageSteps (env lib none parse dur) cfg .dehyphenation ++ [fun d => .ok (linesFromBlocks d)])) := by
    rw [pl_steps]
    simp only [stageTable, List.map_cons, List.map_nil, List.flatMap_cons, List.flatMap_nil, List.append_nil, List.append_assoc]
    rfl
  rw [hs, pl_runAll_append]
  unfold sw_core
  cases runAll ([parse cfg.parsing cfg.skipFontFiles] ++
      [Stage.glyphStatistics, .diacritics, .words, .wordStatistics, .segmentation, .lines, .scripts, .lineStatistics, .blocks].flatMap
        (stageSteps (env lib none parse dur) cfg)) d with
  | throw m => rfl
  | ub m => rfl
  | ok e =>
    have hend : ∀ e' : Document, runAll (stageSteps (env lib none parse dur) cfg .dehyphenation ++ [fun d => .ok (linesFromBlocks d)]) e' = .ok (sw_end cfg e') := by
      intro e'
      unfold stageSteps sw_end
      by_cases hE : Enabled cfg .dehyphenation
      · rw [if_pos hE, if_pos hE]; rfl
      · rw [if_neg hE, if_neg hE]; rfl
    show runAll (stageSteps (env lib none parse dur) cfg .readingOrder ++ _) e = _
    rw [pl_runAll_append]
    generalize hb : (stageSteps (env lib none parse dur) cfg .dehyphenation ++ [fun d => .ok (linesFromBlocks d)]) = bs at hend
    have ho : runAll (stageSteps (env lib none parse dur) cfg .readingOrder) e = sw_order lib cfg e := by
      unfold stageSteps sw_order
      by_cases hE : Enabled cfg .readingOrder
      · rw [if_pos hE, if_pos hE]
        show runAll [orderStage lib] e = _
        rw [runAll]
        cases orderStage lib e <;> rfl
      · rw [if_neg hE, if_neg hE]; rfl
    rw [ho]
    show _ = (sw_order lib cfg e).bind _
    congr 1
    funext e'
    exact hend e'

/-- The outcome of a run. -/
theorem sw_process (d : Document) (ts : Option (List (Text.Str × ℕ))) :
    (∀ d', runAll (steps (env lib none parse dur) cfg) d = .ok d' ↔ ∃ ts', Cli.process (env lib none parse dur) cfg ⟨d, ts⟩ = .ok (0, ⟨d', ts'⟩)) ∧
    (∀ m, runAll (steps (env lib none parse dur) cfg) d = .throw m ↔ Cli.process (env lib none parse dur) cfg ⟨d, ts⟩ = .throw m) ∧
    (∀ m, runAll (steps (env lib none parse dur) cfg) d = .ub m ↔ Cli.process (env lib none parse dur) cfg ⟨d, ts⟩ = .ub m) := by
  obtain ⟨g1, g2, g3⟩ := c44_stages (env lib none parse dur) cfg d ts rfl
  cases hx : runAll (steps (env lib none parse dur) cfg) d with
  | ok x =>
    obtain ⟨t, h1, _⟩ := g1 x hx
    refine ⟨fun d' => ⟨fun h => ?_, fun ⟨t', h⟩ => ?_⟩, fun m => ⟨fun h => (by cases h), fun h => ?_⟩, fun m => ⟨fun h => (by cases h), fun h => ?_⟩⟩
    · cases h; exact ⟨t, h1⟩
    · rw [h1] at h
      simp only [Outcome.ok.injEq, Prod.mk.injEq, true_and] at h
      cases h; rfl
    · rw [h1] at h; cases h
    · rw [h1] at h; cases h
  | throw x =>
    have h1 := g2 x hx
    refine ⟨fun d' => ⟨fun h => (by cases h), fun ⟨t', h⟩ => ?_⟩, fun m => ⟨fun h => ?_, fun h => ?_⟩, fun m => ⟨fun h => (by cases h), fun h => ?_⟩⟩
    · rw [h1] at h; cases h
    · cases h; exact h1
    · rw [h1] at h; cases h; rfl
    · rw [h1] at h; cases h
  | ub x =>
    have h1 := g3 x hx
    refine ⟨fun d' => ⟨fun h => (by cases h), fun ⟨t', h⟩ => ?_⟩, fun m => ⟨fun h => (by cases h), fun h => ?_⟩, fun m => ⟨fun h => ?_, fun h => ?_⟩⟩
    · rw [h1] at h; cases h
    · rw [h1] at h; cases h
    · cases h; exact h1
    · rw [h1] at h; cases h; rfl

theorem sw_core_same {sts : List Stage} (h : SameButFor sts cfg cfg') (hs : ∀ st ∈ sts, st = .readingOrder ∨ st = .dehyphenation) (d : Document) :
    sw_core lib parse dur cfg' d = sw_core lib parse dur cfg d := by
  have hst : ∀ st, st ≠ .readingOrder → st ≠ .dehyphenation → stageSteps (env lib none parse dur) cfg' st = stageSteps (env lib none parse dur) cfg st := by
    intro st h1 h2
    have : (cfg'.stage st).disabled = (cfg.stage st).disabled := h.stages st fun hm => by
      rcases hs st hm with e | e
      · exact h1 e
      · exact h2 e
    have hE : Enabled cfg' st ↔ Enabled cfg st := by unfold Enabled; rw [this]
    unfold stageSteps
    by_cases hh : Enabled cfg st
    · rw [if_pos hh, if_pos (hE.mpr hh)]; rfl
    · rw [if_neg hh, if_neg (fun x => hh (hE.mp x))]
  unfold sw_core
  rw [h.parsing, h.fontFiles]
  simp only [List.flatMap_cons, List.flatMap_nil]
  rw [hst .glyphStatistics (by decide) (by decide), hst .diacritics (by decide) (by decide), hst .words (by decide) (by decide),
    hst .wordStatistics (by decide) (by decide), hst .segmentation (by decide) (by decide), hst .lines (by decide) (by decide),
    hst .scripts (by decide) (by decide), hst .lineStatistics (by decide) (by decide), hst .blocks (by decide) (by decide)]

/-! ## Dehyphenation -/

theorem sw_end_same (d : Document) : (sw_end cfg d).pages = (linesFromBlocks d).pages ∧ (sw_end cfg d).lines = d.lines ∧ (sw_end cfg d).fontInfos = d.fontInfos := by
  unfold sw_end linesFromBlocks
  by_cases h : Enabled cfg .dehyphenation
  · rw [if_pos h]; exact ⟨rfl, rfl, rfl⟩
  · rw [if_neg h]; exact ⟨rfl, rfl, rfl⟩

/-- A word without the marks of dehyphenation. -/
def sw_word (w : SWord) : SWord := { w with first := none, second := false }

/-- A block whose words have no marks of dehyphenation. -/
def sw_block (b : SBlock) : SBlock := { b with lines := b.lines.map fun l => ⟨l.words.map sw_word⟩ }

theorem sw_block_words (b : SBlock) : (sw_block b).words = b.words.map sw_word := by
  unfold SBlock.words sw_block
  simp only [List.flatMap_map, List.map_flatMap]

/-- The document the serializers see, without the marks of dehyphenation. -/
def sw_doc (doc : SDoc) : SDoc := { doc with pages := doc.pages.map fun p => { p with blocks := p.blocks.map sw_block } }

theorem sw_selected (roles : List Role) (doc : SDoc) : selectedBlocks roles (sw_doc doc) = (selectedBlocks roles doc).map sw_block := by
  unfold selectedBlocks sw_doc
  simp only [List.flatMap_map, List.map_flatMap]
  congr 1
  funext p
  rw [List.filter_map]
  rfl

theorem sw_chars (P : Printer) (doc : SDoc) (b : SBlock) (w : SWord) : ∀ cs, serializeChars P (sw_doc doc) (sw_block b) (sw_word w) cs = serializeChars P doc b w cs := by
  intro cs
  induction cs with
  | nil => rfl
  | cons c cs ih => unfold serializeChars; rw [ih]; rfl

theorem sw_wordChars (P : Printer) (doc : SDoc) (b : SBlock) : ∀ ws : List SWord,
    serializeWordChars P (sw_doc doc) (sw_block b) (ws.map sw_word) = serializeWordChars P doc b ws := by
  intro ws
  induction ws with
  | nil => rfl
  | cons w ws ih =>
    rw [List.map_cons]
    unfold serializeWordChars
    rw [ih]
    show (serializeChars P (sw_doc doc) (sw_block b) (sw_word w) w.chars).bind _ = _
    rw [sw_chars]

theorem sw_blockChars (P : Printer) (doc : SDoc) : ∀ bs : List SBlock, serializeBlockChars P (sw_doc doc) (bs.map sw_block) = serializeBlockChars P doc bs := by
  intro bs
  induction bs with
  | nil => rfl
  | cons b bs ih =>
    rw [List.map_cons]
    unfold serializeBlockChars
    rw [ih, sw_block_words, sw_wordChars]

theorem sw_jsonl (P : Printer) (roles : List Role) (doc : SDoc) : ∀ us, jsonl P roles (sw_doc doc) us = jsonl P roles doc us := by
  intro us
  induction us with
  | nil => rfl
  | cons u us ih =>
    unfold jsonl
    rw [ih]
    congr 1
    cases u with
    | characters =>
      show serializeBlockChars P _ _ = serializeBlockChars P _ _
      rw [sw_selected, sw_blockChars]
    | pages => simp only [serializeUnit, serializePages, sw_doc, List.flatMap_map]; rfl
    | figures => simp only [serializeUnit, serializeFigures, sw_doc, List.flatMap_map]
    | shapes => simp only [serializeUnit, serializeShapes, sw_doc, List.flatMap_map]
    | textLines => rfl
    | words =>
      simp only [serializeUnit, serializeWords]
      rw [sw_selected, List.flatMap_map]
      congr 2
      funext b
      rw [sw_block_words, List.flatMap_map]
      rfl
    | textBlocks =>
      simp only [serializeUnit, serializeTextBlocks]
      rw [sw_selected, List.flatMap_map]
      rfl

theorem sw_toSDoc {d d' : Document} (h : d'.pages = d.pages) (hl : d'.lines = d.lines) (hf : d'.fontInfos = d.fontInfos) : sw_doc (toSDoc d') = sw_doc (toSDoc d) := by
  unfold toSDoc sw_doc
  rw [h, hf]
  simp only [SDoc.mk.injEq, and_true]
  apply List.ext_getElem?
  intro k
  rw [List.getElem?_map, List.getElem?_map, List.getElem?_mapIdx, List.getElem?_mapIdx, Option.map_map, Option.map_map]
  congr 1
  funext p
  unfold toSPage
  simp only [Function.comp_apply]
  simp only [SPage.mk.injEq, true_and, and_true, List.map_map]
  congr 1
  funext b
  simp only [Function.comp_apply, toSBlock, sw_block, SBlock.mk.injEq, true_and, List.map_map, hl]
  congr 1
  funext i
  simp only [Function.comp_apply, List.map_map]
  rfl

/-- C86 (dehyphenation): switching dehyphenation off changes nothing but the plain text: the run ends in the same way, with the same JSONL output and the same drawings. -/
theorem c86_dehyphenation (h : SameButFor [.dehyphenation] cfg cfg') (d : Document) (ts : Option (List (Text.Str × ℕ))) :
    (∀ m, Cli.process (env lib none parse dur) cfg' ⟨d, ts⟩ = .throw m ↔ Cli.process (env lib none parse dur) cfg ⟨d, ts⟩ = .throw m) ∧
    (∀ m, Cli.process (env lib none parse dur) cfg' ⟨d, ts⟩ = .ub m ↔ Cli.process (env lib none parse dur) cfg ⟨d, ts⟩ = .ub m) ∧
    ∀ d1 ts1, Cli.process (env lib none parse dur) cfg ⟨d, ts⟩ = .ok (0, ⟨d1, ts1⟩) →
      ∃ d2 ts2, Cli.process (env lib none parse dur) cfg' ⟨d, ts⟩ = .ok (0, ⟨d2, ts2⟩) ∧ SameRecords d1 d2 := by
  obtain ⟨g1, g2, g3⟩ := sw_process (lib := lib) (parse := parse) (dur := dur) (cfg := cfg) d ts
  obtain ⟨g1', g2', g3'⟩ := sw_process (lib := lib) (parse := parse) (dur := dur) (cfg := cfg') d ts
  have hc := sw_core_same (lib := lib) (parse := parse) (dur := dur) h (by intro st hst; right; simpa using hst) d
  have ho : ∀ e, sw_order lib cfg' e = sw_order lib cfg e := by
    intro e
    have hE : Enabled cfg' .readingOrder ↔ Enabled cfg .readingOrder := by unfold Enabled; rw [h.stages .readingOrder (by decide)]
    unfold sw_order
    by_cases hh : Enabled cfg .readingOrder
    · rw [if_pos hh, if_pos (hE.mpr hh)]
    · rw [if_neg hh, if_neg (fun x => hh (hE.mp x))]
  have hs := sw_steps (lib := lib) (parse := parse) (dur := dur) (cfg := cfg) d
  have hs' := sw_steps (lib := lib) (parse := parse) (dur := dur) (cfg := cfg') d
  rw [hc] at hs'
  refine ⟨fun m => ?_, fun m => ?_, ?_⟩
  · rw [← g2, ← g2', hs, hs']
    cases sw_core lib parse dur cfg d with
    | throw x => exact Iff.rfl
    | ub x => exact Iff.rfl
    | ok e =>
      simp only [Outcome.bind, ho]
      cases sw_order lib cfg e <;> simp
  · rw [← g3, ← g3', hs, hs']
    cases sw_core lib parse dur cfg d with
    | throw x => exact Iff.rfl
    | ub x => exact Iff.rfl
    | ok e =>
      simp only [Outcome.bind, ho]
      cases sw_order lib cfg e <;> simp
  · intro d1 ts1 hrun
    have hr := (g1 d1).mpr ⟨ts1, hrun⟩
    rw [hs] at hr
    cases he : sw_core lib parse dur cfg d with
    | throw x => rw [he] at hr; cases hr
    | ub x => rw [he] at hr; cases hr
    | ok e =>
      rw [he] at hr hs'
      simp only [Outcome.bind] at hr hs'
      rw [ho] at hs'
      cases hee : sw_order lib cfg e with
      | throw x => rw [hee] at hr; cases hr
      | ub x => rw [hee] at hr; cases hr
      | ok e' =>
        rw [hee] at hr hs'
        simp only [Outcome.ok.injEq] at hr hs'
        obtain ⟨ts2, h2⟩ := (g1' _).mp hs'
        refine ⟨_, ts2, h2, ?_⟩
        subst hr
        obtain ⟨a1, a2, a3⟩ := sw_end_same (cfg := cfg) e'
        obtain ⟨b1, b2, b3⟩ := sw_end_same (cfg := cfg') e'
        refine ⟨fun P roles us => ?_, fun pdf kinds prelim sc oc => ?_⟩
        · rw [← sw_jsonl P roles (toSDoc (sw_end cfg' e')), sw_toSDoc (b1.trans a1.symm) (b2.trans a2.symm) (b3.trans a3.symm), sw_jsonl]
        · rw [b1, a1]
          congr 1
          apply List.map_congr_left
          intro p _
          unfold Visualization.drawnPage
          rw [b2, a2]

/-- C86 (no dehyphenation): with dehyphenation switched off, the plain text shows the words as they stand on the page, without joining any. -/
theorem c86_unjoined (hn : n ≤ 3) (hl : LibOk lib) {d d0 d1 : Document} {ts ts1 : Option (List (Text.Str × ℕ))} (hoff : ¬ Enabled cfg .dehyphenation)
    (hparse : parse cfg.parsing cfg.skipFontFiles d = .ok d0) (hp : ParsedDoc n d0)
    (hrun : Cli.process (env lib none parse dur) cfg ⟨d, ts⟩ = .ok (0, ⟨d1, ts1⟩)) (roles : List Role) :
    plainText roles (toSDoc d1) =
      ['\n', '\n'].intercalate ((((toSDoc d1).pages.flatMap (·.blocks)).filter fun b => decide (b.role ∈ roles)).map unjoined) ++ ['\n'] := by
  obtain ⟨x, hx, hd⟩ := pl_result hn hl hparse hp hrun
  rw [if_neg hoff, hx.hyphens, hp.hyphens] at hd
  rw [c34_plain_text_partial]
  congr 2
  apply List.map_congr_left
  intro b hb
  have hb := (List.mem_filter.mp hb).1
  have hw : ∀ w ∈ b.words, w.first = none ∧ w.second = false := by
    rw [hd] at hb
    obtain ⟨p, hp, hb⟩ := List.mem_flatMap.mp hb
    unfold toSDoc at hp
    obtain ⟨k, hk, rfl⟩ := List.mem_mapIdx.mp hp
    simp only [toSPage] at hb
    obtain ⟨tb, _, rfl⟩ := List.mem_map.mp hb
    intro w hw
    simp only [SBlock.words, toSBlock, List.flatMap_map] at hw
    obtain ⟨i, _, hw⟩ := List.mem_flatMap.mp hw
    obtain ⟨v, _, rfl⟩ := List.mem_map.mp hw
    exact ⟨rfl, rfl⟩
  unfold printedBlock unjoined
  congr 1
  show ((b.words.filter fun w => !w.second).map _) = _
  rw [List.filter_eq_self.mpr (by intro w h; rw [(hw w h).2]; rfl)]
  apply List.map_congr_left
  intro w h
  rw [(hw w h).1, charOut_flat]
  rfl

/-! ## Reading order -/

/-- The same page, but for the order and the roles of the blocks. -/
def sw_Reordered (p q : Page) : Prop :=
  q = { p with blocks := q.blocks, textLines := q.textLines } ∧ (q.blocks.map (·.block)).Perm (p.blocks.map (·.block))

theorem sw_reordered_symm {p q : Page} (h : sw_Reordered p q) : sw_Reordered q p := by
  obtain ⟨h1, h2⟩ := h
  refine ⟨?_, h2.symm⟩
  generalize q.blocks = x at h1 h2
  generalize q.textLines = y at h1
  subst h1
  rfl

theorem sw_reordered_trans {p q r : Page} (h : sw_Reordered p q) (h' : sw_Reordered q r) : sw_Reordered p r := by
  obtain ⟨h1, h2⟩ := h
  obtain ⟨h3, h4⟩ := h'
  refine ⟨?_, h4.trans h2⟩
  generalize q.blocks = x at h1 h2
  generalize q.textLines = y at h1
  generalize r.blocks = u at h3 h4
  generalize r.textLines = v at h3
  subst h1
  subst h3
  rfl

/-- What the reading order detection needs of the document. -/
def sw_Boxes (n : ℕ) (d : Document) : Prop := ∀ p ∈ d.pages, (∀ b ∈ p.blocks, PageBox n b.block.pos) ∧ ∀ b ∈ p.figures ++ p.graphics ++ p.shapes, RoundedBox n b

theorem sw_core_boxes (hn : n ≤ 3) (hl : LibOk lib) {d d0 e : Document} (hparse : parse cfg.parsing cfg.skipFontFiles d = .ok d0) (hp : ParsedDoc n d0)
    (he : sw_core lib parse dur cfg d = .ok e) : sw_Boxes n e := by
  let off : Config := { cfg with stage := fun st => { cfg.stage st with disabled := (cfg.stage st).disabled || decide (st = .readingOrder) || decide (st = .dehyphenation) } }
  have hsame : SameButFor [.readingOrder, .dehyphenation] cfg off := ⟨rfl, rfl, by
    intro st hst
    have h1 : st ≠ .readingOrder := fun h => hst (by rw [h]; simp)
    have h2 : st ≠ .dehyphenation := fun h => hst (by rw [h]; simp)
    simp [off, h1, h2]⟩
  have hc := sw_core_same (lib := lib) (parse := parse) (dur := dur) hsame (by simp) d
  have ho : ¬ Enabled off .readingOrder := by simp [Enabled, off]
  have hd : ¬ Enabled off .dehyphenation := by simp [Enabled, off]
  have hs := sw_steps (lib := lib) (parse := parse) (dur := dur) (cfg := off) d
  rw [hc, he] at hs
  have hs' : runAll (steps (env lib none parse dur) off) d = .ok (linesFromBlocks e) := by
    rw [hs]
    simp only [Outcome.bind, sw_order, if_neg ho, sw_end, if_neg hd]
  obtain ⟨ts', hrun⟩ := ((sw_process (lib := lib) (parse := parse) (dur := dur) (cfg := off) d none).1 _).mp hs'
  obtain ⟨x, hx⟩ := tr_trace (lib := lib) (cfg := off) hparse hrun
  have hi := (tr_inv hn hl hp hx).i9
  have h10 : x 10 = x 9 := by have := hx.readingOrder; unfold Did at this; rwa [if_neg ho] at this
  have h11 : x 11 = x 10 := by have := hx.dehyphenation; unfold Did at this; rwa [if_neg hd] at this
  have hres := hx.result
  rw [h11, h10] at hres
  intro p hp'
  have hm : ({ p with textLines := p.blocks.flatMap (·.block.lines) } : Page) ∈ (linesFromBlocks (x 9)).pages := by
    rw [← hres]; exact List.mem_map.mpr ⟨p, hp', rfl⟩
  obtain ⟨q, hq, hqe⟩ := List.mem_map.mp hm
  obtain ⟨p0, hp0, hpi⟩ := pl_forall₂_right hi.pages q hq
  have e1 : q.blocks = p.blocks := by have h := congrArg Page.blocks hqe; exact h
  have e2 : q.figures = p.figures := by have h := congrArg Page.figures hqe; exact h
  have e3 : q.graphics = p.graphics := by have h := congrArg Page.graphics hqe; exact h
  have e4 : q.shapes = p.shapes := by have h := congrArg Page.shapes hqe; exact h
  rw [← e1, ← e2, ← e3, ← e4]
  refine ⟨?_, by rw [hpi.figures, hpi.graphics, hpi.shapes]; exact hp.boxes p0 hp0⟩
  have hb := hpi.blocks
  split at hb
  · exact fun b hb' => (hb.2 b hb').1
  · rw [hb]; simp

theorem sw_order_pages (hn : n ≤ 3) (hl : LibOk lib) {e e' : Document} (hb : sw_Boxes n e) (h : sw_order lib cfg e = .ok e') :
    List.Forall₂ sw_Reordered e.pages (sw_end cfg e').pages ∧ (sw_end cfg e').lines = e.lines := by
  obtain ⟨a1, a2, _⟩ := sw_end_same (cfg := cfg) e'
  rw [a1, a2]
  unfold sw_order at h
  by_cases hE : Enabled cfg .readingOrder
  · rw [if_pos hE] at h
    unfold orderStage at h
    cases hr : predictRoles lib e with
    | throw m => rw [hr] at h; cases h
    | ub m => rw [hr] at h; cases h
    | ok rs =>
      rw [hr] at h
      have : e' = { e with pages := (assignRoles e.pages rs).map (orderPage lib e.stats) } := (Outcome.ok.inj h).symm
      subst this
      refine ⟨?_, rfl⟩
      show List.Forall₂ sw_Reordered e.pages (((assignRoles e.pages rs).map (orderPage lib e.stats)).map fun p => { p with textLines := p.blocks.flatMap (·.block.lines) })
      rw [List.map_map]
      refine pl_forall₂_mapR _ (pl_assignRoles e.pages rs (pl_predictRoles_length hr)) ?_
      intro p q hp hro
      obtain ⟨hsame, hblocks⟩ := hro
      generalize q.blocks = bs at hsame hblocks
      subst hsame
      have hperm := pl_orderPage hn hl e.stats { p with blocks := bs } (by
        intro b hb'
        have : b.block ∈ p.blocks.map (·.block) := by rw [← hblocks]; exact List.mem_map.mpr ⟨b, hb', rfl⟩
        obtain ⟨x, hx, he⟩ := List.mem_map.mp this
        rw [← he]; exact (hb p hp).1 x hx) (hb p hp).2
      refine ⟨rfl, ?_⟩
      have := hperm.map (·.block)
      simp only at this
      rw [hblocks] at this
      exact this
  · rw [if_neg hE] at h
    have : e' = e := (Outcome.ok.inj h).symm
    subst this
    refine ⟨?_, rfl⟩
    exact pl_forall₂_map _ (pl_forall₂_refl fun p _ => ⟨rfl, List.Perm.refl _⟩)

theorem sw_forall₂_mapIdx {α β : Type} {R : α → α → Prop} {S : β → β → Prop} {f g : ℕ → α → β} {l m : List α} (h : List.Forall₂ R l m)
    (hi : ∀ k a b, R a b → S (f k a) (g k b)) : List.Forall₂ S (l.mapIdx f) (m.mapIdx g) := by
  induction h generalizing f g with
  | nil => exact .nil
  | cons hab _ ih =>
    rw [List.mapIdx_cons, List.mapIdx_cons]
    exact .cons (hi 0 _ _ hab) (ih fun k a b h => hi (k + 1) a b h)

theorem sw_records {d d' : Document} (hl : d'.lines = d.lines) (k : ℕ) (p q : Page) (h : sw_Reordered p q) : SameUpToOrder (toSPage d k p) (toSPage d' k q) := by
  obtain ⟨h1, h2⟩ := h
  refine ⟨?_, fun P => ?_, fun P r => ?_⟩
  · generalize q.blocks = x at h1
    generalize q.textLines = y at h1
    subst h1
    rfl
  · have hw : ∀ (d : Document) (p : Page), wordRecords P (toSPage d k p) = (p.blocks.map (·.block)).flatMap fun b => b.lines.flatMap fun i =>
        (((d.lines[i]?).map fun l => l.line.words).getD []).map fun w => wordRecord P (toSBlock { d with hyphens := ⟨fun _ => none, fun _ => false⟩ } k ⟨b, .other⟩)
          (toSWord ⟨fun _ => none, fun _ => false⟩ k w) := by
      intro d p
      unfold wordRecords
      simp only [toSPage, List.flatMap_map]
      congr 1
      funext b
      simp only [SBlock.words, toSBlock, List.flatMap_map, List.map_flatMap, List.map_map]
      rfl
    rw [hw, hw, hl]
    exact h2.flatMap_right _
  · have hw : ∀ (d : Document) (p : Page), blockRecords P r (toSPage d k p) = (p.blocks.map (·.block)).map fun b => blockRecord P (toSBlock { d with hyphens := ⟨fun _ => none, fun _ => false⟩ } k ⟨b, r⟩) := by
      intro d p
      unfold blockRecords
      simp only [toSPage, List.map_map]
      rfl
    rw [hw, hw]
    have : ∀ b : TextBlocks.Block, blockRecord P (toSBlock { d' with hyphens := ⟨fun _ => none, fun _ => false⟩ } k ⟨b, r⟩) =
        blockRecord P (toSBlock { d with hyphens := ⟨fun _ => none, fun _ => false⟩ } k ⟨b, r⟩) := fun b => rfl
    rw [List.map_congr_left fun b _ => this b]
    exact h2.map _

/-- C86 (reading order): two runs that differ only in whether reading order detection (and dehyphenation) is switched off find the same pages, figures, shapes, words and
blocks on every page, with the same texts, positions and fonts; only the order and the roles of the blocks can be different.  If one run succeeds, so does the other one, unless
only this one predicts the roles of the blocks and the prediction fails. -/
theorem c86_reading_order (hn : n ≤ 3) (hl : LibOk lib) (h : SameButFor [.readingOrder, .dehyphenation] cfg cfg') {d d0 d1 : Document}
    {ts ts1 : Option (List (Text.Str × ℕ))} (hparse : parse cfg.parsing cfg.skipFontFiles d = .ok d0) (hp : ParsedDoc n d0)
    (hrun : Cli.process (env lib none parse dur) cfg ⟨d, ts⟩ = .ok (0, ⟨d1, ts1⟩)) :
    (∃ d2 ts2, Cli.process (env lib none parse dur) cfg' ⟨d, ts⟩ = .ok (0, ⟨d2, ts2⟩) ∧ List.Forall₂ SameUpToOrder (toSDoc d1).pages (toSDoc d2).pages) ∨
    (Enabled cfg' .readingOrder ∧ ¬ Enabled cfg .readingOrder ∧ ∃ x m, (predictRoles lib x = .throw m ∧ Cli.process (env lib none parse dur) cfg' ⟨d, ts⟩ = .throw m) ∨
      predictRoles lib x = .ub m ∧ Cli.process (env lib none parse dur) cfg' ⟨d, ts⟩ = .ub m) := by
  obtain ⟨g1, g2, g3⟩ := sw_process (lib := lib) (parse := parse) (dur := dur) (cfg := cfg) d ts
  obtain ⟨g1', g2', g3'⟩ := sw_process (lib := lib) (parse := parse) (dur := dur) (cfg := cfg') d ts
  have hc := sw_core_same (lib := lib) (parse := parse) (dur := dur) h (by simp) d
  have hs := sw_steps (lib := lib) (parse := parse) (dur := dur) (cfg := cfg) d
  have hs' := sw_steps (lib := lib) (parse := parse) (dur := dur) (cfg := cfg') d
  rw [hc] at hs'
  have hr := (g1 d1).mpr ⟨ts1, hrun⟩
  rw [hs] at hr
  cases he : sw_core lib parse dur cfg d with
  | throw x => rw [he] at hr; cases hr
  | ub x => rw [he] at hr; cases hr
  | ok e =>
    have hbox := sw_core_boxes hn hl hparse hp he
    rw [he] at hr hs'
    simp only [Outcome.bind] at hr hs'
    cases hee : sw_order lib cfg e with
    | throw x => rw [hee] at hr; cases hr
    | ub x => rw [hee] at hr; cases hr
    | ok e1 =>
      rw [hee] at hr
      simp only [Outcome.ok.injEq] at hr
      obtain ⟨q1, q2⟩ := sw_order_pages hn hl hbox hee
      have hfail : ∀ {o : Outcome Document}, sw_order lib cfg' e = o → (∀ x, o ≠ .ok x) → Enabled cfg' .readingOrder ∧ ¬ Enabled cfg .readingOrder := by
        intro o ho hno
        have hE' : Enabled cfg' .readingOrder := by
          by_contra hx
          unfold sw_order at ho
          rw [if_neg hx] at ho
          exact hno _ ho.symm
        refine ⟨hE', fun hE => ?_⟩
        unfold sw_order at ho hee
        rw [if_pos hE'] at ho
        rw [if_pos hE] at hee
        rw [hee] at ho
        exact hno _ ho.symm
      cases hee' : sw_order lib cfg' e with
      | ok e2 =>
        left
        rw [hee'] at hs'
        simp only at hs'
        obtain ⟨ts2, h2⟩ := (g1' _).mp hs'
        refine ⟨_, ts2, h2, ?_⟩
        obtain ⟨r1, r2⟩ := sw_order_pages hn hl hbox hee'
        subst hr
        have hsym : List.Forall₂ sw_Reordered (sw_end cfg e1).pages e.pages := List.Forall₂.flip (List.Forall₂.imp (fun a b hab => sw_reordered_symm hab) q1)
        have hR := pl_forall₂_trans (R := sw_Reordered) (S := sw_Reordered) (T := sw_Reordered) (fun a b c => sw_reordered_trans) hsym r1
        exact sw_forall₂_mapIdx hR fun k a b hab => sw_records (r2.trans q2.symm) k a b hab
      | throw m =>
        right
        obtain ⟨hE', hE⟩ := hfail hee' (by intro x hx; cases hx)
        refine ⟨hE', hE, e, m, .inl ⟨?_, ?_⟩⟩
        · unfold sw_order orderStage at hee'
          rw [if_pos hE'] at hee'
          cases hr : predictRoles lib e with
          | ok rs => rw [hr] at hee'; cases hee'
          | throw m' => rw [hr] at hee'; cases hee'; rfl
          | ub m' => rw [hr] at hee'; cases hee'
        · rw [hee'] at hs'
          exact (g2' m).mp hs'
      | ub m =>
        right
        obtain ⟨hE', hE⟩ := hfail hee' (by intro x hx; cases hx)
        refine ⟨hE', hE, e, m, .inr ⟨?_, ?_⟩⟩
        · unfold sw_order orderStage at hee'
          rw [if_pos hE'] at hee'
          cases hr : predictRoles lib e with
          | ok rs => rw [hr] at hee'; cases hee'
          | throw m' => rw [hr] at hee'; cases hee'
          | ub m' => rw [hr] at hee'; cases hee'; rfl
        · rw [hee'] at hs'
          exact (g3' m).mp hs'

/-! ## Examples -/

/-- All stages but the listed ones. -/
def swOff (sts : List Stage) : Config := { stage := fun st => { disabled := decide (st ∈ sts) } }

/-- The run on a parsed document with some stages switched off. -/
def swRun (sts : List Stage) (d : Document) : Outcome (ℤ × Cli.PState Document) :=
  Cli.process (env refPipeline none (fun _ _ _ => .ok d) (fun _ => 0)) (swOff sts) ⟨{}, none⟩

/-- The text that is printed then. -/
def swPrinted (sts : List Stage) (d : Document) : Option Text.Str :=
  match swRun sts d with
  | .ok (_, r) => some (Serialize.plainText allRoles (toSDoc r.doc))
  | _ => none

/-- Two words, one at the top on the right, one at the bottom on the left. -/
def swDoc : Document := apDoc [apPage 1 (apRow 1 100 10 "zz".toList ++ apRow 1 10 100 "aa".toList)]

theorem swOff_same {sts sts' rest : List Stage} (h : ∀ st, st ∉ rest → (st ∈ sts ↔ st ∈ sts')) : SameButFor rest (swOff sts) (swOff sts') :=
  ⟨rfl, rfl, fun st hst => by simp [swOff, h st hst]⟩

theorem swDoc_parsed : ParsedDoc 1 swDoc := by
  refine ⟨?_, ?_, ?_, ?_, ?_, rfl, rfl⟩
  · intro p hp c hc
    simp only [swDoc, apDoc, List.mem_singleton] at hp
    subst hp
    have e : (apPage 1 (apRow 1 100 10 "zz".toList ++ apRow 1 10 100 "aa".toList)).characters =
        [apGlyph 1 (100 : ℤ) (10 : ℤ) 'z', apGlyph 1 (105 : ℤ) (10 : ℤ) 'z', apGlyph 1 (10 : ℤ) (100 : ℤ) 'a', apGlyph 1 (15 : ℤ) (100 : ℤ) 'a'] := by
      simp [apPage, apRow]; norm_num
    rw [e] at hc
    simp only [List.mem_cons, List.not_mem_nil, or_false] at hc
    rcases hc with rfl | rfl | rfl | rfl
    all_goals exact ap_glyph_good _ _ _ _ (by norm_num) (by norm_num)
  all_goals
    intro p hp
    simp only [swDoc, apDoc, List.mem_singleton] at hp
    subst hp
    simp [apPage]

/-- The premises of the theorems are met by complete runs in which the stages make a difference: a hyphenated word is joined or not, and two blocks are printed in
different orders. -/
theorem c86_premises : LibOk refPipeline ∧ ParsedDoc 1 plDoc ∧ ParsedDoc 1 swDoc ∧ SameButFor [.dehyphenation] (swOff []) (swOff [.dehyphenation]) ∧
    SameButFor [.readingOrder, .dehyphenation] (swOff []) (swOff [.readingOrder]) ∧ ¬ Enabled (swOff [.dehyphenation]) .dehyphenation ∧
    swPrinted [] plDoc = some "a bcde f\n".toList ∧ swPrinted [.dehyphenation] plDoc = some "a bc- de f\n".toList ∧
    swPrinted [] swDoc = some "aa\n\nzz\n".toList ∧ swPrinted [.readingOrder] swDoc = some "zz\n\naa\n".toList := by
  refine ⟨refPipeline_ok, plDoc_parsed, swDoc_parsed, swOff_same (by intro st h; simp_all), swOff_same (by intro st h; simp_all), by simp [Enabled, swOff], ?_, ?_, ?_, ?_⟩
  all_goals decide +kernel

end Verif.Props

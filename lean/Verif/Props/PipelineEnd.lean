import Verif.Props.PipelineRun
import Verif.Props.Cli
import Verif.Props.Dehyphenation

/-!
# C65: the whole run
-/

namespace Verif.Props

open Verif.Math Verif.Elements Verif.Spec Verif.Words Verif.TextLines Verif.Pipeline Verif.Counter
open Verif.PageSegmentation (PElem DocStats PageElems)
open Verif.ReadingOrder (RElem Role)
open Verif.Serialize (SChar SWord SLine SBlock SPage SDoc)
open Verif.Cli (Stage StageConfig Env Config)

/-! ## Running steps -/

theorem pl_runAll_append {D : Type} (as bs : List (D → Outcome D)) : ∀ d, runAll (as ++ bs) d = (runAll as d).bind (runAll bs) := by
  induction as with
  | nil => intro d; rfl
  | cons f fs ih =>
    intro d
    rw [List.cons_append, runAll, runAll]
    cases hf : f d with
    | ok d' => simp only; exact ih d'
    | throw m => rfl
    | ub m => rfl

/-- The stage is not disabled. -/
def Enabled (cfg : Config) (st : Stage) : Prop := (cfg.stage st).disabled = false

instance (cfg : Config) (st : Stage) : Decidable (Enabled cfg st) := inferInstanceAs (Decidable (_ = _))

/-- The steps of one stage. -/
def stageSteps {D : Type} (E : Env D) (cfg : Config) (st : Stage) : List (D → Outcome D) :=
  if Enabled cfg st then [E.stage st (cfg.stage st) cfg.roles] ++
      (if st = .lines then [fun d => .ok (E.linesFromSegments d)] else []) else []

theorem pl_steps {D : Type} (E : Env D) (cfg : Config) : steps E cfg =
    [E.parse cfg.parsing cfg.skipFontFiles] ++ (stageTable.map (·.1)).flatMap (stageSteps E cfg) ++ [fun d => .ok (E.linesFromBlocks d)] := by
  unfold steps
  congr 2
  generalize stageTable.map (·.1) = l
  induction l with
  | nil => rfl
  | cons st l ih =>
    rw [List.filter_cons, List.flatMap_cons, ← ih]
    by_cases h : (cfg.stage st).disabled = false
    · simp [h, stageSteps, Enabled]
    · simp [h, stageSteps, Enabled]

/-- A run ends well, or with the failure of the role prediction. -/
def Ends (lib : Pipeline.Lib) (F Q : Document → Prop) (o : Outcome Document) : Prop :=
  (∃ d', o = .ok d' ∧ Q d') ∨ ∃ d, F d ∧ ((∃ m, predictRoles lib d = .throw m ∧ o = .throw m) ∨ ∃ m, predictRoles lib d = .ub m ∧ o = .ub m)

theorem pl_ends_bind {lib : Pipeline.Lib} {F Q Q' : Document → Prop} {as bs : List (Document → Outcome Document)} {d : Document}
    (h : Ends lib F Q (runAll as d)) (h' : ∀ d', Q d' → Ends lib F Q' (runAll bs d')) : Ends lib F Q' (runAll (as ++ bs) d) := by
  rw [pl_runAll_append]
  rcases h with ⟨d', h1, h2⟩ | ⟨d', hF, h1 | h1⟩
  · rw [h1]; exact h' d' h2
  · obtain ⟨m, h1, h2⟩ := h1; rw [h2]; exact .inr ⟨d', hF, .inl ⟨m, h1, rfl⟩⟩
  · obtain ⟨m, h1, h2⟩ := h1; rw [h2]; exact .inr ⟨d', hF, .inr ⟨m, h1, rfl⟩⟩

theorem pl_ends_one {lib : Pipeline.Lib} {F Q : Document → Prop} {f : Document → Outcome Document} {d : Document}
    (h : ∃ d', f d = .ok d' ∧ Q d') : Ends lib F Q (runAll [f] d) := by
  obtain ⟨d', h1, h2⟩ := h
  left
  refine ⟨d', ?_, h2⟩
  rw [runAll, h1]; rfl

/-! ## The document before the stages -/

/-- The document as the parser leaves it: characters on the page with rounded coordinates, and nothing detected yet. -/
structure ParsedDoc (n : ℕ) (d : Document) : Prop where
  glyphs : ∀ p ∈ d.pages, ∀ c ∈ p.characters, GoodGlyph n c
  boxes : BoxesOk n d
  words : ∀ p ∈ d.pages, p.words = []
  segments : ∀ p ∈ d.pages, p.segments = []
  blocks : ∀ p ∈ d.pages, p.blocks = []
  lines : d.lines = []
  hyphens : d.hyphens = ⟨fun _ => none, fun _ => false⟩

theorem pl_start {lib : Pipeline.Lib} {n : ℕ} {d : Document} (h : ParsedDoc n d) :
    DocInv lib n ⟨false, false, false, false, false⟩ d d := by
  refine ⟨pl_forall₂_refl ?_, ?_, by rw [h.lines]; simp, rfl, rfl⟩
  · intro p hp
    refine ⟨rfl, rfl, rfl, rfl, rfl, h.glyphs p hp, h.words p hp, by rw [h.words p hp]; simp, h.segments p hp, ?_, h.blocks p hp⟩
    rw [h.segments p hp]; simp
  · rw [h.lines, List.length_nil, List.range_zero, List.flatMap_eq_nil_iff]
    intro p hp
    rw [h.segments p hp]; rfl

/-- The stages that ran. -/
def ranOf (cfg : Config) : Ran where
  marks := decide (Enabled cfg .diacritics)
  words := decide (Enabled cfg .words)
  segments := decide (Enabled cfg .segmentation)
  lines := decide (Enabled cfg .lines)
  blocks := decide (Enabled cfg .blocks)

/-- The result of a run; `d1` is the document before dehyphenation. -/
def EndDoc (lib : Pipeline.Lib) (n : ℕ) (cfg : Config) (d0 d' : Document) : Prop :=
  ∃ d1, DocInv lib n (ranOf cfg) d0 d1 ∧
    toSDoc d' = toSDoc { d1 with hyphens := if Enabled cfg .dehyphenation then
      ((Dehyphenation.allLines (toSDoc d1)).foldl Dehyphenation.step (d1.hyphens, none)).1 else d1.hyphens }

theorem pl_stages {lib : Pipeline.Lib} {n : ℕ} (hn : n ≤ 3) (hl : LibOk lib) (le : Option ℤ) (parse : StageConfig → Bool → Document → Outcome Document) (dur : ℕ → ℕ)
    (cfg : Config) (d0 : Document) (hp : ParsedDoc n d0) :
    Ends lib (fun d => Enabled cfg .readingOrder ∧ DocInv lib n (ranOf cfg) d0 d) (EndDoc lib n cfg d0)
      (runAll ((stageTable.map (·.1)).flatMap (stageSteps (env lib le parse dur) cfg) ++ [fun d => .ok (linesFromBlocks d)]) d0) := by
  have skip : ∀ {st : Stage} {F Q : Document → Prop} {d : Document}, ¬ Enabled cfg st → Q d →
      Ends lib F Q (runAll (stageSteps (env lib le parse dur) cfg st) d) := by
    intro st F Q d h hq
    unfold stageSteps
    rw [if_neg h]
    exact .inl ⟨d, rfl, hq⟩
  have one : ∀ {st : Stage} {F Q : Document → Prop} {d : Document}, Enabled cfg st → st ≠ .lines → Ends lib F Q (runAll [stage lib st] d) →
      Ends lib F Q (runAll (stageSteps (env lib le parse dur) cfg st) d) := by
    intro st F Q d h hne hq
    unfold stageSteps
    rw [if_pos h, if_neg hne]
    exact hq
  have same : ∀ {st : Stage} {F : Document → Prop} {R : Ran} {d : Document}, st ≠ .lines →
      (∃ d', stage lib st d = .ok d' ∧ DocInv lib n R d0 d') → DocInv lib n R d0 d →
      Ends lib F (DocInv lib n R d0) (runAll (stageSteps (env lib le parse dur) cfg st) d) := by
    intro st F R d hne hs hd
    by_cases h : Enabled cfg st
    · exact one h hne (pl_ends_one hs)
    · exact skip h hd
  simp only [stageTable, List.map_cons, List.map_nil, List.flatMap_cons, List.flatMap_nil, List.append_nil, List.append_assoc]
  refine pl_ends_bind (same (by decide) (pl_glyphStage (pl_start hp)) (pl_start hp)) fun d1 h1 => ?_
  refine pl_ends_bind (Q := DocInv lib n ⟨decide (Enabled cfg .diacritics), false, false, false, false⟩ d0) ?_ fun d2 h2 => ?_
  · by_cases h : Enabled cfg .diacritics
    · exact one h (by decide) (pl_ends_one (by rw [decide_eq_true h]; exact pl_diacriticsStage h1))
    · exact skip h (by rw [decide_eq_false h]; exact h1)
  refine pl_ends_bind (Q := DocInv lib n ⟨decide (Enabled cfg .diacritics), decide (Enabled cfg .words), false, false, false⟩ d0) ?_ fun d3 h3 => ?_
  · by_cases h : Enabled cfg .words
    · exact one h (by decide) (pl_ends_one (by rw [decide_eq_true h]; exact pl_wordsStage h2))
    · exact skip h (by rw [decide_eq_false h]; exact h2)
  refine pl_ends_bind (same (by decide) (pl_wordStatsStage h3) h3) fun d4 h4 => ?_
  refine pl_ends_bind (Q := DocInv lib n ⟨decide (Enabled cfg .diacritics), decide (Enabled cfg .words), decide (Enabled cfg .segmentation), false, false⟩ d0) ?_ fun d5 h5 => ?_
  · by_cases h : Enabled cfg .segmentation
    · exact one h (by decide) (pl_ends_one (by rw [decide_eq_true h]; exact pl_segmentationStage hn hl hp.boxes h4))
    · exact skip h (by rw [decide_eq_false h]; exact h4)
  refine pl_ends_bind (Q := DocInv lib n ⟨decide (Enabled cfg .diacritics), decide (Enabled cfg .words), decide (Enabled cfg .segmentation), decide (Enabled cfg .lines), false⟩ d0) ?_ fun d6 h6 => ?_
  · by_cases h : Enabled cfg .lines
    · unfold stageSteps
      rw [if_pos h, if_pos rfl]
      refine pl_ends_bind (pl_ends_one (pl_linesStage hn hl h5)) fun d' hd' => pl_ends_one ⟨_, rfl, ?_⟩
      rw [decide_eq_true h]
      exact pl_linesFromSegments hd'
    · exact skip h (by rw [decide_eq_false h]; exact h5)
  refine pl_ends_bind (same (by decide) (pl_scriptsStage h6) h6) fun d7 h7 => ?_
  refine pl_ends_bind (same (by decide) (pl_lineStatsStage h7) h7) fun d8 h8 => ?_
  refine pl_ends_bind (Q := DocInv lib n (ranOf cfg) d0) ?_ fun d9 h9 => ?_
  · by_cases h : Enabled cfg .blocks
    · exact one h (by decide) (pl_ends_one (by unfold ranOf; rw [decide_eq_true h]; exact pl_blocksStage h8))
    · exact skip h (by unfold ranOf; rw [decide_eq_false h]; exact h8)
  refine pl_ends_bind (Q := DocInv lib n (ranOf cfg) d0) ?_ fun d10 h10 => ?_
  · by_cases h : Enabled cfg .readingOrder
    · refine one h (by decide) ?_
      cases hr : predictRoles lib d9 with
      | ok rs => exact pl_ends_one (pl_orderStage hn hl hp.boxes h9 hr)
      | throw m =>
        refine .inr ⟨d9, ⟨h, h9⟩, .inl ⟨m, hr, ?_⟩⟩
        simp only [runAll, stage, orderStage]; rw [hr]; rfl
      | ub m =>
        refine .inr ⟨d9, ⟨h, h9⟩, .inr ⟨m, hr, ?_⟩⟩
        simp only [runAll, stage, orderStage]; rw [hr]; rfl
    · exact skip h h9
  have hlast : ∀ d : Document, toSDoc (linesFromBlocks d) = toSDoc d := by
    intro d
    unfold toSDoc linesFromBlocks
    simp only
    congr 1
    apply List.ext_getElem?
    intro i
    simp only [List.getElem?_mapIdx, List.getElem?_map]
    cases d.pages[i]? <;> rfl
  refine pl_ends_bind (Q := fun d => toSDoc d = toSDoc { d10 with hyphens := if Enabled cfg .dehyphenation then
      ((Dehyphenation.allLines (toSDoc d10)).foldl Dehyphenation.step (d10.hyphens, none)).1 else d10.hyphens }) ?_ fun d11 h11 => ?_
  · by_cases h : Enabled cfg .dehyphenation
    · refine one h (by decide) (pl_ends_one ⟨_, rfl, ?_⟩)
      rw [if_pos h]
    · refine skip h ?_
      rw [if_neg h]
  · exact pl_ends_one ⟨_, rfl, d10, h10, by rw [hlast]; exact h11⟩

end Verif.Props

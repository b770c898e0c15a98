import Verif.Props.Pipeline

/-!
# C69: the documents between the stages
-/

namespace Verif.Props

open Verif.Math Verif.Elements Verif.Spec Verif.Words Verif.TextLines Verif.Pipeline Verif.Counter
open Verif.PageSegmentation (PElem DocStats PageElems)
open Verif.ReadingOrder (RElem Role)
open Verif.Cli (Stage StageConfig Env Config)

/-- `d'` is what the stage leaves of `d`. -/
def Did (lib : Pipeline.Lib) (cfg : Config) (st : Stage) (d d' : Document) : Prop :=
  if Enabled cfg st then ∃ m, stage lib st d = .ok m ∧ d' = if st = .lines then linesFromSegments m else m else d' = d

/-- A run stage by stage: `e k` is the document before the stage with number `k` (counted from 0). -/
structure TraceOf (lib : Pipeline.Lib) (cfg : Config) (d0 d' : Document) (e : ℕ → Document) : Prop where
  start : e 0 = d0
  glyphStatistics : Did lib cfg .glyphStatistics (e 0) (e 1)
  diacritics : Did lib cfg .diacritics (e 1) (e 2)
  words : Did lib cfg .words (e 2) (e 3)
  wordStatistics : Did lib cfg .wordStatistics (e 3) (e 4)
  segmentation : Did lib cfg .segmentation (e 4) (e 5)
  lines : Did lib cfg .lines (e 5) (e 6)
  scripts : Did lib cfg .scripts (e 6) (e 7)
  lineStatistics : Did lib cfg .lineStatistics (e 7) (e 8)
  blocks : Did lib cfg .blocks (e 8) (e 9)
  readingOrder : Did lib cfg .readingOrder (e 9) (e 10)
  dehyphenation : Did lib cfg .dehyphenation (e 10) (e 11)
  result : d' = linesFromBlocks (e 11)

theorem tr_append {as bs : List (Document → Outcome Document)} {d d' : Document} (h : runAll (as ++ bs) d = .ok d') :
    ∃ m, runAll as d = .ok m ∧ runAll bs m = .ok d' := by
  rw [pl_runAll_append] at h
  cases hr : runAll as d with
  | ok m => rw [hr] at h; exact ⟨m, rfl, h⟩
  | throw m => rw [hr] at h; cases h
  | ub m => rw [hr] at h; cases h

theorem tr_one {f : Document → Outcome Document} {d d' : Document} (h : runAll [f] d = .ok d') : f d = .ok d' := by
  rw [runAll] at h
  cases hf : f d with
  | ok m => rw [hf] at h; exact h
  | throw m => rw [hf] at h; cases h
  | ub m => rw [hf] at h; cases h

theorem tr_did {lib : Pipeline.Lib} {cfg : Config} {le : Option ℤ} {parse : StageConfig → Bool → Document → Outcome Document} {dur : ℕ → ℕ}
    {st : Stage} {d d' : Document} (h : runAll (stageSteps (env lib le parse dur) cfg st) d = .ok d') : Did lib cfg st d d' := by
  unfold stageSteps at h
  unfold Did
  split
  · next hE =>
    rw [if_pos hE] at h
    obtain ⟨m, h1, h2⟩ := tr_append h
    refine ⟨m, tr_one h1, ?_⟩
    split at h2
    · next hs =>
      rw [if_pos hs]
      have := tr_one h2
      simp only [Outcome.ok.injEq] at this
      exact this.symm
    · next hs =>
      rw [if_neg hs]
      simp only [runAll, Outcome.ok.injEq] at h2
      exact h2.symm
  · next hE =>
    rw [if_neg hE] at h
    simp only [runAll, Outcome.ok.injEq] at h
    exact h.symm

/-- Every run that ends with exit code 0 has a trace. -/
theorem tr_trace {lib : Pipeline.Lib} {parse : StageConfig → Bool → Document → Outcome Document} {dur : ℕ → ℕ}
    {cfg : Config} {d d0 d' : Document} {ts ts' : Option (List (Text.Str × ℕ))} (hparse : parse cfg.parsing cfg.skipFontFiles d = .ok d0)
    (hrun : Cli.process (env lib none parse dur) cfg ⟨d, ts⟩ = .ok (0, ⟨d', ts'⟩)) : ∃ e, TraceOf lib cfg d0 d' e := by
  obtain ⟨g1, g2, g3⟩ := c44_stages (env lib none parse dur) cfg d ts rfl
  have hr : runAll (steps (env lib none parse dur) cfg) d =
      runAll ((stageTable.map (·.1)).flatMap (stageSteps (env lib none parse dur) cfg) ++ [fun d => .ok (linesFromBlocks d)]) d0 := by
    rw [pl_steps, List.append_assoc, pl_runAll_append]
    have : runAll [(env lib none parse dur).parse cfg.parsing cfg.skipFontFiles] d = .ok d0 := by
      simp only [runAll, env]; rw [hparse]
    rw [this]
    rfl
  have hall : runAll (steps (env lib none parse dur) cfg) d = .ok d' := by
    cases hx : runAll (steps (env lib none parse dur) cfg) d with
    | ok x =>
      obtain ⟨t, h1, _⟩ := g1 x hx
      rw [hrun] at h1
      simp only [Outcome.ok.injEq, Prod.mk.injEq, true_and] at h1
      cases h1; rfl
    | throw m => rw [g2 m hx] at hrun; cases hrun
    | ub m => rw [g3 m hx] at hrun; cases hrun
  rw [hr] at hall
  clear hr g1 g2 g3 hrun
  obtain ⟨m, h1, h2⟩ := tr_append hall
  simp only [stageTable, List.map_cons, List.map_nil, List.flatMap_cons, List.flatMap_nil, List.append_nil] at h1
  obtain ⟨e1, s1, h1⟩ := tr_append h1
  obtain ⟨e2, s2, h1⟩ := tr_append h1
  obtain ⟨e3, s3, h1⟩ := tr_append h1
  obtain ⟨e4, s4, h1⟩ := tr_append h1
  obtain ⟨e5, s5, h1⟩ := tr_append h1
  obtain ⟨e6, s6, h1⟩ := tr_append h1
  obtain ⟨e7, s7, h1⟩ := tr_append h1
  obtain ⟨e8, s8, h1⟩ := tr_append h1
  obtain ⟨e9, s9, h1⟩ := tr_append h1
  obtain ⟨e10, s10, h1⟩ := tr_append h1
  have h3 := tr_one h2
  simp only [Outcome.ok.injEq] at h3
  refine ⟨fun k => [d0, e1, e2, e3, e4, e5, e6, e7, e8, e9, e10, m].getD k d0, rfl, tr_did s1, tr_did s2, tr_did s3, tr_did s4, tr_did s5, tr_did s6,
    tr_did s7, tr_did s8, tr_did s9, tr_did s10, tr_did h1, h3.symm⟩

/-- What holds of the documents between the stages. -/
structure TraceInv (lib : Pipeline.Lib) (n : ℕ) (cfg : Config) (d0 : Document) (e : ℕ → Document) : Prop where
  i1 : DocInv lib n ⟨false, false, false, false, false⟩ d0 (e 1)
  i2 : DocInv lib n ⟨decide (Enabled cfg .diacritics), false, false, false, false⟩ d0 (e 2)
  i3 : DocInv lib n ⟨decide (Enabled cfg .diacritics), decide (Enabled cfg .words), false, false, false⟩ d0 (e 3)
  i4 : DocInv lib n ⟨decide (Enabled cfg .diacritics), decide (Enabled cfg .words), false, false, false⟩ d0 (e 4)
  i5 : DocInv lib n ⟨decide (Enabled cfg .diacritics), decide (Enabled cfg .words), decide (Enabled cfg .segmentation), false, false⟩ d0 (e 5)
  i6 : DocInv lib n { ranOf cfg with blocks := false } d0 (e 6)
  i7 : DocInv lib n { ranOf cfg with blocks := false } d0 (e 7)
  i8 : DocInv lib n { ranOf cfg with blocks := false } d0 (e 8)
  i9 : DocInv lib n (ranOf cfg) d0 (e 9)
  i10 : DocInv lib n (ranOf cfg) d0 (e 10)

theorem tr_step {lib : Pipeline.Lib} {cfg : Config} {st : Stage} {d d' : Document} {P Q : Document → Prop} (hs : st ≠ .lines)
    (h : Did lib cfg st d d') (hp : ¬ Enabled cfg st → P d → Q d) (hd : P d) (hq : Enabled cfg st → ∃ m, stage lib st d = .ok m ∧ Q m) : Q d' := by
  unfold Did at h
  by_cases hE : Enabled cfg st
  · rw [if_pos hE] at h
    obtain ⟨m, h1, h2⟩ := h
    rw [if_neg hs] at h2
    obtain ⟨m', q1, q2⟩ := hq hE
    rw [h1] at q1
    simp only [Outcome.ok.injEq] at q1
    rw [h2, q1]; exact q2
  · rw [if_neg hE] at h
    rw [h]; exact hp hE hd

theorem tr_inv {lib : Pipeline.Lib} {n : ℕ} (hn : n ≤ 3) (hl : LibOk lib) {cfg : Config} {d0 d' : Document} {e : ℕ → Document}
    (hp : ParsedDoc n d0) (h : TraceOf lib cfg d0 d' e) : TraceInv lib n cfg d0 e := by
  have i0 : DocInv lib n ⟨false, false, false, false, false⟩ d0 (e 0) := by rw [h.start]; exact pl_start hp
  have i1 := tr_step (Q := DocInv lib n ⟨false, false, false, false, false⟩ d0) (by decide) h.glyphStatistics (fun _ x => x) i0 fun _ => pl_glyphStage i0
  have i2 := tr_step (Q := DocInv lib n ⟨decide (Enabled cfg .diacritics), false, false, false, false⟩ d0) (by decide) h.diacritics
    (fun hE x => by rw [decide_eq_false hE]; exact x) i1 fun hE => by rw [decide_eq_true hE]; exact pl_diacriticsStage i1
  have i3 := tr_step (Q := DocInv lib n ⟨decide (Enabled cfg .diacritics), decide (Enabled cfg .words), false, false, false⟩ d0) (by decide) h.words
    (fun hE x => by rw [decide_eq_false hE]; exact x) i2 fun hE => by rw [decide_eq_true hE]; exact pl_wordsStage i2
  have i4 := tr_step (Q := DocInv lib n ⟨decide (Enabled cfg .diacritics), decide (Enabled cfg .words), false, false, false⟩ d0) (by decide) h.wordStatistics
    (fun _ x => x) i3 fun _ => pl_wordStatsStage i3
  have i5 := tr_step (Q := DocInv lib n ⟨decide (Enabled cfg .diacritics), decide (Enabled cfg .words), decide (Enabled cfg .segmentation), false, false⟩ d0) (by decide) h.segmentation
    (fun hE x => by rw [decide_eq_false hE]; exact x) i4 fun hE => by rw [decide_eq_true hE]; exact pl_segmentationStage hn hl hp.boxes i4
  have i6 : DocInv lib n { ranOf cfg with blocks := false } d0 (e 6) := by
    have hd := h.lines
    unfold Did at hd
    unfold ranOf
    simp only
    split at hd
    · next hE =>
      obtain ⟨m, h1, h2⟩ := hd
      rw [if_pos rfl] at h2
      obtain ⟨m', q1, q2⟩ := pl_linesStage hn hl i5
      rw [show stage lib .lines (e 5) = linesStage lib (e 5) from rfl, q1] at h1
      simp only [Outcome.ok.injEq] at h1
      rw [h2, ← h1, decide_eq_true hE]
      exact pl_linesFromSegments q2
    · next hE => rw [hd, decide_eq_false hE]; exact i5
  have i7 := tr_step (Q := DocInv lib n { ranOf cfg with blocks := false } d0) (by decide) h.scripts (fun _ x => x) i6 fun _ => pl_scriptsStage i6
  have i8 := tr_step (Q := DocInv lib n { ranOf cfg with blocks := false } d0) (by decide) h.lineStatistics (fun _ x => x) i7 fun _ => pl_lineStatsStage i7
  have i9 := tr_step (Q := DocInv lib n (ranOf cfg) d0) (by decide) h.blocks
    (fun hE x => by unfold ranOf; rw [decide_eq_false hE]; exact x) i8 fun hE => by
      unfold ranOf; rw [decide_eq_true hE]; exact pl_blocksStage i8
  have i10 : DocInv lib n (ranOf cfg) d0 (e 10) := by
    have hd := h.readingOrder
    unfold Did at hd
    split at hd
    · next hE =>
      obtain ⟨m, h1, h2⟩ := hd
      rw [if_neg (by decide)] at h2
      have h1' : orderStage lib (e 9) = .ok m := h1
      cases hr : predictRoles lib (e 9) with
      | ok rs =>
        obtain ⟨m', q1, q2⟩ := pl_orderStage hn hl hp.boxes i9 hr
        rw [q1] at h1'
        simp only [Outcome.ok.injEq] at h1'
        rw [h2, ← h1']; exact q2
      | throw x => unfold orderStage at h1'; rw [hr] at h1'; cases h1'
      | ub x => unfold orderStage at h1'; rw [hr] at h1'; cases h1'
    · next hE => rw [hd]; exact i9
  exact ⟨i1, i2, i3, i4, i5, i6, i7, i8, i9, i10⟩

end Verif.Props

import Verif.Props.MoveEnd

/-!
# C81: moving the contents of the pages

If all characters, figures, graphics and shapes are moved by the same amount (within the range of coordinates the program
handles), the program finds the same words, segments, lines, blocks and reading order, moved by this amount, and prints the same text.
-/

namespace Verif.Props

open Verif.Math Verif.Elements Verif.Counter Verif.Spec Verif.Words Verif.TextLines Verif.Pipeline
open Verif.PageSegmentation (PElem)
open Verif.ReadingOrder (RElem Role)
open Verif.Cli (Stage StageConfig Env Config)

/-! ## Running the stages -/

/-- The steps treat the moved document like the document. -/
def mv_Moves (dx dy : ℚ) (P Q : Document → Prop) (fs : List (Document → Outcome Document)) : Prop :=
  ∀ d, P d → runAll fs (moveDoc dx dy d) = mapOk (moveDoc dx dy) (runAll fs d) ∧ ∀ d', runAll fs d = .ok d' → Q d'

theorem mv_moves_append {dx dy : ℚ} {P Q S : Document → Prop} {as bs : List (Document → Outcome Document)}
    (h1 : mv_Moves dx dy P Q as) (h2 : mv_Moves dx dy Q S bs) : mv_Moves dx dy P S (as ++ bs) := by
  intro d hd
  obtain ⟨a1, a2⟩ := h1 d hd
  rw [pl_runAll_append, pl_runAll_append, a1]
  cases hr : runAll as d with
  | throw m => exact ⟨rfl, fun _ h => by cases h⟩
  | ub m => exact ⟨rfl, fun _ h => by cases h⟩
  | ok e => exact h2 e (a2 e hr)

theorem mv_moves_one {dx dy : ℚ} {P Q : Document → Prop} {f : Document → Outcome Document}
    (h : ∀ d, P d → f (moveDoc dx dy d) = mapOk (moveDoc dx dy) (f d) ∧ ∀ d', f d = .ok d' → Q d') : mv_Moves dx dy P Q [f] := by
  intro d hd
  obtain ⟨h1, h2⟩ := h d hd
  rw [runAll, runAll, h1]
  cases hr : f d with
  | throw m => exact ⟨rfl, fun _ h => by cases h⟩
  | ub m => exact ⟨rfl, fun _ h => by cases h⟩
  | ok e =>
    refine ⟨rfl, fun d' h => ?_⟩
    simp only [runAll, Outcome.ok.injEq] at h
    rw [← h]; exact h2 e hr

theorem mv_moves_nil {dx dy : ℚ} {P Q : Document → Prop} (h : ∀ d, P d → Q d) : mv_Moves dx dy P Q [] := by
  intro d hd
  refine ⟨rfl, fun d' e => ?_⟩
  simp only [runAll, Outcome.ok.injEq] at e
  rw [← e]; exact h d hd

/-- What holds of a document between the stages. -/
def mv_Inv (dx dy : ℚ) (lib : Pipeline.Lib) (n : ℕ) (R : Ran) (d0 d : Document) : Prop := mv_DocOk n dx dy d ∧ DocInv lib n R d0 d

theorem mv_inv_ok {lib : Pipeline.Lib} {n : ℕ} {R : Ran} {d0 d d' : Document} {f : Document → Outcome Document}
    (h : ∃ m, f d = .ok m ∧ DocInv lib n R d0 m) (hd : f d = .ok d') : DocInv lib n R d0 d' := by
  obtain ⟨m, h1, h2⟩ := h
  rw [h1] at hd
  simp only [Outcome.ok.injEq] at hd
  rw [← hd]; exact h2

section
variable {lib : Pipeline.Lib} {n : ℕ} {dx dy : ℚ} {cfg : Config} {d0 : Document} {le : Option ℤ}
  {parse : StageConfig → Bool → Document → Outcome Document} {dur : ℕ → ℕ}

theorem mv_stageSteps {st : Stage} {R R' : Ran} (hst : st ≠ .lines) (hskip : ¬ Enabled cfg st → R' = R)
    (h : Enabled cfg st → ∀ d, mv_Inv dx dy lib n R d0 d → stage lib st (moveDoc dx dy d) = mapOk (moveDoc dx dy) (stage lib st d) ∧
      ∀ d', stage lib st d = .ok d' → mv_Inv dx dy lib n R' d0 d') :
    mv_Moves dx dy (mv_Inv dx dy lib n R d0) (mv_Inv dx dy lib n R' d0) (stageSteps (env lib le parse dur) cfg st) := by
  unfold stageSteps
  by_cases hE : Enabled cfg st
  · rw [if_pos hE, if_neg hst, List.append_nil]
    exact mv_moves_one (h hE)
  · rw [if_neg hE, hskip hE]
    exact mv_moves_nil fun _ h => h

/-- Detected words of a page, each with everything its line gets with it, have fewer characters than the counters can count. -/
def Countable (lib : Pipeline.Lib) (cfg : Config) (d0 : Document) : Prop :=
  ∀ p0 ∈ d0.pages, ∀ cs ws, DetectedWords lib cfg p0 cs ws →
    (((mergeStackedMathSymbols ws).flatMap (wordGroup (mergeStackedMathSymbols ws))).flatMap (·.chars)).length < 2 ^ 32

theorem mv_small {s : Bool} {d : Document} (hc : Countable lib cfg d0)
    (hi : DocInv lib n ⟨decide (Enabled cfg .diacritics), decide (Enabled cfg .words), s, false, false⟩ d0 d) : mv_Small d := by
  intro p hp
  obtain ⟨p0, hp0, hpi⟩ := pl_forall₂_right hi.pages p hp
  have hw := hpi.words
  have hch := hpi.chars
  by_cases hE : Enabled cfg .words
  · simp only [decide_eq_true hE, if_true] at hw
    obtain ⟨ws, a, h1, h2⟩ := hw
    rw [h2]
    refine hc p0 hp0 p.characters ws ⟨?_, a, ?_⟩
    · by_cases hD : Enabled cfg .diacritics
      · simp only [decide_eq_true hD, if_true] at hch
        rw [if_pos hD]; exact hch
      · simp only [decide_eq_false hD, Bool.false_eq_true, if_false] at hch
        rw [if_neg hD]; exact hch
    · rw [← hpi.num]; exact h1
  · simp only [decide_eq_false hE, Bool.false_eq_true, if_false] at hw
    rw [hw]
    simp [mv_weight]

theorem mv_docOk_start (hp : ParsedDoc n d0) (hm : CanMove dx dy d0) : mv_DocOk n dx dy d0 := by
  refine ⟨hm.glyphs, hm.boxes, ?_, ?_, by rw [hp.lines]; simp, .inl (by rw [hp.lines]; simp), ?_, ?_⟩
  · intro p h; rw [hp.words p h]; simp
  · intro p h; rw [hp.segments p h]; simp
  · rw [hp.lines]; intro i hi; simp at hi
  · intro p h; rw [hp.blocks p h]; simp

/-- The stages before reading order detection. -/
def stagesBeforeOrder : List Stage :=
  [.glyphStatistics, .diacritics, .words, .wordStatistics, .segmentation, .lines, .scripts, .lineStatistics, .blocks]

theorem mv_before (hn : n ≤ 3) (hl : LibOk lib) (hs : SteadyLib dx dy lib) (hk : ∃ k : ℤ, dx = k) (hp : ParsedDoc n d0) (hc : Countable lib cfg d0) :
    mv_Moves dx dy (mv_Inv dx dy lib n ⟨false, false, false, false, false⟩ d0) (mv_Inv dx dy lib n (ranOf cfg) d0)
      (stagesBeforeOrder.flatMap (stageSteps (env lib le parse dur) cfg)) := by
  have hbx : ∀ {R : Ran} {d : Document}, DocInv lib n R d0 d → BoxesOk n d := by
    intro R d hi p hpm b hb
    obtain ⟨p0, hp0, hpi⟩ := pl_forall₂_right hi.pages p hpm
    refine hp.boxes p0 hp0 b ?_
    rw [← hpi.figures, ← hpi.graphics, ← hpi.shapes]; exact hb
  have hgl : ∀ {R : Ran} {d : Document}, DocInv lib n R d0 d → ∀ p ∈ d.pages, ∀ c ∈ p.characters, GoodGlyph n c := by
    intro R d hi p hpm
    obtain ⟨p0, hp0, hpi⟩ := pl_forall₂_right hi.pages p hpm
    exact hpi.glyphs
  have s1 := mv_stageSteps (lib := lib) (n := n) (dx := dx) (dy := dy) (cfg := cfg) (d0 := d0) (le := le) (parse := parse) (dur := dur) (st := .glyphStatistics)
    (R := ⟨false, false, false, false, false⟩) (R' := ⟨false, false, false, false, false⟩) (by decide) (fun _ => rfl)
    fun _ d h => ⟨mv_glyphStage dx dy lib d, fun d' e => ⟨mv_glyphStage_ok h.1 e, mv_inv_ok (pl_glyphStage h.2) e⟩⟩
  have s2 := mv_stageSteps (lib := lib) (n := n) (dx := dx) (dy := dy) (cfg := cfg) (d0 := d0) (le := le) (parse := parse) (dur := dur) (st := .diacritics)
    (R := ⟨false, false, false, false, false⟩) (R' := ⟨decide (Enabled cfg .diacritics), false, false, false, false⟩) (by decide)
    (fun hE => by rw [decide_eq_false hE])
    fun hE d h => ⟨mv_diacriticsStage dx dy lib d, fun d' e => ⟨mv_diacriticsStage_ok h.1 e, by rw [decide_eq_true hE]; exact mv_inv_ok (pl_diacriticsStage h.2) e⟩⟩
  have s3 := mv_stageSteps (lib := lib) (n := n) (dx := dx) (dy := dy) (cfg := cfg) (d0 := d0) (le := le) (parse := parse) (dur := dur) (st := .words)
    (R := ⟨decide (Enabled cfg .diacritics), false, false, false, false⟩) (R' := ⟨decide (Enabled cfg .diacritics), decide (Enabled cfg .words), false, false, false⟩) (by decide)
    (fun hE => by rw [decide_eq_false hE])
    fun hE d h => ⟨mv_wordsStage lib h.1, fun d' e => ⟨mv_wordsStage_ok h.1 (hgl h.2) e, by rw [decide_eq_true hE]; exact mv_inv_ok (pl_wordsStage h.2) e⟩⟩
  have s4 := mv_stageSteps (lib := lib) (n := n) (dx := dx) (dy := dy) (cfg := cfg) (d0 := d0) (le := le) (parse := parse) (dur := dur) (st := .wordStatistics)
    (R := ⟨decide (Enabled cfg .diacritics), decide (Enabled cfg .words), false, false, false⟩) (R' := ⟨decide (Enabled cfg .diacritics), decide (Enabled cfg .words), false, false, false⟩) (by decide)
    (fun _ => rfl)
    fun _ d h => ⟨mv_wordStatsStage dx dy lib d, fun d' e => ⟨mv_wordStatsStage_ok h.1 e, mv_inv_ok (pl_wordStatsStage h.2) e⟩⟩
  have s5 := mv_stageSteps (lib := lib) (n := n) (dx := dx) (dy := dy) (cfg := cfg) (d0 := d0) (le := le) (parse := parse) (dur := dur) (st := .segmentation)
    (R := ⟨decide (Enabled cfg .diacritics), decide (Enabled cfg .words), false, false, false⟩)
    (R' := ⟨decide (Enabled cfg .diacritics), decide (Enabled cfg .words), decide (Enabled cfg .segmentation), false, false⟩) (by decide)
    (fun hE => by rw [decide_eq_false hE])
    fun hE d h => by
      obtain ⟨q1, q2⟩ := mv_segmentationStage hn hl.seg hs.seg h.1 (hbx h.2)
      exact ⟨q1, fun d' e => ⟨q2 d' e, by rw [decide_eq_true hE]; exact mv_inv_ok (pl_segmentationStage hn hl hp.boxes h.2) e⟩⟩
  have s6 : mv_Moves dx dy (mv_Inv dx dy lib n ⟨decide (Enabled cfg .diacritics), decide (Enabled cfg .words), decide (Enabled cfg .segmentation), false, false⟩ d0)
      (mv_Inv dx dy lib n { ranOf cfg with blocks := false } d0) (stageSteps (env lib le parse dur) cfg .lines) := by
    unfold stageSteps ranOf
    by_cases hE : Enabled cfg .lines
    · rw [if_pos hE, if_pos rfl, decide_eq_true hE]
      refine mv_moves_append (Q := mv_Inv dx dy lib n ⟨decide (Enabled cfg .diacritics), decide (Enabled cfg .words), decide (Enabled cfg .segmentation), true, false⟩ d0)
        (mv_moves_one fun d h => ?_) (mv_moves_one fun d h => ?_)
      · obtain ⟨q1, q2⟩ := mv_linesDoc hn hl hk hs.lines h.1 h.2 (mv_small hc h.2)
        exact ⟨q1, fun d' e => ⟨q2 d' e, mv_inv_ok (pl_linesStage hn hl h.2) e⟩⟩
      · refine ⟨?_, ?_⟩
        · simp only [mapOk, Outcome.bind, Outcome.ok.injEq]; exact mv_linesFromSegments dx dy d
        · intro d' e
          simp only [Outcome.ok.injEq] at e
          rw [← e]
          exact ⟨mv_linesFromSegments_ok h.1, pl_linesFromSegments h.2⟩
    · rw [if_neg hE, decide_eq_false hE]
      exact mv_moves_nil fun _ h => h
  have s7 := mv_stageSteps (lib := lib) (n := n) (dx := dx) (dy := dy) (cfg := cfg) (d0 := d0) (le := le) (parse := parse) (dur := dur) (st := .scripts)
    (R := { ranOf cfg with blocks := false }) (R' := { ranOf cfg with blocks := false }) (by decide) (fun _ => rfl)
    fun _ d h => by
      obtain ⟨q1, q2⟩ := mv_scriptsStage h.1
      exact ⟨q1, fun d' e => ⟨q2 d' e, mv_inv_ok (pl_scriptsStage h.2) e⟩⟩
  have s8 := mv_stageSteps (lib := lib) (n := n) (dx := dx) (dy := dy) (cfg := cfg) (d0 := d0) (le := le) (parse := parse) (dur := dur) (st := .lineStatistics)
    (R := { ranOf cfg with blocks := false }) (R' := { ranOf cfg with blocks := false }) (by decide) (fun _ => rfl)
    fun _ d h => by
      obtain ⟨q1, q2⟩ := mv_lineStatsStage lib h.1
      exact ⟨q1, fun d' e => ⟨q2 d' e, mv_inv_ok (pl_lineStatsStage h.2) e⟩⟩
  have s9 := mv_stageSteps (lib := lib) (n := n) (dx := dx) (dy := dy) (cfg := cfg) (d0 := d0) (le := le) (parse := parse) (dur := dur) (st := .blocks)
    (R := { ranOf cfg with blocks := false }) (R' := ranOf cfg) (by decide) (fun hE => by unfold ranOf; rw [decide_eq_false hE])
    fun hE d h => by
      obtain ⟨q1, q2⟩ := mv_blocksStage h.1 h.2
      refine ⟨q1, fun d' e => ⟨q2 d' e, ?_⟩⟩
      have := mv_inv_ok (pl_blocksStage h.2) e
      unfold ranOf at this ⊢
      rw [decide_eq_true hE]; exact this
  simp only [stagesBeforeOrder, List.flatMap_cons, List.flatMap_nil, List.append_nil]
  exact mv_moves_append s1 (mv_moves_append s2 (mv_moves_append s3 (mv_moves_append s4 (mv_moves_append s5 (mv_moves_append s6
    (mv_moves_append s7 (mv_moves_append s8 s9)))))))

/-- The document before reading order detection. -/
def BeforeOrder (lib : Pipeline.Lib) (cfg : Config) (d0 d : Document) : Prop :=
  runAll (stagesBeforeOrder.flatMap (stageSteps (env lib none (fun _ _ x => .ok x) fun _ => 0) cfg)) d0 = .ok d

theorem mv_stageSteps_env (st : Stage) : stageSteps (env lib le parse dur) cfg st = stageSteps (env lib none (fun _ _ x => .ok x) fun _ => 0) cfg st := rfl

theorem mv_after (hn : n ≤ 3) (hl : LibOk lib) (hs : SteadyLib dx dy lib) (hp : ParsedDoc n d0) {d : Document} (h : mv_Inv dx dy lib n (ranOf cfg) d0 d)
    (hr : Enabled cfg .readingOrder → predictRoles lib (moveDoc dx dy d) = predictRoles lib d) :
    runAll ([Stage.readingOrder, .dehyphenation].flatMap (stageSteps (env lib le parse dur) cfg) ++ [fun d => .ok (linesFromBlocks d)]) (moveDoc dx dy d) =
      mapOk (moveDoc dx dy) (runAll ([Stage.readingOrder, .dehyphenation].flatMap (stageSteps (env lib le parse dur) cfg) ++ [fun d => .ok (linesFromBlocks d)]) d) := by
  have t1 : mv_Moves dx dy (fun x => x = d) (fun _ => True) (stageSteps (env lib le parse dur) cfg .readingOrder) := by
    unfold stageSteps
    by_cases hE : Enabled cfg .readingOrder
    · rw [if_pos hE, if_neg (by decide), List.append_nil]
      refine mv_moves_one fun x hx => ?_
      subst hx
      exact ⟨(mv_orderStage hn hl.order hs.order hs.sortTop h.1 h.2 hp.boxes (hr hE)).1, fun _ _ => trivial⟩
    · rw [if_neg hE]; exact mv_moves_nil fun _ _ => trivial
  have t2 : mv_Moves dx dy (fun _ => True) (fun _ => True) (stageSteps (env lib le parse dur) cfg .dehyphenation) := by
    unfold stageSteps
    by_cases hE : Enabled cfg .dehyphenation
    · rw [if_pos hE, if_neg (by decide), List.append_nil]
      exact mv_moves_one fun x _ => ⟨mv_dehyphenationStage dx dy x, fun _ _ => trivial⟩
    · rw [if_neg hE]; exact mv_moves_nil fun _ _ => trivial
  have t3 : mv_Moves dx dy (fun _ => True) (fun _ => True) [fun d => .ok (linesFromBlocks d)] := by
    refine mv_moves_one fun x _ => ⟨?_, fun _ _ => trivial⟩
    simp only [mapOk, Outcome.bind, Outcome.ok.injEq]; exact mv_linesFromBlocks dx dy x
  simp only [List.flatMap_cons, List.flatMap_nil, List.append_nil]
  exact (mv_moves_append (mv_moves_append t1 t2) t3 d rfl).1

theorem mv_steps (hn : n ≤ 3) (hl : LibOk lib) (hs : SteadyLib dx dy lib) (hk : ∃ k : ℤ, dx = k) (hp : ParsedDoc n d0) (hm : CanMove dx dy d0)
    (hc : Countable lib cfg d0) (hr : Enabled cfg .readingOrder → ∀ d, BeforeOrder lib cfg d0 d → predictRoles lib (moveDoc dx dy d) = predictRoles lib d)
    {parse' : StageConfig → Bool → Document → Outcome Document} {a b : Document} (ha : parse cfg.parsing cfg.skipFontFiles a = .ok d0)
    (hb : parse' cfg.parsing cfg.skipFontFiles b = .ok (moveDoc dx dy d0)) :
    runAll (steps (env lib le parse' dur) cfg) b = mapOk (moveDoc dx dy) (runAll (steps (env lib le parse dur) cfg) a) := by
  have hsplit : ∀ (q : StageConfig → Bool → Document → Outcome Document) (x y : Document), q cfg.parsing cfg.skipFontFiles x = .ok y →
      runAll (steps (env lib le q dur) cfg) x = (runAll (stagesBeforeOrder.flatMap (stageSteps (env lib le parse dur) cfg)) y).bind
        (runAll ([Stage.readingOrder, .dehyphenation].flatMap (stageSteps (env lib le parse dur) cfg) ++ [fun d => .ok (linesFromBlocks d)])) := by
    intro q x y hq
    rw [pl_steps, List.append_assoc, pl_runAll_append]
    have : runAll [(env lib le q dur).parse cfg.parsing cfg.skipFontFiles] x = .ok y := by
      simp only [runAll, env]; rw [hq]
    rw [this]
    have e : stageTable.map (·.1) = stagesBeforeOrder ++ [.readingOrder, .dehyphenation] := by decide
    rw [e, List.flatMap_append, List.append_assoc]
    show runAll _ y = _
    rw [pl_runAll_append]
    rfl
  rw [hsplit parse' b _ hb, hsplit parse a _ ha]
  obtain ⟨h1, h2⟩ := mv_before (le := le) (parse := parse) (dur := dur) hn hl hs hk hp hc d0 ⟨mv_docOk_start hp hm, pl_start hp⟩
  rw [h1]
  cases he : runAll (stagesBeforeOrder.flatMap (stageSteps (env lib le parse dur) cfg)) d0 with
  | throw m => rfl
  | ub m => rfl
  | ok d => exact mv_after hn hl hs hp (h2 d he) fun hE => hr hE d he

end

/-! ## The theorems -/

/-- The words of a page: the moved characters give the moved words. -/
theorem c81_words {dx dy : ℚ} (h : HashOrder) (a a' : Active) (pageNum : ℤ) (cs : List Glyph) (hcs : ∀ c ∈ cs, Movable dx dy c.pos) :
    mapOk (fun r => mergeStackedMathSymbols r.1) (detectWords h a pageNum (cs.map (moveGlyph dx dy))) =
      mapOk (fun r => (mergeStackedMathSymbols r.1).map (moveWord dx dy)) (detectWords h a' pageNum cs) := by
  have hw := mv_detectWords (dx := dx) (dy := dy) h a a' pageNum cs hcs
  cases h1 : detectWords h a pageNum (cs.map (moveGlyph dx dy)) with
  | throw m =>
    rw [h1] at hw
    cases h2 : detectWords h a' pageNum cs with
    | throw m' => rw [h2] at hw; simp only [mapOk, Outcome.bind] at hw ⊢; exact congrArg Outcome.throw (by injection hw)
    | ub m' => rw [h2] at hw; cases hw
    | ok r => rw [h2] at hw; cases hw
  | ub m =>
    rw [h1] at hw
    cases h2 : detectWords h a' pageNum cs with
    | throw m' => rw [h2] at hw; cases hw
    | ub m' => rw [h2] at hw; simp only [mapOk, Outcome.bind] at hw ⊢; exact congrArg Outcome.ub (by injection hw)
    | ok r => rw [h2] at hw; cases hw
  | ok r =>
    rw [h1] at hw
    cases h2 : detectWords h a' pageNum cs with
    | throw m' => rw [h2] at hw; cases hw
    | ub m' => rw [h2] at hw; cases hw
    | ok r' =>
      rw [h2] at hw
      simp only [mapOk, Outcome.bind, Outcome.ok.injEq] at hw ⊢
      rw [hw, mv_stacked]

/-- The segments of a page: the moved elements give the moved segments. -/
theorem c81_segments {n : ℕ} (hn : n ≤ 3) {dx dy : ℚ} {lib : XYCut.Lib PElem} (hl : LibContract PElem.pos lib) (hs : SteadyCuts (moveElem dx dy) lib)
    (doc : PageSegmentation.DocStats) (p : PageSegmentation.PageElems)
    (hp : ∀ e ∈ p.words ++ p.figures ++ p.graphics ++ p.shapes, RoundedBox n e.pos ∧ Movable dx dy e.pos) :
    PageSegmentation.processPage doc lib (movePageElems dx dy p) = (PageSegmentation.processPage doc lib p).map (moveGroup dx dy) := by
  obtain ⟨hx, hy⟩ := c17_sorts_are_permutations hl hn
  exact mv_processPage doc hs (Q := fun a => RoundedBox n a.pos ∧ Movable dx dy a.pos) (fun _ h => h.2) (mv_permOn_and hx) (mv_permOn_and hy) hp

/-- The reading order of a page: the moved blocks are read in the same order. -/
theorem c81_order {n : ℕ} (hn : n ≤ 3) {dx dy : ℚ} {lib : XYCut.Lib RElem} (hl : LibContract RElem.pos lib) (hs : SteadyCuts (moveRElem dx dy) lib)
    {sortTop : List RElem → List RElem} (ht : ∀ l, sortTop (l.map (moveRElem dx dy)) = (sortTop l).map (moveRElem dx dy)) (st : ReadingOrder.Stats)
    (bs fs ss : List RElem) (hes : ∀ e ∈ bs ++ fs ++ ss, RoundedBox n e.pos ∧ Movable dx dy e.pos) :
    ReadingOrder.pageOrder st lib sortTop (bs.map (moveRElem dx dy)) (fs.map (moveRElem dx dy)) (ss.map (moveRElem dx dy)) =
      (ReadingOrder.pageOrder st lib sortTop bs fs ss).map (moveRElem dx dy) := by
  obtain ⟨hx, hy⟩ := c17_sorts_are_permutations hl hn
  exact mv_pageOrder hs (Q := fun a => RoundedBox n a.pos ∧ Movable dx dy a.pos) (fun _ h => h.2) (mv_permOn_and hx) (mv_permOn_and hy) st ht hes

/-- The whole run.  Two PDF files are given whose parsed contents differ only by the move (`dx` a whole number).  If the
network predicts the same roles in both runs, the second run ends exactly like the first: if the first one ends well, the second one ends well with
the moved document, and both plain text formats are the same; if the first one fails, the second one fails in the same way. -/
theorem c81_run_partial {lib : Pipeline.Lib} {n : ℕ} (hn : n ≤ 3) (hl : LibOk lib) {dx dy : ℚ} (hs : SteadyLib dx dy lib) (hk : ∃ k : ℤ, dx = k)
    {cfg : Config} {d0 a b : Document} (hp : ParsedDoc n d0) (hm : CanMove dx dy d0) (hc : Countable lib cfg d0)
    (hr : Enabled cfg .readingOrder → ∀ d, BeforeOrder lib cfg d0 d → predictRoles lib (moveDoc dx dy d) = predictRoles lib d)
    {parse parse' : StageConfig → Bool → Document → Outcome Document} (dur : ℕ → ℕ) (ts : Option (List (Text.Str × ℕ)))
    (ha : parse cfg.parsing cfg.skipFontFiles a = .ok d0) (hb : parse' cfg.parsing cfg.skipFontFiles b = .ok (moveDoc dx dy d0)) :
    (∀ d' ts', Cli.process (env lib none parse dur) cfg ⟨a, ts⟩ = .ok (0, ⟨d', ts'⟩) →
      (∃ ts'', Cli.process (env lib none parse' dur) cfg ⟨b, ts⟩ = .ok (0, ⟨moveDoc dx dy d', ts''⟩)) ∧
      ∀ roles, Serialize.plainText roles (toSDoc (moveDoc dx dy d')) = Serialize.plainText roles (toSDoc d') ∧
        Serialize.plainTextExtended roles (toSDoc (moveDoc dx dy d')) = Serialize.plainTextExtended roles (toSDoc d')) ∧
    (∀ m, Cli.process (env lib none parse dur) cfg ⟨a, ts⟩ = .throw m → Cli.process (env lib none parse' dur) cfg ⟨b, ts⟩ = .throw m) ∧
    (∀ m, Cli.process (env lib none parse dur) cfg ⟨a, ts⟩ = .ub m → Cli.process (env lib none parse' dur) cfg ⟨b, ts⟩ = .ub m) := by
  have h := mv_steps (le := none) (dur := dur) hn hl hs hk hp hm hc hr ha hb
  obtain ⟨a1, a2, a3⟩ := c44_stages (env lib none parse dur) cfg a ts rfl
  obtain ⟨b1, b2, b3⟩ := c44_stages (env lib none parse' dur) cfg b ts rfl
  cases hx : runAll (steps (env lib none parse dur) cfg) a with
  | ok x =>
    rw [hx] at h
    obtain ⟨t, e, _⟩ := a1 x hx
    obtain ⟨t', e', _⟩ := b1 _ h
    rw [e]
    refine ⟨?_, (fun m h => by cases h), (fun m h => by cases h)⟩
    intro d' ts' hrun
    simp only [Outcome.ok.injEq, Prod.mk.injEq, true_and] at hrun
    cases hrun
    exact ⟨⟨t', e'⟩, fun roles => mv_text dx dy roles x⟩
  | throw m =>
    rw [hx] at h
    rw [a2 m hx, b2 m h]
    exact ⟨(fun _ _ h => by cases h), (fun m h => h), (fun m h => by cases h)⟩
  | ub m =>
    rw [hx] at h
    rw [a3 m hx, b3 m h]
    exact ⟨(fun _ _ h => by cases h), (fun m h => by cases h), (fun m h => h)⟩

/-! ## A case -/

theorem mv_insertSorted {α : Type} {lt : α → α → Bool} {f : α → α} {x : α} (l : List α) (h : ∀ y ∈ l, lt (f x) (f y) = lt x y) :
    insertSorted lt (f x) (l.map f) = (insertSorted lt x l).map f := by
  induction l with
  | nil => rfl
  | cons y ys ih =>
    rw [List.map_cons, insertSorted, insertSorted, h y (by simp), ih fun z hz => h z (by simp [hz])]
    split <;> rfl

theorem mv_insSort {α : Type} {lt : α → α → Bool} {f : α → α} (l : List α) (h : ∀ a ∈ l, ∀ b ∈ l, lt (f a) (f b) = lt a b) :
    insSort lt (l.map f) = (insSort lt l).map f := by
  have : ∀ (l acc : List α), (∀ a ∈ l ++ acc, ∀ b ∈ l ++ acc, lt (f a) (f b) = lt a b) →
      (l.map f).foldl (fun acc x => insertSorted lt x acc) (acc.map f) = (l.foldl (fun acc x => insertSorted lt x acc) acc).map f := by
    intro l
    induction l with
    | nil => intro acc _; rfl
    | cons x l ih =>
      intro acc h
      rw [List.map_cons, List.foldl_cons, List.foldl_cons, mv_insertSorted acc fun y hy => h x (by simp) y (by simp [hy]), ih]
      intro a ha b hb
      have hmem : ∀ z, z ∈ l ++ insertSorted lt x acc → z ∈ x :: l ++ acc := by
        intro z hz
        rcases List.mem_append.mp hz with hz | hz
        · simp [hz]
        · have := (insertSorted_perm lt x acc).subset hz
          simp only [List.mem_cons, List.cons_append, List.mem_append] at this ⊢
          tauto
      exact h a (hmem a ha) b (hmem b hb)
  have h2 := this l [] (by simpa using h)
  rw [List.map_nil] at h2
  exact h2

theorem mv_refLib_steady {α : Type} {pos : α → Box} {f : α → α} {dx dy : ℚ} (hf : ∀ a, pos (f a) = moveBox dx dy (pos a)) : SteadyCuts f (refLib pos) := by
  have h1 : ∀ a b, Comparators.rightXDesc (pos (f a)) (pos (f b)) = Comparators.rightXDesc (pos a) (pos b) := by
    intro a b; rw [hf, hf]; exact mv_larger _ _ _ _
  refine ⟨?_, ?_, ?_, ?_⟩
  · intro l; exact mv_insSort l fun a _ b _ => by rw [hf, hf]; exact mv_smaller _ _ _ _
  · intro l; exact mv_insSort l fun a _ b _ => by rw [hf, hf]; exact mv_smaller _ _ _ _
  · intro l; exact mv_insSort l fun a _ b _ => h1 a b
  · intro q
    show popFirst _ _ = Option.map _ (popFirst _ _)
    unfold popFirst
    rw [mv_insSort q fun a _ b _ => h1 a b, ← List.map_reverse]
    cases (insSort (fun a b => Comparators.rightXDesc (pos a) (pos b)) q).reverse with
    | nil => rfl
    | cons t rest => simp only [List.map_cons, Option.map_some, List.map_reverse]

theorem mv_rotLeft {dx dy : ℚ} {b : Box} (h : Spec.Upright b) : (moveBox dx dy b).getRotLeftX = b.getRotLeftX + dx := by
  have e : (moveBox dx dy b).rotation = b.rotation := rfl
  unfold Box.getRotLeftX
  rw [e]
  simp only [h.1, h.2, if_false]
  split <;> rfl

theorem mv_rotLower {dx dy : ℚ} {b : Box} (h : Spec.Upright b) : (moveBox dx dy b).getRotLowerY = b.getRotLowerY + dy := by
  have e : (moveBox dx dy b).rotation = b.rotation := rfl
  unfold Box.getRotLowerY
  rw [e]
  simp only [h.1, h.2, if_false]
  split <;> rfl

theorem refPipeline_steady (dx dy : ℚ) : SteadyLib dx dy refPipeline := by
  refine ⟨⟨fun _ _ _ => rfl, fun _ => rfl, fun _ => rfl, ?_, ?_, ?_, ?_⟩, mv_refLib_steady (mv_elem_pos dx dy), mv_refLib_steady (mv_relem_pos dx dy), ?_⟩
  · intro l h
    refine mv_insSort l fun a ha b hb => ?_
    show smaller (moveBox dx dy a.pos).getRotLeftX (moveBox dx dy b.pos).getRotLeftX tol = _
    rw [mv_rotLeft (h a ha), mv_rotLeft (h b hb), mv_smaller]; rfl
  · intro l h
    refine mv_insSort l fun a ha b hb => ?_
    show larger (moveBox dx dy a.pos).getRotLeftX (moveBox dx dy b.pos).getRotLeftX tol = _
    rw [mv_rotLeft (h a ha), mv_rotLeft (h b hb), mv_larger]; rfl
  · intro l h
    refine mv_insSort l fun a ha b hb => ?_
    show smaller (moveBox dx dy a.pos).getRotLowerY (moveBox dx dy b.pos).getRotLowerY tol = _
    rw [mv_rotLower (h a ha), mv_rotLower (h b hb), mv_smaller]; rfl
  · intro l h
    refine mv_insSort l fun a ha b hb => ?_
    show larger (moveBox dx dy a.pos).getRotLowerY (moveBox dx dy b.pos).getRotLowerY tol = _
    rw [mv_rotLower (h a ha), mv_rotLower (h b hb), mv_larger]; rfl
  · intro l
    refine mv_insSort l fun a _ b _ => ?_
    unfold topFirst
    rw [mv_relem_pos, mv_relem_pos]
    exact mv_lt _ _ _

/-- What the run prints for a parsed document. -/
def printed (d : Document) : Option Text.Str :=
  match Cli.process (env refPipeline none (fun _ _ _ => .ok d) (fun _ => 0)) plConfig ⟨{}, none⟩ with
  | .ok (_, r) => some (Serialize.plainText allRoles (toSDoc r.doc))
  | _ => none

theorem mv_plGlyph_can {x y : ℚ} {t : Char} (hx : 1 ≤ x ∧ x ≤ 900) (hy : 1 ≤ y ∧ y ≤ 900) : Movable 7 3 (plGlyph x y t).pos ∧ Spec.Upright (plGlyph x y t).pos := by
  have h1 : dblMin ≤ (1 : ℚ) := by decide +kernel
  have h2 : (1000 : ℚ) ≤ dblMax := by decide +kernel
  refine ⟨⟨?_, ?_⟩, ?_⟩
  · intro z hz
    have hz : z = x ∨ z = x + 5 := hz
    rcases hz with rfl | rfl <;> refine ⟨?_, ?_, ?_, ?_⟩ <;> linarith [hx.1, hx.2]
  · intro z hz
    have hz : z = y ∨ z = y + 10 := hz
    rcases hz with rfl | rfl <;> refine ⟨?_, ?_, ?_, ?_⟩ <;> linarith [hy.1, hy.2]
  · show ((0 : ℤ) ≠ 1 ∧ (0 : ℤ) ≠ 3)
    decide

theorem plDoc_canMove : CanMove 7 3 plDoc := by
  constructor
  · intro p hp c hc
    simp only [plDoc, List.mem_singleton] at hp
    subst hp
    simp only [List.mem_cons, List.not_mem_nil, or_false] at hc
    rcases hc with rfl | rfl | rfl | rfl | rfl | rfl | rfl <;> exact mv_plGlyph_can (by norm_num) (by norm_num)
  · intro p hp b hb
    simp only [plDoc, List.mem_singleton] at hp
    subst hp
    simp at hb

theorem plDoc_countable : Countable refPipeline plConfig plDoc := by
  intro p0 hp0 cs ws hd
  simp only [plDoc, List.mem_singleton] at hp0
  subst hp0
  obtain ⟨h1, a, h2⟩ := hd
  rw [if_pos (by rfl)] at h1
  have key : (match Diacritics.processPage refPipeline.compose (plDoc.pages.flatMap (·.characters)) with
      | .ok cs' => match detectWords refPipeline.lines.hash (Active.reset 1) 1 cs' with
        | .ok (ws, _) => decide ((((mergeStackedMathSymbols ws).flatMap (wordGroup (mergeStackedMathSymbols ws))).flatMap (·.chars)).length < 2 ^ 32)
        | _ => true
      | _ => true) = true := by decide +kernel
  have h1' : Diacritics.processPage refPipeline.compose (plDoc.pages.flatMap (·.characters)) = .ok cs := h1
  have h2' : detectWords refPipeline.lines.hash (Active.reset 1) 1 cs = .ok (ws, a) := h2
  rw [h1'] at key
  simp only at key
  rw [h2'] at key
  exact of_decide_eq_true key

theorem plDoc_roles {d : Document} (h : BeforeOrder refPipeline plConfig plDoc d) : predictRoles refPipeline (moveDoc 7 3 d) = predictRoles refPipeline d := by
  have key : (match runAll (stagesBeforeOrder.flatMap (stageSteps (env refPipeline none (fun _ _ x => .ok x) fun _ => 0) plConfig)) plDoc with
      | .ok d => match predictRoles refPipeline (moveDoc 7 3 d), predictRoles refPipeline d with
        | .ok a, .ok b => decide (a = b)
        | _, _ => false
      | _ => true) = true := by decide +kernel
  unfold BeforeOrder at h
  rw [h] at key
  simp only at key
  revert key
  cases predictRoles refPipeline (moveDoc 7 3 d) <;> cases predictRoles refPipeline d <;> simp

/-- The assumptions are met: two lines of text, moved by 7 units to the right and by 3 units downwards. -/
example : ∃ d' ts' ts'', Cli.process (env refPipeline none (fun _ _ _ => .ok plDoc) fun _ => 0) plConfig ⟨{}, none⟩ = .ok (0, ⟨d', ts'⟩) ∧
    Cli.process (env refPipeline none (fun _ _ _ => .ok (moveDoc 7 3 plDoc)) fun _ => 0) plConfig ⟨{}, none⟩ = .ok (0, ⟨moveDoc 7 3 d', ts''⟩) := by
  obtain ⟨h1, h2, h3⟩ := c81_run_partial (lib := refPipeline) (n := 1) (by decide) refPipeline_ok (refPipeline_steady 7 3) ⟨7, by norm_num⟩ plDoc_parsed plDoc_canMove
    plDoc_countable (fun _ d h => plDoc_roles h) (parse := fun _ _ _ => .ok plDoc) (parse' := fun _ _ _ => .ok (moveDoc 7 3 plDoc)) (fun _ => 0) none (a := {}) (b := {}) rfl rfl
  obtain ⟨d', _, _, _, _, hr⟩ := plDoc_run
  have hok : (Cli.process (env refPipeline none (fun _ _ _ => .ok plDoc) (fun _ => 0)) plConfig ⟨{}, none⟩).isOk = true := by decide +kernel
  rcases pl_process (by decide) refPipeline_ok (fun _ _ _ => .ok plDoc) (fun _ => 0) plConfig {} plDoc none rfl plDoc_parsed with
      ⟨d', ts', h, _⟩ | ⟨_, _, _, ⟨m, _, h⟩ | ⟨m, _, h⟩⟩
  · obtain ⟨⟨ts'', h'⟩, _⟩ := h1 d' ts' h
    exact ⟨d', ts', ts'', h, h'⟩
  · rw [h] at hok; cases hok
  · rw [h] at hok; cases hok

example : printed (moveDoc 7 3 plDoc) = printed plDoc := by decide +kernel

/-! ## What does not hold -/

/-- A line of `n` times the character `t`. -/
def glyphLine (x y : ℚ) (n : ℕ) (t : Char) : List Glyph := (List.range n).map fun i => plGlyph (x + 5 * i) y t

/-- A page of four lines, the first two of which are short. -/
def fourLines : Document :=
  { pages := [{ pageNum := 1, width := 200, height := 200, characters := (glyphLine (104 / 10) 10 3 'a' ++ glyphLine (106 / 10) 22 3 'b' ++
      glyphLine 10 34 14 'c' ++ glyphLine 10 46 20 'd') }]
    fontInfos := fun _ => some ⟨400, false⟩ }

/-- Moving the contents of a page to the right by a fifth of a unit changes the text: `aaa` and `bbb` are paragraphs of their own before the
move, but not after it.  (The right edge of the trim box is found by counting edges rounded to whole units, and different edges become equal.) -/
theorem c81_fraction_refuted :
    printed fourLines = some "aaa\n\nbbb\n\ncccccccccccccc dddddddddddddddddddd\n".toList ∧
    printed (moveDoc (1 / 5) 0 fourLines) = some "aaa bbb cccccccccccccc dddddddddddddddddddd\n".toList := by
  constructor <;> decide +kernel

/-- A line turned by 90 degrees. -/
def turnedLine : Box := { pageNum := 1, leftX := 10, upperY := 20, rightX := 20, lowerY := 100, rotation := 1 }

/-- The right edge of the trim box of a segment with turned text does not move with the contents to the right, but with the contents downwards: it is the
lower edge of its lines. -/
theorem c81_turned_refuted (h : HashOrder) (hh : ∀ e : ℚ × ℕ, h.order ℚ [e] = [e]) (dx dy : ℤ) (seg : Box) :
    computeTrimBox h (moveBox dx dy seg) [moveBox dx dy turnedLine] = .ok (seg.leftX + dx, seg.upperY + dy, 100 + dy, seg.lowerY + dy) := by
  have e : (100 + (dy : ℚ)) = ((100 + dy : ℤ) : ℚ) := by push_cast; ring
  have hr : roundTo (100 + (dy : ℚ)) 0 = 100 + dy := by rw [e, roundTo_eq, pow_zero, mul_one, div_one, stdRound_int]
  have hc : countAll [roundTo ((moveBox dx dy turnedLine).getRotRightX) 0] = [(100 + (dy : ℚ), 1)] := by
    show countAll [roundTo (100 + (dy : ℚ)) 0] = _
    rw [hr]; rfl
  have ht : trimRightX h (moveBox dx dy seg).rightX [moveBox dx dy turnedLine] = .ok (100 + dy) := by
    unfold trimRightX
    simp only [List.map_cons, List.map_nil]
    rw [hc, hh]
    have hm : mostFreqAndCount (0 : ℚ) [(100 + (dy : ℚ), 1)] = .ok (100 + dy, 1) := rfl
    have hs : sumCounts [(100 + (dy : ℚ), 1)] > 0 := by show (0 + 1) % 2 ^ 32 > 0; decide
    rw [if_pos hs, hm]
    show Outcome.ok (if equalOrLarger (if ((1 : ℕ) : ℚ) > 0 then ((1 : ℕ) : ℚ) / ((1 : ℕ) : ℚ) else 0) (1 / 2) tol then _ else _) = _
    rw [if_pos]
    decide +kernel
  unfold computeTrimBox
  rw [ht]
  rfl

end Verif.Props

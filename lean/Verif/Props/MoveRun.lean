import Verif.Props.MoveStages
import Verif.Props.PipelineTrace

/-!
# C81: moving the contents — the stages after segmentation
-/

namespace Verif.Props

open Verif.Math Verif.Elements Verif.Counter Verif.Spec Verif.Words Verif.TextLines Verif.Pipeline
open Verif.PageSegmentation (PElem)
open Verif.ReadingOrder (RElem Role)

/-! ## Lines -/

theorem mv_linkGroups_prev (gs : List (List Line)) : ∀ (n : ℕ), ∀ l ∈ linkGroups n gs, ∀ q, l.prevLine = some q → q < n + gs.flatten.length := by
  induction gs with
  | nil => intro n l h; cases h
  | cons g gs ih =>
    intro n l h q hq
    rw [linkGroups] at h
    rw [List.flatten_cons, List.length_append]
    rcases List.mem_append.mp h with h | h
    · obtain ⟨i, hi, rfl⟩ := List.mem_mapIdx.mp h
      simp only at hq
      split at hq
      · simp only [Option.some.injEq] at hq; omega
      · cases hq
    · have := ih _ l h q hq; omega

theorem mv_linkGroups_length (gs : List (List Line)) : ∀ (n : ℕ), (linkGroups n gs).length = gs.flatten.length := by
  induction gs with
  | nil => intro n; rfl
  | cons g gs ih => intro n; simp only [linkGroups, linkLines, List.length_append, List.length_mapIdx, ih, List.flatten_cons]

theorem mv_linesOfSegment_keep {lib : Pipeline.Lib} {acw : ℚ} {page : List Word} {k : ℕ} {s : Segment} {r : Segment × List TextLine}
    (h : linesOfSegment lib acw page k s = .ok r) :
    r.1.pos = s.pos ∧ ∀ l ∈ r.2, ∀ q, l.prevLine = some q → q < k + r.2.length := by
  unfold linesOfSegment at h
  by_cases he : (s.words page).isEmpty = true
  · rw [if_pos he] at h
    simp only [Outcome.ok.injEq] at h
    subst h
    exact ⟨rfl, by simp⟩
  · rw [if_neg he] at h
    cases hg : segmentLines lib.lines acw page (s.words page) with
    | throw m => rw [hg] at h; cases h
    | ub m => rw [hg] at h; cases h
    | ok gs =>
      rw [hg] at h
      simp only [Outcome.bind] at h
      cases ht : computeTrimBox lib.lines.hash s.pos (gs.flatten.map (·.pos)) with
      | throw m => rw [ht] at h; cases h
      | ub m => rw [ht] at h; cases h
      | ok t =>
        rw [ht] at h
        simp only [Outcome.ok.injEq] at h
        subst h
        refine ⟨rfl, ?_⟩
        intro l hl q hq
        obtain ⟨x, hx, rfl⟩ := List.mem_map.mp hl
        simp only [List.length_map, mv_linkGroups_length]
        exact mv_linkGroups_prev gs k x hx q hq

theorem mv_linesOfSegments_keep {lib : Pipeline.Lib} {acw : ℚ} {page : List Word} (ss : List Segment) : ∀ {k : ℕ} {r : List Segment × List TextLine},
    linesOfSegments lib acw page k ss = .ok r →
    r.1.map (·.pos) = ss.map (·.pos) ∧ ∀ l ∈ r.2, ∀ q, l.prevLine = some q → q < k + r.2.length := by
  induction ss with
  | nil => intro k r h; simp only [linesOfSegments, Outcome.ok.injEq] at h; subst h; exact ⟨rfl, by simp⟩
  | cons s ss ih =>
    intro k r h
    rw [linesOfSegments] at h
    cases h1 : linesOfSegment lib acw page k s with
    | throw m => rw [h1] at h; cases h
    | ub m => rw [h1] at h; cases h
    | ok a =>
      rw [h1] at h
      simp only [Outcome.bind] at h
      cases h2 : linesOfSegments lib acw page (k + a.2.length) ss with
      | throw m => rw [h2] at h; cases h
      | ub m => rw [h2] at h; cases h
      | ok b =>
        rw [h2] at h
        simp only [Outcome.ok.injEq] at h
        subst h
        obtain ⟨a1, a2⟩ := mv_linesOfSegment_keep h1
        obtain ⟨b1, b2⟩ := ih h2
        refine ⟨by simp only [List.map_cons, a1, b1], ?_⟩
        intro l hl q hq
        simp only [List.length_append]
        rcases List.mem_append.mp hl with hl | hl
        · have := a2 l hl q hq; omega
        · have := b2 l hl q hq; omega

theorem mv_linesPages_keep {lib : Pipeline.Lib} {acw : ℚ} (ps : List Page) : ∀ {k : ℕ} {r : List Page × List TextLine},
    linesPages lib acw k ps = .ok r →
    (∀ p' ∈ r.1, ∃ p ∈ ps, p' = { p with segments := p'.segments } ∧ p'.segments.map (·.pos) = p.segments.map (·.pos)) ∧
    ∀ l ∈ r.2, ∀ q, l.prevLine = some q → q < k + r.2.length := by
  induction ps with
  | nil => intro k r h; simp only [linesPages, Outcome.ok.injEq] at h; subst h; exact ⟨by simp, by simp⟩
  | cons p ps ih =>
    intro k r h
    rw [linesPages] at h
    cases h1 : linesOfSegments lib acw p.words k p.segments with
    | throw m => rw [h1] at h; cases h
    | ub m => rw [h1] at h; cases h
    | ok a =>
      rw [h1] at h
      simp only [Outcome.bind] at h
      cases h2 : linesPages lib acw (k + a.2.length) ps with
      | throw m => rw [h2] at h; cases h
      | ub m => rw [h2] at h; cases h
      | ok b =>
        rw [h2] at h
        simp only [Outcome.ok.injEq] at h
        subst h
        obtain ⟨a1, a2⟩ := mv_linesOfSegments_keep p.segments h1
        obtain ⟨b1, b2⟩ := ih h2
        have hlen : (setHierarchy acw k a.2).length = a.2.length := by unfold setHierarchy; rw [List.length_mapIdx]
        refine ⟨?_, ?_⟩
        · intro p' hp'
          rcases List.mem_cons.mp hp' with rfl | hp'
          · exact ⟨p, by simp, rfl, a1⟩
          · obtain ⟨q, q1, q2⟩ := b1 p' hp'; exact ⟨q, by simp [q1], q2⟩
        · intro l hl q hq
          simp only [List.length_append, hlen]
          rcases List.mem_append.mp hl with hl | hl
          · unfold setHierarchy at hl
            obtain ⟨i, hi, rfl⟩ := List.mem_mapIdx.mp hl
            have := a2 a.2[i] (List.getElem_mem hi) q hq
            omega
          · have := b2 l hl q hq; omega

/-- The characters of the words of a page, each word with everything its line gets with it, are fewer than the counters can count. -/
def mv_Small (d : Document) : Prop := ∀ p ∈ d.pages, mv_weight (p.words.flatMap (wordGroup p.words)) < 2 ^ 32

theorem mv_linesDoc {n : ℕ} (hn : n ≤ 3) {dx dy : ℚ} {lib : Pipeline.Lib} (hlib : LibOk lib) (hk : ∃ k : ℤ, dx = k) (hl : SteadyLines dx dy lib.lines)
    {R : Ran} {d0 d : Document} (h : mv_DocOk n dx dy d) (hi : DocInv lib n R d0 d) (hsm : mv_Small d) :
    linesStage lib (moveDoc dx dy d) = mapOk (moveDoc dx dy) (linesStage lib d) ∧
    ∀ d', linesStage lib d = .ok d' → mv_DocOk n dx dy d' := by
  have hready : ∀ p ∈ d.pages, mv_PageReady n dx dy p := by
    intro p hp
    refine ⟨h.words p hp, h.segments p hp, ?_⟩
    obtain ⟨p0, _, hpi⟩ := pl_forall₂_right hi.pages p hp
    have hs := hpi.segments
    by_cases hR : R.segments = true
    · rw [if_pos hR] at hs
      rw [mv_weight_perm ((pl_segmentWords p hs).flatMap_right _)]
      exact hsm p hp
    · rw [if_neg hR] at hs
      rw [hs]
      simp [mv_weight]
  obtain ⟨h1, h2⟩ := mv_linesStage hk hl (c26_sorts_are_permutations hlib.lines hn) d hready
  refine ⟨h1, ?_⟩
  intro d' hd
  have h3 := h2 d' hd
  unfold linesStage at hd
  cases hr : linesPages lib d.stats.avgCharWidth 0 d.pages with
  | throw m => rw [hr] at hd; cases hd
  | ub m => rw [hr] at hd; cases hd
  | ok r =>
    rw [hr] at hd
    simp only [Outcome.bind, Outcome.ok.injEq] at hd
    subst hd
    obtain ⟨k1, k2⟩ := mv_linesPages_keep d.pages hr
    refine ⟨fun p' hp' => ?_, fun p' hp' => ?_, fun p' hp' => ?_, fun p' hp' => ?_, fun l hl => (h3 l hl).1, .inl fun l hl => (h3 l hl).2, ?_, fun p' hp' => ?_⟩
    rotate_left 4
    · intro i hi' q hq
      simp only [blocksState, List.getElem?_eq_getElem hi', Option.bind_some] at hq
      have := k2 _ (List.getElem_mem hi') q hq
      simpa using this
    all_goals obtain ⟨p, hp, e, hc⟩ := k1 p' hp'
    · rw [e]; exact h.blocks p hp
    · rw [e]; exact h.glyphs p hp
    · rw [e]; exact h.boxes p hp
    · rw [e]; exact h.words p hp
    · intro s hs
      have : s.pos ∈ p.segments.map (·.pos) := by rw [← hc]; exact List.mem_map.mpr ⟨s, hs, rfl⟩
      obtain ⟨s0, q1, q2⟩ := List.mem_map.mp this
      rw [← q2]; exact h.segments p hp s0 q1

theorem mv_linesFromSegments (dx dy : ℚ) (d : Document) : linesFromSegments (moveDoc dx dy d) = moveDoc dx dy (linesFromSegments d) := by
  unfold linesFromSegments moveDoc
  simp only [List.map_map, Function.comp_def]
  congr 1
  apply List.map_congr_left
  intro p _
  simp only [movePage, List.flatMap_map]
  rfl

theorem mv_linesFromBlocks (dx dy : ℚ) (d : Document) : linesFromBlocks (moveDoc dx dy d) = moveDoc dx dy (linesFromBlocks d) := by
  unfold linesFromBlocks moveDoc
  simp only [List.map_map, Function.comp_def]
  congr 1
  apply List.map_congr_left
  intro p _
  simp only [movePage, List.flatMap_map]
  rfl

theorem mv_linesFromSegments_ok {n : ℕ} {dx dy : ℚ} {d : Document} (h : mv_DocOk n dx dy d) : mv_DocOk n dx dy (linesFromSegments d) := by
  refine ⟨fun p' hp' => ?_, fun p' hp' => ?_, fun p' hp' => ?_, fun p' hp' => ?_, h.lines, h.bases, h.links, fun p' hp' => ?_⟩
  all_goals obtain ⟨p, hp, rfl⟩ := List.mem_map.mp hp'
  · exact h.glyphs p hp
  · exact h.boxes p hp
  · exact h.words p hp
  · exact h.segments p hp
  · exact h.blocks p hp

/-! ## Sub- and superscripts -/

theorem mv_scriptStep_movable {dx dy mf b : ℚ} {box : Box} {c : Glyph} (hb : Movable dx dy box) (hc : Movable dx dy c.pos) :
    Movable dx dy (Scripts.scriptStep mf b box c).2 := by
  unfold Scripts.scriptStep
  by_cases h1 : (smaller c.fontSize mf Scripts.fsTol && smaller c.base b Scripts.baseTol) = true
  · rw [if_pos h1]; exact hb
  · rw [if_neg h1]
    by_cases h2 : (smaller c.fontSize mf Scripts.fsTol && larger c.base b Scripts.baseTol) = true
    · rw [if_pos h2]; exact hb
    · rw [if_neg h2]; exact mv_movable_extend hb hc

theorem mv_scriptStep_first {dx dy mf b : ℚ} {box : Box} {c : Glyph} (hb : mv_Fresh box ∨ Movable dx dy box) (hc : Movable dx dy c.pos)
    (he : c.base = b) : Movable dx dy (Scripts.scriptStep mf b box c).2 := by
  have h1 : smaller c.base b Scripts.baseTol = false := by rw [smaller_false, he]; norm_num [Scripts.baseTol]
  have h2 : larger c.base b Scripts.baseTol = false := by rw [larger_false, he]; norm_num [Scripts.baseTol]
  unfold Scripts.scriptStep
  rw [h1, h2]
  simp only [Bool.and_false, Bool.false_eq_true, if_false]
  rcases hb with hb | hb
  · exact mv_movable_first hb hc
  · exact mv_movable_extend hb hc

theorem mv_scriptStep_any {dx dy mf b : ℚ} {box : Box} {c : Glyph} (hb : mv_Fresh box ∨ Movable dx dy box) (hc : Movable dx dy c.pos) :
    mv_Fresh (Scripts.scriptStep mf b box c).2 ∨ Movable dx dy (Scripts.scriptStep mf b box c).2 := by
  unfold Scripts.scriptStep
  by_cases h1 : (smaller c.fontSize mf Scripts.fsTol && smaller c.base b Scripts.baseTol) = true
  · rw [if_pos h1]; exact hb
  · rw [if_neg h1]
    by_cases h2 : (smaller c.fontSize mf Scripts.fsTol && larger c.base b Scripts.baseTol) = true
    · rw [if_pos h2]; exact hb
    · rw [if_neg h2]
      rcases hb with hb | hb
      · exact .inr (mv_movable_first hb hc)
      · exact .inr (mv_movable_extend hb hc)

theorem mv_scriptChars_box {dx dy mf b : ℚ} (cs : List Glyph) : ∀ {box : Box}, (∀ c ∈ cs, Movable dx dy c.pos) →
    (Movable dx dy box → Movable dx dy (Scripts.scriptChars mf b box cs).2) ∧
    (mv_Fresh box ∨ Movable dx dy box → mv_Fresh (Scripts.scriptChars mf b box cs).2 ∨ Movable dx dy (Scripts.scriptChars mf b box cs).2) ∧
    (mv_Fresh box ∨ Movable dx dy box → (∃ c ∈ cs, c.base = b) → Movable dx dy (Scripts.scriptChars mf b box cs).2) := by
  induction cs with
  | nil => intro box _; exact ⟨id, id, fun _ ⟨c, hc, _⟩ => by cases hc⟩
  | cons c cs ih =>
    intro box hc
    obtain ⟨i1, i2, i3⟩ := ih (box := (Scripts.scriptStep mf b box c).2) (fun x hx => hc x (by simp [hx]))
    have h0 := hc c (by simp)
    rw [Scripts.scriptChars]
    refine ⟨fun h => i1 (mv_scriptStep_movable h h0), fun h => i2 (mv_scriptStep_any h h0), ?_⟩
    rintro h ⟨x, hx, he⟩
    rcases List.mem_cons.mp hx with rfl | hx
    · exact i1 (mv_scriptStep_first h h0 he)
    · exact i3 (mv_scriptStep_any h h0) ⟨x, hx, he⟩

theorem mv_scriptWords_box {dx dy mf b : ℚ} (ws : List Word) : ∀ {box : Box}, (∀ w ∈ ws, ∀ c ∈ w.chars, Movable dx dy c.pos) →
    (Movable dx dy box → Movable dx dy (Scripts.scriptWords mf b box ws).2) ∧
    (mv_Fresh box ∨ Movable dx dy box → (∃ w ∈ ws, ∃ c ∈ w.chars, c.base = b) → Movable dx dy (Scripts.scriptWords mf b box ws).2) := by
  induction ws with
  | nil => intro box _; exact ⟨id, fun _ ⟨c, hc, _⟩ => by cases hc⟩
  | cons w ws ih =>
    intro box hc
    obtain ⟨i1, i2⟩ := ih (box := (Scripts.scriptChars mf b box w.chars).2) (fun x hx => hc x (by simp [hx]))
    obtain ⟨j1, j2, j3⟩ := mv_scriptChars_box (mf := mf) (b := b) w.chars (box := box) (hc w (by simp))
    rw [Scripts.scriptWords]
    refine ⟨fun h => i1 (j1 h), ?_⟩
    rintro h ⟨x, hx, he⟩
    rcases List.mem_cons.mp hx with rfl | hx
    · exact i1 (j3 h he)
    · exact i2 (j2 h) ⟨x, hx, he⟩

theorem mv_scriptWords_mem (mf b : ℚ) (ws : List Word) : ∀ (box : Box), List.Forall₂ (fun w v => v = { w with chars := v.chars } ∧
    v.chars.map (fun c => (c.pos, c.base)) = w.chars.map (fun c => (c.pos, c.base))) ws (Scripts.scriptWords mf b box ws).1 := by
  induction ws with
  | nil => intro box; exact .nil
  | cons w ws ih =>
    intro box
    rw [Scripts.scriptWords]
    exact .cons ⟨rfl, (mv_scriptChars_keep mf b w.chars box).2.2.2⟩ (ih _)

theorem mv_scriptLine_ok {n : ℕ} {dx dy mf : ℚ} {l : Line} (hl : mv_LineOk n dx dy l) :
    mv_LineOk n dx dy (Scripts.scriptLine mf l).1 ∧ Movable dx dy (Scripts.scriptLine mf l).2 := by
  have hf := mv_scriptWords_mem mf l.base l.words {}
  constructor
  · unfold Scripts.scriptLine
    simp only
    refine ⟨?_, ?_, hl.movable, hl.upright, ?_⟩
    · simp only
      intro he
      rw [he] at hf
      exact hl.nonempty (List.forall₂_nil_right_iff.mp hf)
    · intro v hv
      obtain ⟨w, hw, e1, e2⟩ := pl_forall₂_right hf v hv
      have ok := hl.words w hw
      have epos : v.pos = w.pos := by rw [e1]
      have eg : ∀ c ∈ v.chars, ∃ c0 ∈ w.chars, c0.pos = c.pos ∧ c0.base = c.base := by
        intro c hc
        have : (c.pos, c.base) ∈ w.chars.map (fun c => (c.pos, c.base)) := by rw [← e2]; exact List.mem_map.mpr ⟨c, hc, rfl⟩
        obtain ⟨c0, q1, q2⟩ := List.mem_map.mp this
        simp only [Prod.mk.injEq] at q2
        exact ⟨c0, q1, q2.1, q2.2⟩
      refine ⟨?_, by rw [epos]; exact ok.movable, by rw [epos]; exact ok.upright, ?_, ?_⟩
      · have := ok.page; rw [e1]; exact ⟨this.1, this.2, this.3, this.4, this.5, this.6, this.7, this.8, this.9⟩
      · intro he
        have := congrArg List.length e2
        rw [he] at this
        simp only [List.map_nil, List.length_nil, List.length_map] at this
        exact ok.chars (List.length_eq_zero_iff.mp this.symm)
      · intro c hc
        obtain ⟨c0, q1, q2, _⟩ := eg c hc
        rw [← q2]; exact ok.glyphs c0 q1
    · obtain ⟨w, hw, c, hc, he⟩ := hl.base
      obtain ⟨i, hi⟩ := List.getElem?_of_mem hw
      obtain ⟨hi1, hi2⟩ := List.getElem?_eq_some_iff.mp hi
      have hlen := hf.length_eq
      have hh := hf.get hi1 (by omega)
      simp only [List.get_eq_getElem, hi2] at hh
      refine ⟨_, List.getElem_mem (show i < (Scripts.scriptWords mf l.base {} l.words).1.length by omega), ?_⟩
      have : (c.pos, c.base) ∈ w.chars.map (fun c => (c.pos, c.base)) := List.mem_map.mpr ⟨c, hc, rfl⟩
      rw [← hh.2] at this
      obtain ⟨c', q1, q2⟩ := List.mem_map.mp this
      simp only [Prod.mk.injEq] at q2
      exact ⟨c', q1, by rw [q2.2]; exact he⟩
  · unfold Scripts.scriptLine
    exact (mv_scriptWords_box l.words fun w hw => (hl.words w hw).glyphs).2 (.inl ⟨rfl, rfl, rfl, rfl⟩) hl.base

theorem mv_scriptsStage {n : ℕ} {dx dy : ℚ} {d : Document} (h : mv_DocOk n dx dy d) :
    scriptsStage (moveDoc dx dy d) = mapOk (moveDoc dx dy) (scriptsStage d) ∧ ∀ d', scriptsStage d = .ok d' → mv_DocOk n dx dy d' := by
  constructor
  · unfold scriptsStage moveDoc
    simp only [mapOk, Outcome.bind, List.map_map, Function.comp_def]
    congr 2
    apply List.map_congr_left
    intro l hl
    have e : (moveTextLine dx dy l).line = moveLine dx dy l.line := rfl
    simp only [e, mv_scriptLine d.stats.mostFreqFontSize (h.lines l hl)]
    rfl
  · intro d' hd
    unfold scriptsStage at hd
    simp only [Outcome.ok.injEq] at hd
    subst hd
    refine ⟨h.glyphs, h.boxes, h.words, h.segments, ?_, .inr ?_, ?_, h.blocks⟩
    · intro l hl
      obtain ⟨x, hx, rfl⟩ := List.mem_map.mp hl
      exact (mv_scriptLine_ok (h.lines x hx)).1
    · intro l hl
      obtain ⟨x, hx, rfl⟩ := List.mem_map.mp hl
      exact (mv_scriptLine_ok (h.lines x hx)).2
    · have hlk := h.links
      intro i hi q hq
      simp only [List.length_map] at hi ⊢
      refine hlk i hi q ?_
      simp only [blocksState, List.getElem?_map, List.getElem?_eq_getElem hi, Option.map_some, Option.bind_some] at hq ⊢
      exact hq

/-! ## Statistics of the lines -/

theorem mv_unlessNew {dx dy : ℚ} {b : Box} (h : Movable dx dy b) : moveUnlessNew dx dy b = moveBox dx dy b := by
  unfold moveUnlessNew
  split
  · rename_i he
    rw [mv_movable_iff] at h
    rw [he] at h ⊢
    obtain ⟨⟨-, -, -, a4⟩, ⟨-, -, b3, -⟩, ⟨-, -, -, c4⟩, ⟨-, -, d3, -⟩⟩ := h
    have ex : dx = 0 := by simp only at a4 b3; linarith
    have ey : dy = 0 := by simp only at c4 d3; linarith
    subst ex ey
    simp only [moveBox, add_zero]
  · rfl

/-- The base boxes of two lines are moved alike. -/
def mv_Alike (dx dy : ℚ) (ls : List Statistics.BasedLine) : Prop :=
  (∀ l ∈ ls, l.2 = {}) ∨ (∀ l ∈ ls, Movable dx dy l.2)

/-- A line with its base box, moved. -/
def mv_based (dx dy : ℚ) (l : Statistics.BasedLine) : Statistics.BasedLine := (moveLine dx dy l.1, moveUnlessNew dx dy l.2)

theorem mv_lineStep {dx dy : ℚ} {a b : Statistics.BasedLine} (h : mv_Alike dx dy [a, b]) (k : Statistics.LineCounts) :
    Statistics.lineStep (mv_based dx dy a) (mv_based dx dy b) k = Statistics.lineStep a b k := by
  have hd : Statistics.lineDistance (mv_based dx dy a) (mv_based dx dy b) = Statistics.lineDistance a b := by
    unfold Statistics.lineDistance mv_based
    simp only
    rcases h with h | h
    · rw [h a (by simp), h b (by simp)]
      have : moveUnlessNew dx dy {} = {} := if_pos rfl
      rw [this]
    · rw [mv_unlessNew (h a (by simp)), mv_unlessNew (h b (by simp))]
      congr 2
      simp only [moveBox]; ring
  unfold Statistics.lineStep
  rw [hd]
  rfl

theorem mv_lineLoop {dx dy : ℚ} (ls : List Statistics.BasedLine) : ∀ (k : Statistics.LineCounts), mv_Alike dx dy ls →
    Statistics.lineLoop (ls.map (mv_based dx dy)) k = Statistics.lineLoop ls k := by
  induction ls with
  | nil => intro k _; rfl
  | cons a ls ih =>
    intro k h
    cases ls with
    | nil => rfl
    | cons b ls =>
      have e := ih (Statistics.lineStep a b k) (by
        rcases h with h | h
        · exact .inl fun l hl => h l (by simp only [List.mem_cons] at hl ⊢; tauto)
        · exact .inr fun l hl => h l (by simp only [List.mem_cons] at hl ⊢; tauto))
      rw [List.map_cons] at e
      rw [List.map_cons, List.map_cons, Statistics.lineLoop, Statistics.lineLoop, mv_lineStep, e]
      rcases h with h | h
      · exact .inl fun l hl => h l (by simp only [List.mem_cons, List.not_mem_nil, or_false] at hl ⊢; tauto)
      · exact .inr fun l hl => h l (by simp only [List.mem_cons, List.not_mem_nil, or_false] at hl ⊢; tauto)

theorem mv_basedLines (dx dy : ℚ) (d : Document) (s : Segment) :
    basedLines (moveDoc dx dy d) (moveSegment dx dy s) = (basedLines d s).map (mv_based dx dy) := by
  unfold basedLines moveDoc
  simp only [List.map_filterMap, List.getElem?_map]
  apply List.filterMap_congr
  intro i _
  cases d.lines[i]? <;> rfl

theorem mv_basedLines_alike {n : ℕ} {dx dy : ℚ} {d : Document} (h : mv_DocOk n dx dy d) (s : Segment) : mv_Alike dx dy (basedLines d s) := by
  have key : ∀ l ∈ basedLines d s, ∃ x ∈ d.lines, l.2 = x.base := by
    intro l hl
    obtain ⟨i, _, hi⟩ := List.mem_filterMap.mp hl
    cases hx : d.lines[i]? with
    | none => rw [hx] at hi; cases hi
    | some x =>
      rw [hx] at hi
      simp only [Option.map_some, Option.some.injEq] at hi
      exact ⟨x, List.mem_of_getElem? hx, by rw [← hi]⟩
  rcases h.bases with hb | hb
  · refine .inl fun l hl => ?_
    obtain ⟨x, hx, e⟩ := key l hl
    rw [e]; exact hb x hx
  · refine .inr fun l hl => ?_
    obtain ⟨x, hx, e⟩ := key l hl
    rw [e]; exact hb x hx

theorem mv_lineStatsStage {n : ℕ} {dx dy : ℚ} (lib : Pipeline.Lib) {d : Document} (h : mv_DocOk n dx dy d) :
    lineStatsStage lib (moveDoc dx dy d) = mapOk (moveDoc dx dy) (lineStatsStage lib d) ∧
    ∀ d', lineStatsStage lib d = .ok d' → mv_DocOk n dx dy d' := by
  have e : ((moveDoc dx dy d).pages.flatMap fun p => p.segments.map (basedLines (moveDoc dx dy d))) =
      (d.pages.flatMap fun p => p.segments.map (basedLines d)).map (List.map (mv_based dx dy)) := by
    have e1 : (moveDoc dx dy d).pages = d.pages.map (movePage dx dy) := rfl
    rw [e1, List.flatMap_map, List.map_flatMap]
    apply List.flatMap_congr
    intro p _
    have e2 : (movePage dx dy p).segments = p.segments.map (moveSegment dx dy) := rfl
    rw [e2, List.map_map, List.map_map]
    apply List.map_congr_left
    intro s _
    exact mv_basedLines dx dy d s
  have hs : Statistics.lineStatistics lib.lines d.stats ((d.pages.flatMap fun p => p.segments.map (basedLines d)).map (List.map (mv_based dx dy))) =
      Statistics.lineStatistics lib.lines d.stats (d.pages.flatMap fun p => p.segments.map (basedLines d)) := by
    have ha : ∀ s ∈ (d.pages.flatMap fun p => p.segments.map (basedLines d)), mv_Alike dx dy s := by
      intro s hs
      obtain ⟨p, _, hp⟩ := List.mem_flatMap.mp hs
      obtain ⟨g, _, rfl⟩ := List.mem_map.mp hp
      exact mv_basedLines_alike h g
    generalize (d.pages.flatMap fun p => p.segments.map (basedLines d)) = ss at ha
    have : ∀ k : Statistics.LineCounts, (ss.map (List.map (mv_based dx dy))).foldl (fun k seg => Statistics.lineLoop seg k) k =
        ss.foldl (fun k seg => Statistics.lineLoop seg k) k := by
      induction ss with
      | nil => intro k; rfl
      | cons s ss ih =>
        intro k
        rw [List.map_cons, List.foldl_cons, List.foldl_cons, mv_lineLoop s k (ha s (by simp)), ih fun x hx => ha x (by simp [hx])]
    simp only [Statistics.lineStatistics, this]
  have es : (moveDoc dx dy d).stats = d.stats := rfl
  constructor
  · unfold lineStatsStage
    rw [e, es, hs]
    cases Statistics.lineStatistics lib.lines d.stats (d.pages.flatMap fun p => p.segments.map (basedLines d)) <;> rfl
  · intro d' hd
    unfold lineStatsStage at hd
    cases hr : Statistics.lineStatistics lib.lines d.stats (d.pages.flatMap fun p => p.segments.map (basedLines d)) with
    | throw m => rw [hr] at hd; cases hd
    | ub m => rw [hr] at hd; cases hd
    | ok s =>
      rw [hr] at hd
      simp only [Outcome.bind, Outcome.ok.injEq] at hd
      subst hd
      exact ⟨h.glyphs, h.boxes, h.words, h.segments, h.lines, h.bases, h.links, h.blocks⟩

end Verif.Props

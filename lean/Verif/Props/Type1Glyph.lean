import Verif.Props.Type1

/-!
# Glyph boxes (C48)
-/

namespace Verif.Props

open Verif Verif.Type1 Verif.Spec.Type1

/-! ### Runs -/

theorem runN_add (subrs : Subrs) (m n : ℕ) (c : Cfg) :
    runN subrs (m + n) c = (runN subrs m c).bind (runN subrs n) := by
  induction m generalizing c with
  | zero => simp [runN, Outcome.bind]
  | succ m ih =>
    rw [Nat.succ_add]
    simp only [runN]
    cases step subrs c with
    | ok c' => simp only [Outcome.bind]; exact ih c'
    | throw m => rfl
    | ub m => rfl

/-- `Reach subrs c c'`: the interpreter gets from `c` to `c'`. -/
def Reach (subrs : Subrs) (c c' : Cfg) : Prop := ∃ n, runN subrs n c = .ok c'

theorem Reach.refl (subrs : Subrs) (c : Cfg) : Reach subrs c c := ⟨0, rfl⟩

theorem Reach.trans {subrs : Subrs} {a b c : Cfg} (h1 : Reach subrs a b) (h2 : Reach subrs b c) :
    Reach subrs a c := by
  obtain ⟨m, hm⟩ := h1
  obtain ⟨n, hn⟩ := h2
  exact ⟨m + n, by rw [runN_add, hm]; exact hn⟩

theorem Reach.step {subrs : Subrs} {a b : Cfg} (h : step subrs a = .ok b) : Reach subrs a b :=
  ⟨1, by simp [runN, h, Outcome.bind]⟩

/-! ### Boxes -/

theorem isGlyphBox_congr {l u r w : ℤ} {a b : List (ℤ × ℤ)} (h : ∀ p, p ∈ a ↔ p ∈ b)
    (hb : IsGlyphBox l u r w a) : IsGlyphBox l u r w b := by
  obtain ⟨h1, ⟨p2, m2, e2⟩, ⟨p3, m3, e3⟩, ⟨p4, m4, e4⟩, ⟨p5, m5, e5⟩⟩ := hb
  exact ⟨fun p hp => h1 p ((h p).mpr hp), ⟨p2, (h _).mp m2, e2⟩, ⟨p3, (h _).mp m3, e3⟩,
    ⟨p4, (h _).mp m4, e4⟩, ⟨p5, (h _).mp m5, e5⟩⟩

theorem isGlyphBox_snoc {l u r w : ℤ} {pts : List (ℤ × ℤ)} (hb : IsGlyphBox l u r w pts)
    (x y : ℤ) :
    IsGlyphBox (min l x) (min u y) (max r x) (max w y) (pts ++ [(x, y)]) := by
  obtain ⟨h1, ⟨p2, m2, e2⟩, ⟨p3, m3, e3⟩, ⟨p4, m4, e4⟩, ⟨p5, m5, e5⟩⟩ := hb
  refine ⟨?_, ?_, ?_, ?_, ?_⟩
  · intro p hp
    rcases List.mem_append.mp hp with h | h
    · have := h1 p h; omega
    · simp at h; subst h; simp
  · rcases le_total l x with h | h
    · exact ⟨p2, by simp [m2], by omega⟩
    · exact ⟨(x, y), by simp, by simp; omega⟩
  · rcases le_total r x with h | h
    · exact ⟨(x, y), by simp, by simp; omega⟩
    · exact ⟨p3, by simp [m3], by omega⟩
  · rcases le_total u y with h | h
    · exact ⟨p4, by simp [m4], by omega⟩
    · exact ⟨(x, y), by simp, by simp; omega⟩
  · rcases le_total w y with h | h
    · exact ⟨(x, y), by simp, by simp; omega⟩
    · exact ⟨p5, by simp [m5], by omega⟩

theorem isGlyphBox_single (x y : ℤ) : IsGlyphBox x y x y [(x, y)] := by
  refine ⟨?_, ⟨(x, y), by simp, rfl⟩, ⟨(x, y), by simp, rfl⟩, ⟨(x, y), by simp, rfl⟩,
    ⟨(x, y), by simp, rfl⟩⟩
  intro p hp; simp at hp; subst hp; simp

/-- The state of the program matches the state of the specification after the points `pts`. -/
structure Good (st : St) (s : S) (pts : List (ℤ × ℤ)) : Prop where
  x : st.curX = s.x
  y : st.curY = s.y
  args : st.args = s.stack
  interp : st.interp = s.ps
  fresh : pts = [] → st.leftX = intMax ∧ st.upperY = intMax ∧ st.rightX = intMin ∧ st.lowerY = intMin
  box : pts ≠ [] → IsGlyphBox st.leftX st.upperY st.rightX st.lowerY pts ∧ (s.x, s.y) ∈ pts

theorem good_congr {st : St} {s : S} {a b : List (ℤ × ℤ)} (h : ∀ p, p ∈ a ↔ p ∈ b)
    (hg : Good st s a) : Good st s b := by
  have hn : a = [] ↔ b = [] := by
    constructor
    · rintro rfl
      exact List.eq_nil_iff_forall_not_mem.mpr fun p hp => by simpa using (h p).mpr hp
    · rintro rfl
      exact List.eq_nil_iff_forall_not_mem.mpr fun p hp => by simpa using (h p).mp hp
  refine ⟨hg.x, hg.y, hg.args, hg.interp, fun hb => hg.fresh (hn.mpr hb), fun hb => ?_⟩
  obtain ⟨h1, h2⟩ := hg.box (fun e => hb (hn.mp e))
  exact ⟨isGlyphBox_congr h h1, (h _).mp h2⟩

/-- Changing only the stacks. -/
theorem good_stack {st : St} {s : S} {pts : List (ℤ × ℤ)} (hg : Good st s pts)
    (as is : List ℤ) :
    Good { st with args := as, interp := is } ⟨s.x, s.y, as, is⟩ pts :=
  ⟨hg.x, hg.y, rfl, rfl, hg.fresh, hg.box⟩

theorem good_jump {st : St} {s : S} {pts : List (ℤ × ℤ)} (hg : Good st s pts) (px py : ℤ)
    (hx : IsInt32 px) (hy : IsInt32 py) :
    Good (st.jump px py) ⟨px, py, s.stack, s.ps⟩ (pts ++ [(px, py)]) := by
  refine ⟨rfl, rfl, hg.args, hg.interp, fun h => by simp at h, fun _ => ⟨?_, by simp⟩⟩
  by_cases hn : pts = []
  · obtain ⟨h1, h2, h3, h4⟩ := hg.fresh hn
    subst hn
    simp only [St.jump, St.growX, St.growY, h1, h2, h3, h4, List.nil_append]
    unfold IsInt32 at hx hy
    rw [show min intMax px = px by unfold intMax; omega, show min intMax py = py by unfold intMax; omega,
      show max intMin px = px by unfold intMin; omega, show max intMin py = py by unfold intMin; omega]
    exact isGlyphBox_single px py
  · exact isGlyphBox_snoc (hg.box hn).1 px py

theorem chk_ok {v : ℤ} (h : IsInt32 v) : chk v = .ok v := by
  unfold IsInt32 at h
  unfold chk inInt intMin intMax
  rw [if_pos]
  simp; omega

theorem good_moveBy {st : St} {s : S} {pts : List (ℤ × ℤ)} (hg : Good st s pts) (dx dy : ℤ)
    (hx : IsInt32 (s.x + dx)) (hy : IsInt32 (s.y + dy)) :
    ∃ st', st.moveBy dx dy = .ok st' ∧
      Good st' ⟨s.x + dx, s.y + dy, s.stack, s.ps⟩ (pts ++ [(s.x + dx, s.y + dy)]) := by
  refine ⟨st.jump (s.x + dx) (s.y + dy), ?_, good_jump hg _ _ hx hy⟩
  unfold St.moveBy
  rw [hg.x, hg.y, chk_ok hx]
  simp only [Outcome.bind]
  rw [chk_ok hy]

theorem good_moveX {st : St} {s : S} {pts : List (ℤ × ℤ)} (hg : Good st s pts) (hn : pts ≠ [])
    (dx : ℤ) (hx : IsInt32 (s.x + dx)) :
    ∃ st', st.moveX dx = .ok st' ∧
      Good st' ⟨s.x + dx, s.y, s.stack, s.ps⟩ (pts ++ [(s.x + dx, s.y)]) := by
  refine ⟨{ st with curX := s.x + dx }.growX (s.x + dx), ?_, ?_⟩
  · unfold St.moveX
    rw [hg.x, chk_ok hx]
    simp only [Outcome.bind]
  · obtain ⟨hb, hm⟩ := hg.box hn
    refine ⟨rfl, hg.y, hg.args, hg.interp, fun h => by simp at h, fun _ => ⟨?_, by simp⟩⟩
    have h := isGlyphBox_snoc hb (s.x + dx) s.y
    have hin := hb.1 _ hm
    simp only at hin
    rw [min_eq_left hin.2.2.1, max_eq_left hin.2.2.2] at h
    exact h

theorem good_moveY {st : St} {s : S} {pts : List (ℤ × ℤ)} (hg : Good st s pts) (hn : pts ≠ [])
    (dy : ℤ) (hy : IsInt32 (s.y + dy)) :
    ∃ st', st.moveY dy = .ok st' ∧
      Good st' ⟨s.x, s.y + dy, s.stack, s.ps⟩ (pts ++ [(s.x, s.y + dy)]) := by
  refine ⟨{ st with curY := s.y + dy }.growY (s.y + dy), ?_, ?_⟩
  · unfold St.moveY
    rw [hg.y, chk_ok hy]
    simp only [Outcome.bind]
  · obtain ⟨hb, hm⟩ := hg.box hn
    refine ⟨hg.x, rfl, hg.args, hg.interp, fun h => by simp at h, fun _ => ⟨?_, by simp⟩⟩
    have h := isGlyphBox_snoc hb s.x (s.y + dy)
    have hin := hb.1 _ hm
    simp only at hin
    rw [min_eq_left hin.1, max_eq_left hin.2.1] at h
    exact h

theorem good_curve {st : St} {s : S} {pts : List (ℤ × ℤ)} (hg : Good st s pts) (hn : pts ≠ [])
    (dx1 dy1 dx2 dy2 dx3 dy3 : ℤ)
    (h1 : IsInt32 (s.x + dx1)) (h2 : IsInt32 (s.y + dy1))
    (h3 : IsInt32 (s.x + dx1 + dx2)) (h4 : IsInt32 (s.y + dy1 + dy2))
    (h5 : IsInt32 (s.x + dx1 + dx2 + dx3)) (h6 : IsInt32 (s.y + dy1 + dy2 + dy3)) :
    ∃ st', st.curve dx1 dy1 dx2 dy2 dx3 dy3 = .ok st' ∧
      Good st' ⟨s.x + dx1 + dx2 + dx3, s.y + dy1 + dy2 + dy3, s.stack, s.ps⟩
        (pts ++ [(s.x, s.y), (s.x + dx1, s.y + dy1), (s.x + dx1 + dx2, s.y + dy1 + dy2),
          (s.x + dx1 + dx2 + dx3, s.y + dy1 + dy2 + dy3)]) := by
  obtain ⟨hb, hm⟩ := hg.box hn
  unfold St.curve
  rw [hg.x, hg.y, chk_ok h1]
  simp only [Outcome.bind]
  rw [chk_ok h2]
  simp only
  rw [chk_ok h3]
  simp only
  rw [chk_ok h4]
  simp only
  rw [chk_ok h5]
  simp only
  rw [chk_ok h6]
  refine ⟨_, rfl, ?_⟩
  refine ⟨rfl, rfl, hg.args, hg.interp, fun h => by simp at h, fun _ => ⟨?_, by simp⟩⟩
  have h := isGlyphBox_snoc (isGlyphBox_snoc (isGlyphBox_snoc hb (s.x + dx1) (s.y + dy1))
    (s.x + dx1 + dx2) (s.y + dy1 + dy2)) (s.x + dx1 + dx2 + dx3) (s.y + dy1 + dy2 + dy3)
  refine isGlyphBox_congr ?_ h
  intro p
  simp only [List.mem_append, List.mem_cons, List.not_mem_nil, or_false]
  constructor
  · tauto
  · rintro (h | rfl | h | h | h)
    · tauto
    · tauto
    · tauto
    · tauto
    · tauto

/-! ### Single commands -/

theorem step_op (subrs : Subrs) (b : ℕ) (pre post : List ℕ) (rest : List (List ℕ × ℕ)) (st : St)
    (h1 : b < 32) (h2 : b ≠ 10) (h3 : b ≠ 12) :
    step subrs ⟨(pre ++ [b] ++ post, pre.length) :: rest, st⟩ =
      (op b st).bind fun s => .ok ⟨(pre ++ [b] ++ post, pre.length + 1) :: rest, s⟩ := by
  unfold step
  simp only
  rw [if_neg (by simp), getD_at, if_pos h1, if_neg h2, if_neg h3]

theorem step_escape (subrs : Subrs) (b : ℕ) (pre post : List ℕ) (rest : List (List ℕ × ℕ))
    (st : St) :
    step subrs ⟨(pre ++ [12, b] ++ post, pre.length) :: rest, st⟩ =
      (escape b st).bind fun s => .ok ⟨(pre ++ [12, b] ++ post, pre.length + 2) :: rest, s⟩ := by
  unfold step
  simp only
  rw [if_neg (by simp), getD_at, if_pos (by omega), if_neg (by omega), if_pos rfl,
    rd_at pre post _ 1 _ (by simp; rfl)]
  simp only [Outcome.bind]

/-- The program's treatment of a command that is not a number or a call. -/
def perform (t : Tok) (st : St) : Outcome St :=
  match code t with
  | [b] => op b st
  | [_, b] => escape b st
  | _ => .ok st

/-- The outline may start with these pieces. -/
def OkStart (pts : List (ℤ × ℤ)) (g : List Seg) : Prop :=
  pts ≠ [] ∨ g = [] ∨ ∃ x y r, g = .set x y :: r

theorem drop_all (st : St) (k : ℕ) (as : List ℤ) (h : st.args = as) (hk : as.length = k) :
    st.drop k = { st with args := [] } := by
  unfold St.drop
  rw [if_pos (by rw [h, hk]), h, ← hk, List.drop_length]

theorem effect_perform {t : Tok} {s s' : S} {g : List Seg} (he : Effect t s g s')
    (ht : ∀ v, t ≠ .num v) (st : St) (pts : List (ℤ × ℤ)) (hg : Good st s pts)
    (hs : OkStart pts g) (hi : ∀ p ∈ points g, IsInt32 p.1 ∧ IsInt32 p.2) :
    ∃ st', perform t st = .ok st' ∧ Good st' s' (pts ++ points g) := by
  have ha := hg.args
  have hp := hg.interp
  cases he with
  | num v x y stk ps => exact absurd rfl (ht v)
  | hsbw x y sbx wx ps =>
    have h := hi (sbx, 0) (by simp [points, Seg.pts])
    have hj := good_jump (good_stack hg [] ps) sbx 0 h.1 h.2
    refine ⟨_, ?_, hj⟩
    simp only at ha hp
    simp [perform, code, op, ha, ← hp]
  | sbw x y sbx sby wx wy ps =>
    have h := hi (sbx, sby) (by simp [points, Seg.pts])
    have hj := good_jump (good_stack hg [] ps) sbx sby h.1 h.2
    refine ⟨_, ?_, hj⟩
    simp only at ha hp
    simp [perform, code, escape, ha, ← hp]
  | setcurrentpoint x y px py ps =>
    have h := hi (px, py) (by simp [points, Seg.pts])
    have hj := good_jump (good_stack hg [] ps) px py h.1 h.2
    refine ⟨_, ?_, hj⟩
    simp only at ha hp
    simp [perform, code, escape, ha, ← hp]
  | rmoveto x y dx dy ps =>
    have h := hi (x + dx, y + dy) (by simp [points, Seg.pts])
    obtain ⟨st', h1, h2⟩ := good_moveBy (good_stack hg [] ps) dx dy h.1 h.2
    refine ⟨st', ?_, h2⟩
    simp only at ha hp
    rw [← h1]
    simp [perform, code, op, ha, ← hp]
  | hmoveto x y dx ps =>
    have hn : pts ≠ [] := by
      rcases hs with h | h | ⟨_, _, _, h⟩
      · exact h
      · simp at h
      · simp at h
    have h := hi (x + dx, y) (by simp [points, Seg.pts])
    obtain ⟨st', h1, h2⟩ := good_moveX (good_stack hg [] ps) hn dx h.1
    refine ⟨st', ?_, h2⟩
    simp only at ha hp
    rw [← h1]
    simp [perform, code, op, ha, ← hp]
  | vmoveto x y dy ps =>
    have hn : pts ≠ [] := by
      rcases hs with h | h | ⟨_, _, _, h⟩
      · exact h
      · simp at h
      · simp at h
    have h := hi (x, y + dy) (by simp [points, Seg.pts])
    obtain ⟨st', h1, h2⟩ := good_moveY (good_stack hg [] ps) hn dy h.2
    refine ⟨st', ?_, h2⟩
    simp only at ha hp
    rw [← h1]
    simp [perform, code, op, ha, ← hp]
  | rlineto x y dx dy ps =>
    have hn : pts ≠ [] := by
      rcases hs with h | h | ⟨_, _, _, h⟩
      · exact h
      · simp at h
      · simp at h
    have hm := (hg.box hn).2
    have h := hi (x + dx, y + dy) (by simp [points, Seg.pts])
    obtain ⟨st', h1, h2⟩ := good_moveBy (good_stack hg [] ps) dx dy h.1 h.2
    refine ⟨st', ?_, good_congr ?_ h2⟩
    · simp only at ha hp
      rw [← h1]
      simp [perform, code, op, ha, ← hp]
    · intro p
      simp only [points, List.flatMap_cons, List.flatMap_nil, Seg.pts, List.append_nil,
        List.mem_append, List.mem_cons, List.not_mem_nil, or_false] at hm ⊢
      constructor
      · tauto
      · rintro (h | rfl | h) <;> tauto
  | hlineto x y dx ps =>
    have hn : pts ≠ [] := by
      rcases hs with h | h | ⟨_, _, _, h⟩
      · exact h
      · simp at h
      · simp at h
    have hm := (hg.box hn).2
    have h := hi (x + dx, y) (by simp [points, Seg.pts])
    obtain ⟨st', h1, h2⟩ := good_moveX (good_stack hg [] ps) hn dx h.1
    refine ⟨st', ?_, good_congr ?_ h2⟩
    · simp only at ha hp
      rw [← h1]
      simp [perform, code, op, ha, ← hp]
    · intro p
      simp only [points, List.flatMap_cons, List.flatMap_nil, Seg.pts, List.append_nil,
        List.mem_append, List.mem_cons, List.not_mem_nil, or_false] at hm ⊢
      constructor
      · tauto
      · rintro (h | rfl | h) <;> tauto
  | vlineto x y dy ps =>
    have hn : pts ≠ [] := by
      rcases hs with h | h | ⟨_, _, _, h⟩
      · exact h
      · simp at h
      · simp at h
    have hm := (hg.box hn).2
    have h := hi (x, y + dy) (by simp [points, Seg.pts])
    obtain ⟨st', h1, h2⟩ := good_moveY (good_stack hg [] ps) hn dy h.2
    refine ⟨st', ?_, good_congr ?_ h2⟩
    · simp only at ha hp
      rw [← h1]
      simp [perform, code, op, ha, ← hp]
    · intro p
      simp only [points, List.flatMap_cons, List.flatMap_nil, Seg.pts, List.append_nil,
        List.mem_append, List.mem_cons, List.not_mem_nil, or_false] at hm ⊢
      constructor
      · tauto
      · rintro (h | rfl | h) <;> tauto
  | rrcurveto x y dx1 dy1 dx2 dy2 dx3 dy3 ps =>
    have hn : pts ≠ [] := by
      rcases hs with h | h | ⟨_, _, _, h⟩
      · exact h
      · simp at h
      · simp at h
    have i1 := hi (x + dx1, y + dy1) (by simp [points, Seg.pts])
    have i2 := hi (x + dx1 + dx2, y + dy1 + dy2) (by simp [points, Seg.pts])
    have i3 := hi (x + dx1 + dx2 + dx3, y + dy1 + dy2 + dy3) (by simp [points, Seg.pts])
    obtain ⟨st', h1, h2⟩ := good_curve (good_stack hg [] ps) hn dx1 dy1 dx2 dy2 dx3 dy3
      i1.1 i1.2 i2.1 i2.2 i3.1 i3.2
    refine ⟨st', ?_, h2⟩
    simp only at ha hp
    rw [← h1]
    simp [perform, code, op, ha, ← hp]
  | vhcurveto x y dy1 dx2 dy2 dx3 ps =>
    have hn : pts ≠ [] := by
      rcases hs with h | h | ⟨_, _, _, h⟩
      · exact h
      · simp at h
      · simp at h
    have i1 := hi (x, y + dy1) (by simp [points, Seg.pts])
    have i2 := hi (x + dx2, y + dy1 + dy2) (by simp [points, Seg.pts])
    have i3 := hi (x + dx2 + dx3, y + dy1 + dy2) (by simp [points, Seg.pts])
    obtain ⟨st', h1, h2⟩ := good_curve (good_stack hg [] ps) hn 0 dy1 dx2 dy2 dx3 0
      (by simpa using i1.1) i1.2 (by simpa using i2.1) i2.2 (by simpa using i3.1)
      (by simpa using i3.2)
    refine ⟨st', ?_, by simpa [points, Seg.pts] using h2⟩
    simp only at ha hp
    rw [← h1]
    simp [perform, code, op, ha, ← hp]
  | hvcurveto x y dx1 dx2 dy2 dy3 ps =>
    have hn : pts ≠ [] := by
      rcases hs with h | h | ⟨_, _, _, h⟩
      · exact h
      · simp at h
      · simp at h
    have i1 := hi (x + dx1, y) (by simp [points, Seg.pts])
    have i2 := hi (x + dx1 + dx2, y + dy2) (by simp [points, Seg.pts])
    have i3 := hi (x + dx1 + dx2, y + dy2 + dy3) (by simp [points, Seg.pts])
    obtain ⟨st', h1, h2⟩ := good_curve (good_stack hg [] ps) hn dx1 0 dx2 dy2 0 dy3
      i1.1 (by simpa using i1.2) i2.1 (by simpa using i2.2) (by simpa using i3.1)
      (by simpa using i3.2)
    refine ⟨st', ?_, by simpa [points, Seg.pts] using h2⟩
    simp only at ha hp
    rw [← h1]
    simp [perform, code, op, ha, ← hp]
  | closepath => exact ⟨st, by simp [perform, code, op], by simpa [points] using hg⟩
  | dotsection => exact ⟨st, by simp [perform, code, escape], by simpa [points] using hg⟩
  | hstem x y a b ps =>
    refine ⟨_, ?_, by simpa [points] using good_stack hg [] ps⟩
    simp only at ha hp
    simp only [perform, code, op]
    rw [drop_all st 2 _ ha rfl, ← hp]
  | vstem x y a b ps =>
    refine ⟨_, ?_, by simpa [points] using good_stack hg [] ps⟩
    simp only at ha hp
    simp only [perform, code, op]
    rw [drop_all st 2 _ ha rfl, ← hp]
  | hstem3 x y a b c d e f ps =>
    refine ⟨_, ?_, by simpa [points] using good_stack hg [] ps⟩
    simp only at ha hp
    simp only [perform, code, escape]
    rw [drop_all st 6 _ ha rfl, ← hp]
  | vstem3 x y a b c d e f ps =>
    refine ⟨_, ?_, by simpa [points] using good_stack hg [] ps⟩
    simp only at ha hp
    simp only [perform, code, escape]
    rw [drop_all st 6 _ ha rfl, ← hp]
  | div x y q b stk ps hb hq =>
    refine ⟨_, ?_, by simpa [points] using good_stack hg (q :: stk) ps⟩
    simp only at ha hp
    simp only [perform, code, escape, ha]
    rw [if_neg hb, Int.mul_tdiv_cancel q hb, chk_ok hq, ← hp]
    simp only [Outcome.bind]
  | flexEnd x y h px py stk ps =>
    refine ⟨_, ?_, by simpa [points] using good_stack hg stk [px, py]⟩
    simp only at ha hp
    simp [perform, code, escape, otherSubr, ha]
  | flexStart x y stk ps =>
    refine ⟨_, ?_, by simpa [points] using good_stack hg stk []⟩
    simp only at ha hp
    simp [perform, code, escape, otherSubr, ha]
  | flexPoint x y stk ps =>
    refine ⟨_, ?_, by simpa [points] using good_stack hg stk []⟩
    simp only at ha hp
    simp [perform, code, escape, otherSubr, ha, moveArgs, Outcome.bind]
  | hints x y n stk ps =>
    refine ⟨_, ?_, by simpa [points] using good_stack hg stk [n]⟩
    simp only at ha hp
    simp [perform, code, escape, otherSubr, ha]
  | pop x y v stk ps =>
    refine ⟨_, ?_, by simpa [points] using good_stack hg (v :: stk) ps⟩
    simp only at ha hp
    simp [perform, code, escape, ha, hp]

/-! ### Programs -/

theorem step_perform (subrs : Subrs) (t : Tok) (h1 : ∀ v, t ≠ .num v) (h2 : t ≠ .callsubr)
    (pre post : List ℕ) (rest : List (List ℕ × ℕ)) (st : St) :
    step subrs ⟨(pre ++ code t ++ post, pre.length) :: rest, st⟩ =
      (perform t st).bind fun s =>
        .ok ⟨(pre ++ code t ++ post, pre.length + (code t).length) :: rest, s⟩ := by
  cases t with
  | num v => exact absurd rfl (h1 v)
  | callsubr => exact absurd rfl h2
  | dotsection => exact step_escape subrs 0 pre post rest st
  | vstem3 => exact step_escape subrs 1 pre post rest st
  | hstem3 => exact step_escape subrs 2 pre post rest st
  | seac => exact step_escape subrs 6 pre post rest st
  | sbw => exact step_escape subrs 7 pre post rest st
  | div => exact step_escape subrs 12 pre post rest st
  | callothersubr => exact step_escape subrs 16 pre post rest st
  | pop => exact step_escape subrs 17 pre post rest st
  | setcurrentpoint => exact step_escape subrs 33 pre post rest st
  | _ => exact step_op subrs _ pre post rest st (by decide) (by decide) (by decide)

theorem step_call (subrs : Subrs) (i : ℤ) (as : List ℤ) (sb : List ℕ) (pre post : List ℕ)
    (rest : List (List ℕ × ℕ)) (st : St) (ha : st.args = i :: as) (hat : subrs.at? i = some sb) :
    step subrs ⟨(pre ++ [10] ++ post, pre.length) :: rest, st⟩ =
      .ok ⟨(sb, 0) :: (pre ++ [10] ++ post, pre.length + 1) :: rest, { st with args := as }⟩ := by
  unfold step
  simp only
  rw [if_neg (by simp), getD_at, if_pos (by omega), if_pos rfl, ha]
  simp only [hat]

theorem encodes_append {a b : List Tok} {bs : List ℕ} (h : Encodes (a ++ b) bs) :
    ∃ b1 b2, bs = b1 ++ b2 ∧ Encodes a b1 ∧ Encodes b b2 := by
  induction a generalizing bs with
  | nil => exact ⟨[], bs, rfl, Encodes.nil, h⟩
  | cons t a ih =>
    cases h with
    | num v n _ rest hn hr =>
      obtain ⟨b1, b2, rfl, h1, h2⟩ := ih hr
      exact ⟨n ++ b1, b2, by simp, Encodes.num v n a b1 hn h1, h2⟩
    | cmd _ _ rest ht hr =>
      obtain ⟨b1, b2, rfl, h1, h2⟩ := ih hr
      exact ⟨code t ++ b1, b2, by simp, Encodes.cmd t a b1 ht h1, h2⟩

theorem encodes_single {t : Tok} (ht : ∀ v, t ≠ .num v) {bs : List ℕ} (h : Encodes [t] bs) :
    bs = code t := by
  cases h with
  | num v n _ rest hn hr => exact absurd rfl (ht v)
  | cmd _ _ rest _ hr => cases hr; simp

theorem okStart_split {pts : List (ℤ × ℤ)} {g1 g2 : List Seg} (h : OkStart pts (g1 ++ g2)) :
    OkStart pts g1 ∧ OkStart (pts ++ points g1) g2 := by
  rcases h with h | h | ⟨x, y, r, h⟩
  · exact ⟨Or.inl h, Or.inl (by simp [h])⟩
  · obtain ⟨rfl, rfl⟩ := List.append_eq_nil_iff.mp h
    exact ⟨Or.inr (Or.inl rfl), Or.inr (Or.inl rfl)⟩
  · cases g1 with
    | nil => exact ⟨Or.inr (Or.inl rfl), Or.inr (Or.inr ⟨x, y, r, h⟩)⟩
    | cons g g1 =>
      simp only [List.cons_append, List.cons.injEq] at h
      obtain ⟨rfl, _⟩ := h
      exact ⟨Or.inr (Or.inr ⟨x, y, g1, rfl⟩), Or.inl (by simp [points, Seg.pts])⟩

theorem points_append (g1 g2 : List Seg) : points (g1 ++ g2) = points g1 ++ points g2 := by
  simp [points]

theorem draws_reach (subrs : Subrs) (sub : ℤ → Option (List Tok))
    (hsub : ∀ i toks, sub i = some toks → ∃ bs, subrs.at? i = some bs ∧ Encodes toks bs)
    {toks : List Tok} {s s' : S} {g : List Seg} (hd : Draws sub toks s g s') :
    ∀ (bs : List ℕ), Encodes toks bs → ∀ (pre post : List ℕ) (rest : List (List ℕ × ℕ)) (st : St)
      (pts : List (ℤ × ℤ)), Good st s pts → OkStart pts g →
      (∀ p ∈ points g, IsInt32 p.1 ∧ IsInt32 p.2) →
      ∃ st', Reach subrs ⟨(pre ++ bs ++ post, pre.length) :: rest, st⟩
          ⟨(pre ++ bs ++ post, pre.length + bs.length) :: rest, st'⟩ ∧
        Good st' s' (pts ++ points g) := by
  induction hd with
  | nil s =>
    intro bs he pre post rest st pts hg _ _
    cases he
    exact ⟨st, by simpa using Reach.refl subrs _, by simpa [points] using hg⟩
  | cmd t toks s s1 s2 g1 g2 he hd ih =>
    intro bs henc pre post rest st pts hg hs hi
    obtain ⟨hs1, hs2⟩ := okStart_split hs
    rw [points_append] at hi
    cases henc with
    | num v n _ bs' hn hr =>
      cases he with
      | num _ x y stk ps =>
        have hstep := c47_numbers subrs v n pre (bs' ++ post) rest st hn
        have hg1 : Good { st with args := v :: st.args } ⟨x, y, v :: stk, ps⟩ (pts ++ points []) :=
          ⟨hg.x, hg.y, by simp [hg.args], hg.interp, by simpa [points] using hg.fresh,
            by simpa [points] using hg.box⟩
        obtain ⟨st', h1, h2⟩ := ih bs' hr (pre ++ n) post rest _ _ hg1 hs2
          (fun p hp => hi p (by simp [hp]))
        refine ⟨st', (Reach.step ?_).trans h1 |>.trans ?_, ?_⟩
        · simpa [List.append_assoc] using hstep
        · rw [List.length_append, List.length_append, Nat.add_assoc]
          rw [show pre ++ n ++ bs' ++ post = pre ++ (n ++ bs') ++ post by simp]
          exact Reach.refl subrs _
        · simpa [points_append, points] using h2
    | cmd _ _ bs' ht hr =>
      have hnc : t ≠ .callsubr := by rintro rfl; cases he
      obtain ⟨st1, hp, hg1⟩ := effect_perform he ht st pts hg hs1 (fun p hp => hi p (by simp [hp]))
      have hstep := step_perform subrs t ht hnc pre (bs' ++ post) rest st
      rw [hp] at hstep
      simp only [Outcome.bind] at hstep
      obtain ⟨st', h1, h2⟩ := ih bs' hr (pre ++ code t) post rest _ _ hg1 hs2
        (fun p hp => hi p (by simp [hp]))
      refine ⟨st', (Reach.step ?_).trans h1 |>.trans ?_, ?_⟩
      · simpa [List.append_assoc] using hstep
      · rw [List.length_append, List.length_append, Nat.add_assoc]
        rw [show pre ++ code t ++ bs' ++ post = pre ++ (code t ++ bs') ++ post by simp]
        exact Reach.refl subrs _
      · simpa [points_append] using h2
  | call i x y stk ps body toks s1 s2 g1 g2 hi1 hd1 hd2 ih1 ih2 =>
    intro bs henc pre post rest st pts hg hs hi
    obtain ⟨hs1, hs2⟩ := okStart_split hs
    rw [points_append] at hi
    cases henc with
    | cmd _ _ bs' ht hr =>
      obtain ⟨sb, hat, hsb⟩ := hsub i _ hi1
      obtain ⟨b1, b2, rfl, hb1, hb2⟩ := encodes_append hsb
      have hb2' := encodes_single (by intro v; simp) hb2
      subst hb2'
      -- the call
      have hcall : step subrs ⟨(pre ++ code .callsubr ++ (bs' ++ post), pre.length) :: rest, st⟩ =
          .ok ⟨(b1 ++ code .ret, 0) :: (pre ++ code .callsubr ++ (bs' ++ post), pre.length + 1) :: rest,
            { st with args := stk }⟩ := by
        exact step_call subrs i stk _ pre (bs' ++ post) rest st hg.args hat
      have hg0 : Good { st with args := stk } ⟨x, y, stk, ps⟩ pts :=
        ⟨hg.x, hg.y, rfl, hg.interp, hg.fresh, hg.box⟩
      obtain ⟨st1, h1, hg1⟩ := ih1 b1 hb1 [] (code .ret)
        ((pre ++ code .callsubr ++ (bs' ++ post), pre.length + 1) :: rest) _ _ hg0 hs1
        (fun p hp => hi p (by simp [hp]))
      -- the return
      have hret := step_perform subrs .ret (by intro v; simp) (by simp) b1 []
        ((pre ++ code .callsubr ++ (bs' ++ post), pre.length + 1) :: rest) st1
      have hpr : perform .ret st1 = .ok st1 := by simp [perform, code, op]
      rw [hpr] at hret
      simp only [Outcome.bind, List.append_nil] at hret
      have hend : step subrs ⟨(b1 ++ code .ret, b1.length + (code .ret).length) ::
          (pre ++ code .callsubr ++ (bs' ++ post), pre.length + 1) :: rest, st1⟩ =
          .ok ⟨(pre ++ code .callsubr ++ (bs' ++ post), pre.length + 1) :: rest, st1⟩ := by
        unfold step
        simp only
        rw [if_pos (by simp)]
      obtain ⟨st', h2, hg2⟩ := ih2 bs' hr (pre ++ code .callsubr) post rest _ _ hg1 hs2
        (fun p hp => hi p (by simp [hp]))
      refine ⟨st', ?_, by simpa [points_append] using hg2⟩
      have hlen : (pre ++ code .callsubr).length = pre.length + 1 := by simp [code]
      have h1' : Reach subrs ⟨(b1 ++ code .ret, 0) ::
          (pre ++ code .callsubr ++ (bs' ++ post), pre.length + 1) :: rest, { st with args := stk }⟩
          ⟨(b1 ++ code .ret, b1.length) ::
          (pre ++ code .callsubr ++ (bs' ++ post), pre.length + 1) :: rest, st1⟩ := by
        simpa using h1
      rw [hlen] at h2
      have e1 : pre ++ (code .callsubr ++ bs') ++ post = pre ++ code .callsubr ++ (bs' ++ post) := by
        simp
      have e2 : pre ++ code .callsubr ++ bs' ++ post = pre ++ code .callsubr ++ (bs' ++ post) := by
        simp
      rw [e2] at h2
      rw [e1]
      have e3 : pre.length + (code .callsubr ++ bs').length = pre.length + 1 + bs'.length := by
        simp [code]; omega
      rw [e3]
      exact (((Reach.step hcall).trans h1').trans (Reach.step hret)).trans
        ((Reach.step hend).trans h2)

/-! ### Points of the outline -/

theorem convex_bound (lo hi : ℚ) (t a b : ℚ) (h0 : 0 ≤ t) (h1 : t ≤ 1)
    (ha : lo ≤ a ∧ a ≤ hi) (hb : lo ≤ b ∧ b ≤ hi) :
    lo ≤ (1 - t) * a + t * b ∧ (1 - t) * a + t * b ≤ hi := by
  constructor <;> nlinarith

theorem bezier_bound (lo hi : ℚ) (t a b c d : ℚ) (h0 : 0 ≤ t) (h1 : t ≤ 1)
    (ha : lo ≤ a ∧ a ≤ hi) (hb : lo ≤ b ∧ b ≤ hi) (hc : lo ≤ c ∧ c ≤ hi) (hd : lo ≤ d ∧ d ≤ hi) :
    lo ≤ (1 - t) ^ 3 * a + 3 * (1 - t) ^ 2 * t * b + 3 * (1 - t) * t ^ 2 * c + t ^ 3 * d ∧
      (1 - t) ^ 3 * a + 3 * (1 - t) ^ 2 * t * b + 3 * (1 - t) * t ^ 2 * c + t ^ 3 * d ≤ hi := by
  have h := convex_bound lo hi t _ _ h0 h1
    (convex_bound lo hi t _ _ h0 h1 (convex_bound lo hi t a b h0 h1 ha hb)
      (convex_bound lo hi t b c h0 h1 hb hc))
    (convex_bound lo hi t _ _ h0 h1 (convex_bound lo hi t b c h0 h1 hb hc)
      (convex_bound lo hi t c d h0 h1 hc hd))
  have e : (1 - t) * ((1 - t) * ((1 - t) * a + t * b) + t * ((1 - t) * b + t * c)) +
      t * ((1 - t) * ((1 - t) * b + t * c) + t * ((1 - t) * c + t * d)) =
      (1 - t) ^ 3 * a + 3 * (1 - t) ^ 2 * t * b + 3 * (1 - t) * t ^ 2 * c + t ^ 3 * d := by ring
  rwa [e] at h

theorem glyphBox_contains {l u r w : ℤ} {segs : List Seg} (hb : IsGlyphBox l u r w (points segs))
    {g : Seg} (hg : g ∈ segs) {x y : ℚ} (hon : g.On x y) :
    (l : ℚ) ≤ x ∧ x ≤ r ∧ (u : ℚ) ≤ y ∧ y ≤ w := by
  have hp : ∀ p ∈ g.pts, ((l : ℚ) ≤ (p.1 : ℚ) ∧ (p.1 : ℚ) ≤ r) ∧ ((u : ℚ) ≤ (p.2 : ℚ) ∧
      (p.2 : ℚ) ≤ w) := by
    intro p hp
    have := hb.1 p (List.mem_flatMap.mpr ⟨g, hg, hp⟩)
    exact ⟨⟨by exact_mod_cast this.1, by exact_mod_cast this.2.1⟩,
      ⟨by exact_mod_cast this.2.2.1, by exact_mod_cast this.2.2.2⟩⟩
  cases g with
  | set a b =>
    obtain ⟨rfl, rfl⟩ := hon
    have := hp (a, b) (by simp [Seg.pts])
    exact ⟨this.1.1, this.1.2, this.2.1, this.2.2⟩
  | move a b =>
    obtain ⟨rfl, rfl⟩ := hon
    have := hp (a, b) (by simp [Seg.pts])
    exact ⟨this.1.1, this.1.2, this.2.1, this.2.2⟩
  | line x0 y0 x1 y1 =>
    obtain ⟨t, h0, h1, rfl, rfl⟩ := hon
    have p0 := hp (x0, y0) (by simp [Seg.pts])
    have p1 := hp (x1, y1) (by simp [Seg.pts])
    have hx := convex_bound l r t x0 x1 h0 h1 p0.1 p1.1
    have hy := convex_bound u w t y0 y1 h0 h1 p0.2 p1.2
    exact ⟨hx.1, hx.2, hy.1, hy.2⟩
  | curve x0 y0 x1 y1 x2 y2 x3 y3 =>
    obtain ⟨t, h0, h1, rfl, rfl⟩ := hon
    have p0 := hp (x0, y0) (by simp [Seg.pts])
    have p1 := hp (x1, y1) (by simp [Seg.pts])
    have p2 := hp (x2, y2) (by simp [Seg.pts])
    have p3 := hp (x3, y3) (by simp [Seg.pts])
    have hx := bezier_bound l r t x0 x1 x2 x3 h0 h1 p0.1 p1.1 p2.1 p3.1
    have hy := bezier_bound u w t y0 y1 y2 y3 h0 h1 p0.2 p1.2 p2.2 p3.2
    exact ⟨hx.1, hx.2, hy.1, hy.2⟩

/-- **C48.** For every glyph program of the Type 1 format (without `seac` and with integer
quotients), every encoding of it and of its subroutines, and coordinates within 32 bits, the
interpretation ends normally; the glyph box it leaves is the bounding box of the points of the
outline, and every point of every line and Bézier curve of the outline lies inside of it. -/
theorem c48_glyph_box_partial (subrs : Subrs) (sub : ℤ → Option (List Tok))
    (hsub : ∀ i toks, sub i = some toks → ∃ bs, subrs.at? i = some bs ∧ Encodes toks bs)
    (toks : List Tok) (segs : List Seg) (bs : List ℕ) (hgl : IsGlyph sub toks segs)
    (henc : Encodes toks bs) (hint : ∀ p ∈ points segs, IsInt32 p.1 ∧ IsInt32 p.2) :
    ∃ n st, runN subrs n (start bs) = .ok ⟨[], st⟩ ∧
      IsGlyphBox st.leftX st.upperY st.rightX st.lowerY (points segs) ∧
      ∀ g ∈ segs, ∀ x y : ℚ, g.On x y →
        (st.leftX : ℚ) ≤ x ∧ x ≤ st.rightX ∧ (st.upperY : ℚ) ≤ y ∧ y ≤ st.lowerY := by
  obtain ⟨body, s', rfl, hd, x, y, r, rfl⟩ := hgl
  obtain ⟨b1, b2, rfl, h1, h2⟩ := encodes_append henc
  have hb2 := encodes_single (by intro v; simp) h2
  subst hb2
  have hg0 : Good St.init ⟨0, 0, [], []⟩ [] :=
    ⟨rfl, rfl, rfl, rfl, fun _ => ⟨rfl, rfl, rfl, rfl⟩, fun h => absurd rfl h⟩
  obtain ⟨st, hr, hg⟩ := draws_reach subrs sub hsub hd b1 h1 [] (code .endchar) [] _ _ hg0
    (Or.inr (Or.inr ⟨x, y, r, rfl⟩)) hint
  have hret := step_perform subrs .endchar (by intro v; simp) (by simp) b1 [] [] st
  have hpr : perform .endchar st = .ok st := by simp [perform, code, op]
  rw [hpr] at hret
  simp only [Outcome.bind, List.append_nil] at hret
  have hend : step subrs ⟨[(b1 ++ code .endchar, b1.length + (code .endchar).length)], st⟩ =
      .ok ⟨[], st⟩ := by
    unfold step
    simp only
    rw [if_pos (by simp)]
  have hr' : Reach subrs (start (b1 ++ code .endchar)) ⟨[(b1 ++ code .endchar, b1.length)], st⟩ := by
    simpa [start] using hr
  obtain ⟨n, hn⟩ := (hr'.trans (Reach.step hret)).trans (Reach.step hend)
  have hbox := (hg.box (by simp [points, Seg.pts])).1
  simp only [List.nil_append] at hbox
  exact ⟨n, st, hn, hbox, fun g hgm x y hon => glyphBox_contains hbox hgm hon⟩

/-- The example subroutine 0: a horizontal line of length 300. -/
def sampleSub (i : ℤ) : Option (List Tok) :=
  if i = 0 then some ([.num 300, .hlineto] ++ [.ret]) else none

/-- A proper glyph with a curve. -/
def sampleBody : List Tok :=
  [.num 10, .num 500, .hsbw, .num (-20), .num 200, .rmoveto, .num 0, .callsubr,
    .num 10, .num 20, .num 30, .num 40, .vhcurveto, .closepath]

/-- The outline of the example glyph. -/
def sampleSegs : List Seg :=
  [.set 10 0, .move (-10) 200, .line (-10) 200 290 200,
    .curve 290 200 290 210 310 240 350 240]

/-- The hypotheses of C48 are met by a glyph with a subroutine and a curve. -/
example : IsGlyph sampleSub (sampleBody ++ [.endchar]) sampleSegs := by
  refine ⟨sampleBody, ⟨350, 240, [], []⟩, rfl, ?_, 10, 0, _, rfl⟩
  have e : sampleSegs = [] ++ ([] ++ ([.set 10 0] ++ ([] ++ ([] ++ ([.move (10 + -20) (0 + 200)] ++
      ([] ++ (([] ++ ([.line (10 + -20) (0 + 200) (10 + -20 + 300) (0 + 200)] ++ [])) ++
      ([] ++ ([] ++ ([] ++ ([] ++ ([.curve (10 + -20 + 300) (0 + 200) (10 + -20 + 300) (0 + 200 + 10)
        (10 + -20 + 300 + 20) (0 + 200 + 10 + 30) (10 + -20 + 300 + 20 + 40) (0 + 200 + 10 + 30)] ++
      ([] ++ []))))))))))))) := by decide +kernel
  rw [e]
  refine Draws.cmd _ _ _ _ _ _ _ (Effect.num ..) ?_
  refine Draws.cmd _ _ _ _ _ _ _ (Effect.num ..) ?_
  refine Draws.cmd _ _ _ _ _ _ _ (Effect.hsbw ..) ?_
  refine Draws.cmd _ _ _ _ _ _ _ (Effect.num ..) ?_
  refine Draws.cmd _ _ _ _ _ _ _ (Effect.num ..) ?_
  refine Draws.cmd _ _ _ _ _ _ _ (Effect.rmoveto ..) ?_
  refine Draws.cmd _ _ _ _ _ _ _ (Effect.num ..) ?_
  refine Draws.call 0 _ _ _ _ [.num 300, .hlineto] _ ⟨10 + -20 + 300, 0 + 200, [], []⟩ _ _ _ rfl ?_ ?_
  · refine Draws.cmd _ _ _ _ _ _ _ (Effect.num ..) ?_
    exact Draws.cmd _ _ _ _ _ _ _ (Effect.hlineto ..) (Draws.nil _)
  · refine Draws.cmd _ _ _ _ _ _ _ (Effect.num ..) ?_
    refine Draws.cmd _ _ _ _ _ _ _ (Effect.num ..) ?_
    refine Draws.cmd _ _ _ _ _ _ _ (Effect.num ..) ?_
    refine Draws.cmd _ _ _ _ _ _ _ (Effect.num ..) ?_
    refine Draws.cmd _ _ _ _ _ _ _ (Effect.vhcurveto ..) ?_
    exact Draws.cmd _ _ _ _ _ _ _ (Effect.closepath ..) (Draws.nil _)

/-- An encoding of the example glyph. -/
def sampleBytes : List ℕ :=
  [149, 248, 136, 13, 119, 247, 92, 21, 139, 10, 149, 159, 169, 179, 30, 9, 14]

example : Encodes (sampleBody ++ [.endchar]) sampleBytes := by
  refine Encodes.num 10 [149] _ _ (.one 10 (by omega) (by omega)) ?_
  refine Encodes.num 500 [248, 136] _ _ (.pos 500 (by omega) (by omega)) ?_
  refine Encodes.cmd .hsbw _ _ (by intro v; simp) ?_
  refine Encodes.num (-20) [119] _ _ (.one (-20) (by omega) (by omega)) ?_
  refine Encodes.num 200 [247, 92] _ _ (.pos 200 (by omega) (by omega)) ?_
  refine Encodes.cmd .rmoveto _ _ (by intro v; simp) ?_
  refine Encodes.num 0 [139] _ _ (.one 0 (by omega) (by omega)) ?_
  refine Encodes.cmd .callsubr _ _ (by intro v; simp) ?_
  refine Encodes.num 10 [149] _ _ (.one 10 (by omega) (by omega)) ?_
  refine Encodes.num 20 [159] _ _ (.one 20 (by omega) (by omega)) ?_
  refine Encodes.num 30 [169] _ _ (.one 30 (by omega) (by omega)) ?_
  refine Encodes.num 40 [179] _ _ (.one 40 (by omega) (by omega)) ?_
  refine Encodes.cmd .vhcurveto _ _ (by intro v; simp) ?_
  refine Encodes.cmd .closepath _ _ (by intro v; simp) ?_
  exact Encodes.cmd .endchar _ _ (by intro v; simp) Encodes.nil

example : runN [(0, [247, 192, 6, 11])] 20 (start sampleBytes) =
    .ok ⟨[], ⟨350, 240, -10, 0, 350, 240, [], []⟩⟩ := by decide +kernel

/-! ### All runs -/

/-- The pen is inside the glyph box. -/
def Inside (st : St) : Prop :=
  st.leftX ≤ st.curX ∧ st.curX ≤ st.rightX ∧ st.upperY ≤ st.curY ∧ st.curY ≤ st.lowerY

/-- The box of `a` lies inside the box of `b`. -/
def BoxLe (a b : St) : Prop :=
  b.leftX ≤ a.leftX ∧ a.rightX ≤ b.rightX ∧ b.upperY ≤ a.upperY ∧ a.lowerY ≤ b.lowerY

/-- A change that keeps the pen inside and only grows the box. -/
def KeepsBox (a b : St) : Prop := BoxLe a b ∧ (Inside a → Inside b)

theorem keepsBox_stack (st : St) (as is : List ℤ) : KeepsBox st { st with args := as, interp := is } :=
  ⟨⟨le_refl _, le_refl _, le_refl _, le_refl _⟩, fun h => h⟩

theorem keepsBox_jump (st : St) (as : List ℤ) (x y : ℤ) :
    KeepsBox st (St.jump { st with args := as } x y) := by
  unfold KeepsBox BoxLe Inside St.jump St.growX St.growY
  simp only
  constructor
  · omega
  · intro _; omega

theorem bind_ok {α β : Type} {x : Outcome α} {f : α → Outcome β} {b : β}
    (h : x.bind f = .ok b) : ∃ a, x = .ok a ∧ f a = .ok b := by
  cases x with
  | ok a => exact ⟨a, rfl, h⟩
  | throw m => simp [Outcome.bind] at h
  | ub m => simp [Outcome.bind] at h

theorem chk_eq {v w : ℤ} (h : chk v = .ok w) : w = v ∧ IsInt32 v := by
  unfold chk at h
  by_cases hv : inInt v = true
  · rw [if_pos hv] at h
    cases h
    unfold inInt intMin intMax at hv
    simp at hv
    exact ⟨rfl, by unfold IsInt32; omega⟩
  · rw [if_neg hv] at h; cases h

theorem keepsBox_moveBy {st st' : St} (as : List ℤ) {dx dy : ℤ}
    (h : St.moveBy { st with args := as } dx dy = .ok st') : KeepsBox st st' := by
  unfold St.moveBy at h
  obtain ⟨x, h1, h⟩ := bind_ok h
  obtain ⟨y, h2, h⟩ := bind_ok h
  cases h
  exact keepsBox_jump st as x y

theorem keepsBox_moveX {st st' : St} (as : List ℤ) {dx : ℤ}
    (h : St.moveX { st with args := as } dx = .ok st') : KeepsBox st st' := by
  unfold St.moveX at h
  obtain ⟨x, h1, h⟩ := bind_ok h
  cases h
  unfold KeepsBox BoxLe Inside St.growX
  simp only
  constructor
  · omega
  · intro _; omega

theorem keepsBox_moveY {st st' : St} (as : List ℤ) {dy : ℤ}
    (h : St.moveY { st with args := as } dy = .ok st') : KeepsBox st st' := by
  unfold St.moveY at h
  obtain ⟨x, h1, h⟩ := bind_ok h
  cases h
  unfold KeepsBox BoxLe Inside St.growY
  simp only
  constructor
  · omega
  · intro _; omega

theorem keepsBox_curve {st st' : St} (as : List ℤ) {dx1 dy1 dx2 dy2 dx3 dy3 : ℤ}
    (h : St.curve { st with args := as } dx1 dy1 dx2 dy2 dx3 dy3 = .ok st') : KeepsBox st st' := by
  unfold St.curve at h
  obtain ⟨x1, _, h⟩ := bind_ok h
  obtain ⟨y1, _, h⟩ := bind_ok h
  obtain ⟨x2, _, h⟩ := bind_ok h
  obtain ⟨y2, _, h⟩ := bind_ok h
  obtain ⟨x3, _, h⟩ := bind_ok h
  obtain ⟨y3, _, h⟩ := bind_ok h
  cases h
  unfold KeepsBox BoxLe Inside
  simp only
  constructor
  · omega
  · intro _; omega

theorem keepsBox_refl (st : St) : KeepsBox st st := keepsBox_stack st st.args st.interp

theorem keepsBox_drop (st : St) (k : ℕ) : KeepsBox st (st.drop k) := by
  unfold St.drop
  split
  · exact keepsBox_stack st _ _
  · exact keepsBox_refl st

theorem keepsBox_op (b : ℕ) {st st' : St} (h : op b st = .ok st') : KeepsBox st st' := by
  unfold op at h
  split at h
  · cases h; exact keepsBox_drop _ _
  · cases h; exact keepsBox_drop _ _
  · exact keepsBox_moveY _ h
  · exact keepsBox_moveBy _ h
  · exact keepsBox_moveX _ h
  · exact keepsBox_moveY _ h
  · exact keepsBox_curve _ h
  · cases h; exact keepsBox_jump _ _ _ _
  · exact keepsBox_moveBy _ h
  · exact keepsBox_moveX _ h
  · exact keepsBox_curve _ h
  · exact keepsBox_curve _ h
  · cases h; exact keepsBox_refl _

theorem keepsBox_otherSubr (o n : ℤ) (as : List ℤ) {st st' : St}
    (h : otherSubr o n { st with args := as } = .ok st') : KeepsBox st st' := by
  unfold otherSubr at h
  split at h
  · split at h
    · cases h; exact keepsBox_stack _ _ _
    · cases h
  · split at h
    · cases h; exact keepsBox_stack _ _ _
    · split at h
      · split at h
        · cases h; exact keepsBox_stack _ _ _
        · cases h
      · obtain ⟨r, _, h⟩ := bind_ok h
        cases h; exact keepsBox_stack _ _ _

theorem keepsBox_escape (b : ℕ) {st st' : St} (h : escape b st = .ok st') : KeepsBox st st' := by
  unfold escape at h
  split at h
  · cases h; exact keepsBox_drop _ _
  · cases h; exact keepsBox_drop _ _
  · cases h; exact keepsBox_drop _ _
  · cases h; exact keepsBox_jump _ _ _ _
  · split at h
    · cases h
    · obtain ⟨r, _, h⟩ := bind_ok h
      cases h; exact keepsBox_stack _ _ _
  · exact keepsBox_otherSubr _ _ _ h
  · split at h
    · cases h; exact keepsBox_refl _
    · cases h; exact keepsBox_stack _ _ _
  · cases h; exact keepsBox_jump _ _ _ _
  · cases h; exact keepsBox_refl _

theorem keepsBox_push (st : St) (v : ℤ) : KeepsBox st (st.push v) := keepsBox_stack st _ _

theorem keepsBox_step (subrs : Subrs) {c c' : Cfg} (h : step subrs c = .ok c') : KeepsBox c.st c'.st := by
  unfold step at h
  split at h
  · cases h; exact keepsBox_refl _
  · split at h
    · cases h; exact keepsBox_refl _
    · simp only at h
      split at h
      · split at h
        · split at h
          · cases h; exact keepsBox_refl _
          · split at h
            · cases h; exact keepsBox_stack _ _ _
            · cases h; exact keepsBox_stack _ _ _
        · split at h
          · obtain ⟨b2, _, h⟩ := bind_ok h
            obtain ⟨s, h2, h⟩ := bind_ok h
            cases h; exact keepsBox_escape _ h2
          · obtain ⟨s, h2, h⟩ := bind_ok h
            cases h; exact keepsBox_op _ h2
      · split at h
        · cases h; exact keepsBox_push _ _
        · split at h
          · obtain ⟨w, _, h⟩ := bind_ok h
            cases h; exact keepsBox_push _ _
          · split at h
            · obtain ⟨w, _, h⟩ := bind_ok h
              cases h; exact keepsBox_push _ _
            · obtain ⟨_, _, h⟩ := bind_ok h
              obtain ⟨_, _, h⟩ := bind_ok h
              obtain ⟨_, _, h⟩ := bind_ok h
              obtain ⟨_, _, h⟩ := bind_ok h
              cases h; exact keepsBox_push _ _

theorem keepsBox_run (subrs : Subrs) (n : ℕ) : ∀ {c c' : Cfg}, runN subrs n c = .ok c' →
    KeepsBox c.st c'.st := by
  induction n with
  | zero => intro c c' h; simp [runN] at h; subst h; exact keepsBox_refl _
  | succ n ih =>
    intro c c' h
    obtain ⟨c1, h1, h2⟩ := bind_ok (by simpa [runN] using h)
    have k1 := keepsBox_step subrs h1
    have k2 := ih h2
    refine ⟨?_, fun hi => k2.2 (k1.2 hi)⟩
    unfold KeepsBox BoxLe at *
    omega

/-- **C48, all charstrings.** Whatever the bytes of the charstring and its subroutines are: as soon
as the pen was inside the glyph box once (after a side bearing command) every position the pen has
then and later lies in the box of every later moment, in particular in the final glyph box. -/
theorem c48_pen_in_box (subrs : Subrs) (c0 c1 c2 : Cfg) (m n : ℕ)
    (h0 : c0.st.leftX ≤ c0.st.curX ∧ c0.st.curX ≤ c0.st.rightX ∧
      c0.st.upperY ≤ c0.st.curY ∧ c0.st.curY ≤ c0.st.lowerY)
    (h1 : runN subrs m c0 = .ok c1) (h2 : runN subrs n c1 = .ok c2) :
    c2.st.leftX ≤ c1.st.curX ∧ c1.st.curX ≤ c2.st.rightX ∧
      c2.st.upperY ≤ c1.st.curY ∧ c1.st.curY ≤ c2.st.lowerY := by
  have k1 := (keepsBox_run subrs m h1).2 h0
  have k2 := (keepsBox_run subrs n h2).1
  unfold Inside at k1
  unfold BoxLe at k2
  omega

/-- **C48.** The side bearing command puts the pen inside the box, from every state. -/
theorem c48_side_bearing (st : St) (wx sbx : ℤ) (as : List ℤ) (h : st.args = wx :: sbx :: as) :
    ∃ st', op 13 st = .ok st' ∧ st'.curX = sbx ∧ st'.curY = 0 ∧
      st'.leftX ≤ st'.curX ∧ st'.curX ≤ st'.rightX ∧
      st'.upperY ≤ st'.curY ∧ st'.curY ≤ st'.lowerY := by
  refine ⟨St.jump { st with args := as } sbx 0, ?_, rfl, rfl, ?_⟩
  · simp only [op, h]
  · unfold St.jump St.growX St.growY
    simp only
    omega

/-- **C48, finding.** An accented character composed with `seac` gets no box of its own: whatever
its components look like, the glyph box is the single side bearing point. -/
theorem c48_seac_has_no_box (subrs : Subrs) (sbx wx asb adx ady bchar achar : ℤ) (bs : List ℕ)
    (hsbx : IsInt32 sbx)
    (henc : Encodes [.num sbx, .num wx, .hsbw, .num asb, .num adx, .num ady, .num bchar,
      .num achar, .seac, .endchar] bs) :
    ∃ n st, runN subrs n (start bs) = .ok ⟨[], st⟩ ∧
      st.leftX = sbx ∧ st.rightX = sbx ∧ st.upperY = 0 ∧ st.lowerY = 0 := by
  obtain ⟨b1, b2, rfl, h1, h2⟩ := encodes_append (a := [.num sbx, .num wx, .hsbw, .num asb,
    .num adx, .num ady, .num bchar, .num achar]) (b := [.seac, .endchar]) henc
  obtain ⟨b3, b4, rfl, h3, h4⟩ := encodes_append (a := [.seac]) (b := [.endchar]) h2
  have e3 := encodes_single (by intro v; simp) h3
  have e4 := encodes_single (by intro v; simp) h4
  subst e3 e4
  have hd : Draws (fun _ => none) [.num sbx, .num wx, .hsbw, .num asb,
      .num adx, .num ady, .num bchar, .num achar] ⟨0, 0, [], []⟩
      ([] ++ ([] ++ ([.set sbx 0] ++ ([] ++ ([] ++ ([] ++ ([] ++ ([] ++ []))))))))
      ⟨sbx, 0, [achar, bchar, ady, adx, asb], []⟩ := by
    refine Draws.cmd _ _ _ _ _ _ _ (Effect.num ..) ?_
    refine Draws.cmd _ _ _ _ _ _ _ (Effect.num ..) ?_
    refine Draws.cmd _ _ _ _ _ _ _ (Effect.hsbw ..) ?_
    refine Draws.cmd _ _ _ _ _ _ _ (Effect.num ..) ?_
    refine Draws.cmd _ _ _ _ _ _ _ (Effect.num ..) ?_
    refine Draws.cmd _ _ _ _ _ _ _ (Effect.num ..) ?_
    refine Draws.cmd _ _ _ _ _ _ _ (Effect.num ..) ?_
    refine Draws.cmd _ _ _ _ _ _ _ (Effect.num ..) ?_
    exact Draws.nil _
  have hg0 : Good St.init ⟨0, 0, [], []⟩ [] :=
    ⟨rfl, rfl, rfl, rfl, fun _ => ⟨rfl, rfl, rfl, rfl⟩, fun h => absurd rfl h⟩
  obtain ⟨st, hr, hg⟩ := draws_reach subrs (fun _ => none) (fun _ _ h => by simp at h) hd b1 h1 []
    (code .seac ++ code .endchar) [] _ _ hg0 (Or.inr (Or.inr ⟨sbx, 0, _, rfl⟩))
    (by intro p hp; simp [points, Seg.pts] at hp; subst hp; exact ⟨hsbx, by unfold IsInt32; omega⟩)
  have hseac := step_perform subrs .seac (by intro v; simp) (by simp) b1 (code .endchar) [] st
  have hps : perform .seac st = .ok { st with args := [] } := by
    simp only [perform, code, escape]
    rw [drop_all st 5 _ hg.args rfl]
  rw [hps] at hseac
  simp only [Outcome.bind] at hseac
  have hret := step_perform subrs .endchar (by intro v; simp) (by simp) (b1 ++ code .seac) [] []
    { st with args := [] }
  have hpr : perform .endchar { st with args := [] } = .ok { st with args := [] } := by
    simp [perform, code, op]
  rw [hpr] at hret
  simp only [Outcome.bind, List.append_nil] at hret
  have hend : step subrs ⟨[(b1 ++ code .seac ++ code .endchar,
      (b1 ++ code .seac).length + (code .endchar).length)], { st with args := [] }⟩ =
      .ok ⟨[], { st with args := [] }⟩ := by
    unfold step
    simp only
    rw [if_pos (by simp; omega)]
  have hr' : Reach subrs (start (b1 ++ (code .seac ++ code .endchar)))
      ⟨[(b1 ++ code .seac ++ code .endchar, b1.length)], st⟩ := by
    simpa [start] using hr
  have hseac' : step subrs ⟨[(b1 ++ code .seac ++ code .endchar, b1.length)], st⟩ =
      .ok ⟨[(b1 ++ code .seac ++ code .endchar, (b1 ++ code .seac).length)],
        { st with args := [] }⟩ := by
    simpa using hseac
  obtain ⟨n, hn⟩ := ((hr'.trans (Reach.step hseac')).trans (Reach.step hret)).trans (Reach.step hend)
  refine ⟨n, _, hn, ?_⟩
  have hbox := (hg.box (by simp [points, Seg.pts])).1
  obtain ⟨_, ⟨p2, m2, e2⟩, ⟨p3, m3, e3⟩, ⟨p4, m4, e4⟩, ⟨p5, m5, e5⟩⟩ := hbox
  simp [points, Seg.pts] at m2 m3 m4 m5
  subst m2 m3 m4 m5
  exact ⟨e2.symm, e3.symm, e4.symm, e5.symm⟩

example : runN [] 11 (start [239, 239, 13, 139, 140, 141, 142, 143, 12, 6, 14]) =
    .ok ⟨[], ⟨100, 0, 100, 0, 100, 0, [], []⟩⟩ := by decide +kernel

/-- **C48 is false for fractions**: the quotient of `div` is cut to an integer.  In the glyph `0 0 hsbw 3 2 div hlineto endchar` the line
ends at 3/2; the right edge of the box is 1, and the pen is left of its true place from there on. -/
theorem c48_fraction_refuted :
    Encodes [.num 0, .num 0, .hsbw, .num 3, .num 2, .div, .hlineto, .endchar] [139, 139, 13, 142, 141, 12, 12, 6, 14] ∧
    ∃ st, runN [] 9 (start [139, 139, 13, 142, 141, 12, 12, 6, 14]) = .ok ⟨[], st⟩ ∧ st.rightX = 1 ∧ st.curX = 1 ∧
      (st.rightX : ℚ) < 3 / 2 := by
  refine ⟨?_, _, rfl, rfl, rfl, by decide +kernel⟩
  refine Encodes.num 0 [139] _ _ (NumEnc.one 0 (by norm_num) (by norm_num)) ?_
  refine Encodes.num 0 [139] _ _ (NumEnc.one 0 (by norm_num) (by norm_num)) ?_
  refine Encodes.cmd .hsbw _ _ (by intro v; simp) ?_
  refine Encodes.num 3 [142] _ _ (NumEnc.one 3 (by norm_num) (by norm_num)) ?_
  refine Encodes.num 2 [141] _ _ (NumEnc.one 2 (by norm_num) (by norm_num)) ?_
  refine Encodes.cmd .div _ _ (by intro v; simp) ?_
  refine Encodes.cmd .hlineto _ _ (by intro v; simp) ?_
  exact Encodes.cmd .endchar _ _ (by intro v; simp) Encodes.nil

/-- **C48, finding.** Without a side bearing command the box can keep its initial values: a
charstring that only moves horizontally leaves `upperY` at the largest and `lowerY` at the smallest
integer. -/
theorem c48_no_side_bearing (subrs : Subrs) (dx : ℤ) (bs : List ℕ)
    (henc : Encodes [.num dx, .hmoveto] bs) :
    ∃ n st, runN subrs n (start bs) = .ok ⟨[], st⟩ ∧
      st.upperY = 2147483647 ∧ st.lowerY = -2147483648 := by
  obtain ⟨b1, b2, rfl, h1, h2⟩ := encodes_append (a := [.num dx]) (b := [.hmoveto]) henc
  have e2 := encodes_single (by intro v; simp) h2
  subst e2
  cases h1 with
  | cmd _ _ _ ht _ => exact absurd rfl (ht dx)
  | num v n _ rest hn hr =>
    cases hr
    have hi : IsInt32 dx := by cases hn <;> unfold IsInt32 at * <;> omega
    have hstep := c47_numbers subrs dx n [] (code .hmoveto) [] St.init hn
    have hmv := step_perform subrs .hmoveto (by intro v; simp) (by simp) n [] []
      { St.init with args := [dx] }
    have hp : perform .hmoveto { St.init with args := [dx] } =
        St.moveX { St.init with args := [] } dx := by simp [perform, code, op]
    rw [hp] at hmv
    have hm : St.moveX { St.init with args := [] } dx =
        .ok (St.growX { St.init with args := [], curX := dx } dx) := by
      unfold St.moveX
      have : ({ St.init with args := [] } : St).curX + dx = dx := by simp [St.init]
      rw [this, chk_ok hi]
      rfl
    rw [hm] at hmv
    simp only [Outcome.bind, List.append_nil] at hmv
    have hend : ∀ st, step subrs ⟨[(n ++ code .hmoveto, n.length + (code .hmoveto).length)], st⟩ =
        .ok ⟨[], st⟩ := by
      intro st
      unfold step
      simp only
      rw [if_pos (by simp)]
    have hs' : step subrs (start (n ++ [] ++ code .hmoveto)) =
        .ok ⟨[(n ++ code .hmoveto, n.length)], { St.init with args := [dx] }⟩ := by
      simpa [start, St.init] using hstep
    obtain ⟨k, hk⟩ := ((Reach.step hs').trans (Reach.step hmv)).trans (Reach.step (hend _))
    exact ⟨k, _, hk, rfl, rfl⟩

example : runN [] 3 (start [144, 22]) =
    .ok ⟨[], ⟨5, 0, 5, 2147483647, 5, -2147483648, [], []⟩⟩ := by decide +kernel

end Verif.Props

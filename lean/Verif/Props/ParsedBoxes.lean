import Verif.Props.Parsing
import Verif.Props.Geometry
import Mathlib.Tactic.Linarith
import Mathlib.Tactic.Ring
import Mathlib.Tactic.NormNum

/-! # C52, C63, C64: the boxes of the parsed elements -/

namespace Verif.Props

open Verif Verif.Math Verif.Parsing Verif.Spec Verif.Spec.Parsing
open Verif.Text (Str)

/-! ## Paths -/

theorem pb_hidden (clip : Clip) (x y : ℚ) : Parsing.hidden clip x y = false ↔
    clip.leftX + 1 / 10 < x ∧ clip.upperY + 1 / 10 < y ∧ x < clip.rightX - 1 / 10 ∧
      y < clip.lowerY - 1 / 10 := by
  unfold Parsing.hidden coordsTol
  simp only [Bool.or_eq_false_iff]
  simp only [← Bool.not_eq_true, eos_iff, eol_iff, not_le, and_assoc]

theorem pb_deci_mono {a b : ℚ} (h : a ≤ b) : deci a ≤ deci b := (c03_laws a b 1).2.1 h

theorem pb_deci_deci (a : ℚ) : deci (deci a) = deci a := (c03_laws a a 1).1

theorem pb_dblMin_pos : (0 : ℚ) < dblMin := by unfold dblMin; positivity

theorem pb_dblMin_small : dblMin < 1 / 20 := by
  unfold dblMin
  have h1 : (20 : ℚ) < 2 ^ 5 := by norm_num
  have h2 : (2 : ℚ) ^ 5 ≤ 2 ^ 1022 := pow_le_pow_right₀ (by norm_num) (by norm_num)
  exact one_div_lt_one_div_of_lt (by norm_num) (lt_of_lt_of_le h1 h2)

theorem pb_deci_zero : deci 0 = 0 := by decide +kernel

theorem pb_deci_dblMin : deci dblMin = 0 := by decide +kernel

/-- The invariant of the loop over the points: either no visible point was seen, or the accumulator
is the box of the visible points, extended on the right and below to `dblMin` (cut at the clip). -/
def PathInv (clip : Clip) (ps : List (ℚ × ℚ)) (acc : ℚ × ℚ × ℚ × ℚ) : Prop :=
  (ps = [] ∧ acc = (dblMax, dblMax, dblMin, dblMin)) ∨
  (ps ≠ [] ∧ IsLeastOf ps (·.1) acc.1 ∧ IsLeastOf ps (·.2) acc.2.1 ∧
    (∃ v, IsGreatestOf ps (·.1) v ∧ acc.2.2.1 = min (max dblMin v) clip.rightX) ∧
    (∃ v, IsGreatestOf ps (·.2) v ∧ acc.2.2.2 = min (max dblMin v) clip.lowerY))

theorem pb_least_snoc {ps : List (ℚ × ℚ)} {k : ℚ × ℚ → ℚ} {v : ℚ} (q : ℚ × ℚ)
    (h : IsLeastOf ps k v) : IsLeastOf (ps ++ [q]) k (min v (k q)) := by
  obtain ⟨⟨x, hx, e⟩, ha⟩ := h
  constructor
  · rcases le_total v (k q) with h | h
    · exact ⟨x, by simp [hx], by rw [min_eq_left h, e]⟩
    · exact ⟨q, by simp, by rw [min_eq_right h]⟩
  · intro y hy
    rcases List.mem_append.mp hy with hy | hy
    · exact le_trans (min_le_left _ _) (ha y hy)
    · rw [List.mem_singleton.mp hy]; exact min_le_right _ _

theorem pb_greatest_snoc {ps : List (ℚ × ℚ)} {k : ℚ × ℚ → ℚ} {v : ℚ} (q : ℚ × ℚ)
    (h : IsGreatestOf ps k v) : IsGreatestOf (ps ++ [q]) k (max v (k q)) := by
  obtain ⟨⟨x, hx, e⟩, ha⟩ := h
  constructor
  · rcases le_total v (k q) with h | h
    · exact ⟨q, by simp, by rw [max_eq_right h]⟩
    · exact ⟨x, by simp [hx], by rw [max_eq_left h, e]⟩
  · intro y hy
    rcases List.mem_append.mp hy with hy | hy
    · exact le_trans (ha y hy) (le_max_left _ _)
    · rw [List.mem_singleton.mp hy]; exact le_max_right _ _

theorem pb_single_least (q : ℚ × ℚ) (k : ℚ × ℚ → ℚ) : IsLeastOf [q] k (k q) :=
  ⟨⟨q, by simp, rfl⟩, fun y hy => by rw [List.mem_singleton.mp hy]⟩

theorem pb_single_greatest (q : ℚ × ℚ) (k : ℚ × ℚ → ℚ) : IsGreatestOf [q] k (k q) :=
  ⟨⟨q, by simp, rfl⟩, fun y hy => by rw [List.mem_singleton.mp hy]⟩

/-- Cutting at the clip while extending is the same as cutting at the end. -/
theorem pb_cut (m v x c : ℚ) (hx : x < c) : min (max (min (max m v) c) x) c = min (max m (max v x)) c := by
  rw [max_min_distrib_right, max_eq_left hx.le, max_assoc, min_assoc, min_self]

theorem pb_strokePoint (clip : Clip) (hr : clip.rightX ≤ dblMax) (hl : clip.lowerY ≤ dblMax)
    (ps : List (ℚ × ℚ)) (acc : ℚ × ℚ × ℚ × ℚ) (p : ℚ × ℚ)
    (hps : ∀ q ∈ ps, clip.leftX ≤ q.1 ∧ clip.upperY ≤ q.2) (h : PathInv clip ps acc) :
    PathInv clip (ps ++ visiblePoints clip [p]) (strokePoint clip acc p) := by
  have hd : ∀ z : ℚ, roundTo z coordinatePrecision = deci z := fun _ => rfl
  unfold strokePoint
  simp only [hd]
  by_cases hh : Parsing.hidden clip (deci p.1) (deci p.2) = true
  · rw [if_pos hh]
    have : visiblePoints clip [p] = [] := by
      unfold visiblePoints
      rw [List.map_cons, List.map_nil, List.filter_cons_of_neg]
      · rfl
      · rw [decide_eq_true_iff, ← pb_hidden]; simpa using hh
    rw [this, List.append_nil]; exact h
  · rw [if_neg hh]
    have hv := (pb_hidden clip (deci p.1) (deci p.2)).mp (by simpa using hh)
    have : visiblePoints clip [p] = [(deci p.1, deci p.2)] := by
      unfold visiblePoints
      rw [List.map_cons, List.map_nil, List.filter_cons_of_pos]
      · rfl
      · rw [decide_eq_true_iff]; exact hv
    rw [this]
    obtain ⟨v1, v2, v3, v4⟩ := hv
    simp only [minimum_eq_min, maximum_eq_max]
    refine Or.inr ⟨by simp, ?_⟩
    rcases h with ⟨rfl, rfl⟩ | ⟨hne, h1, h2, ⟨v, h3, e3⟩, ⟨w, h4, e4⟩⟩
    · simp only [List.nil_append]
      refine ⟨?_, ?_, ⟨_, pb_single_greatest _ _, rfl⟩, ⟨_, pb_single_greatest _ _, rfl⟩⟩
      · rw [min_eq_right (by linarith), max_eq_left (by linarith)]
        exact pb_single_least (deci p.1, deci p.2) (·.1)
      · rw [min_eq_right (by linarith), max_eq_left (by linarith)]
        exact pb_single_least (deci p.1, deci p.2) (·.2)
    · dsimp only
      refine ⟨?_, ?_, ⟨_, pb_greatest_snoc (deci p.1, deci p.2) h3, ?_⟩,
        ⟨_, pb_greatest_snoc (deci p.1, deci p.2) h4, ?_⟩⟩
      · have := pb_least_snoc (deci p.1, deci p.2) h1
        rw [max_eq_left]
        · exact this
        · obtain ⟨⟨x, hx, e⟩, _⟩ := this
          rw [← e]
          rcases List.mem_append.mp hx with hx | hx
          · exact (hps x hx).1
          · rw [List.mem_singleton.mp hx]; simp only; linarith
      · have := pb_least_snoc (deci p.1, deci p.2) h2
        rw [max_eq_left]
        · exact this
        · obtain ⟨⟨x, hx, e⟩, _⟩ := this
          rw [← e]
          rcases List.mem_append.mp hx with hx | hx
          · exact (hps x hx).2
          · rw [List.mem_singleton.mp hx]; simp only; linarith
      · rw [e3]; exact pb_cut _ _ _ _ (by linarith)
      · rw [e4]; exact pb_cut _ _ _ _ (by linarith)

theorem pb_visible_mem {clip : Clip} {ps : List (ℚ × ℚ)} {q : ℚ × ℚ}
    (h : q ∈ visiblePoints clip ps) :
    (clip.leftX + 1 / 10 < q.1 ∧ clip.upperY + 1 / 10 < q.2 ∧
      q.1 < clip.rightX - 1 / 10 ∧ q.2 < clip.lowerY - 1 / 10) ∧ deci q.1 = q.1 ∧ deci q.2 = q.2 := by
  unfold visiblePoints at h
  obtain ⟨h1, h2⟩ := List.mem_filter.mp h
  obtain ⟨p, _, rfl⟩ := List.mem_map.mp h1
  exact ⟨by simpa using h2, pb_deci_deci _, pb_deci_deci _⟩

theorem pb_visible_append (clip : Clip) (a b : List (ℚ × ℚ)) :
    visiblePoints clip (a ++ b) = visiblePoints clip a ++ visiblePoints clip b := by
  simp [visiblePoints]

theorem pb_path (clip : Clip) (hr : clip.rightX ≤ dblMax) (hl : clip.lowerY ≤ dblMax) :
    ∀ (points seen : List (ℚ × ℚ)) (acc : ℚ × ℚ × ℚ × ℚ),
    PathInv clip (visiblePoints clip seen) acc →
    PathInv clip (visiblePoints clip (seen ++ points)) (points.foldl (strokePoint clip) acc)
  | [], seen, acc, h => by simpa using h
  | p :: ps, seen, acc, h => by
    rw [List.foldl_cons]
    have h1 := pb_strokePoint clip hr hl (visiblePoints clip seen) acc p (by
      intro q hq
      obtain ⟨⟨a, b, _, _⟩, _⟩ := pb_visible_mem hq
      constructor <;> linarith) h
    rw [← pb_visible_append] at h1
    have := pb_path clip hr hl ps (seen ++ [p]) _ h1
    rwa [List.append_assoc, List.singleton_append] at this

/-- The facts about the accumulator after the loop. -/
theorem pb_shape (clip : Clip) (points : List (ℚ × ℚ)) (n : ℤ) (hr : clip.rightX ≤ dblMax)
    (hl : clip.lowerY ≤ dblMax) (hdr : deci clip.rightX = clip.rightX)
    (hdl : deci clip.lowerY = clip.lowerY) (hv : visiblePoints clip points ≠ []) :
    IsLeastOf (visiblePoints clip points) (·.1) (shapeBox clip points n).leftX ∧
    IsLeastOf (visiblePoints clip points) (·.2) (shapeBox clip points n).upperY ∧
    (∃ v, IsGreatestOf (visiblePoints clip points) (·.1) v ∧
      (shapeBox clip points n).rightX = min (max 0 v) clip.rightX) ∧
    (∃ v, IsGreatestOf (visiblePoints clip points) (·.2) v ∧
      (shapeBox clip points n).lowerY = min (max 0 v) clip.lowerY) := by
  have h0 : PathInv clip (visiblePoints clip []) (dblMax, dblMax, dblMin, dblMin) :=
    Or.inl ⟨rfl, rfl⟩
  have h := pb_path clip hr hl points [] _ h0
  rw [List.nil_append] at h
  have hb : ∀ (f : Bool), True := fun _ => trivial
  unfold shapeBox
  generalize points.foldl (strokePoint clip) (dblMax, dblMax, dblMin, dblMin) = acc at h ⊢
  have hd : ∀ z : ℚ, roundTo z coordinatePrecision = deci z := fun _ => rfl
  simp only [hd]
  have hmax : ∀ v c : ℚ, deci v = v → deci c = c →
      deci (min (max dblMin v) c) = min (max 0 v) c := by
    intro v c h1 h2
    have m1 : deci (max dblMin v) = max 0 v := by
      rcases le_total dblMin v with hle | hle
      · rw [max_eq_right hle, h1, max_eq_right (le_trans pb_dblMin_pos.le hle)]
      · rw [max_eq_left hle, pb_deci_dblMin]
        have := pb_deci_mono hle
        rw [h1, pb_deci_dblMin] at this
        rw [max_eq_left this]
    rcases le_total (max dblMin v) c with hle | hle
    · rw [min_eq_left hle, m1]
      have := pb_deci_mono hle
      rw [m1, h2] at this
      rw [min_eq_left this]
    · rw [min_eq_right hle, h2]
      have := pb_deci_mono hle
      rw [m1, h2] at this
      rw [min_eq_right this]
  rcases h with ⟨h, _⟩ | ⟨_, h1, h2, ⟨v, h3, e3⟩, ⟨w, h4, e4⟩⟩
  · exact absurd h hv
  · have hx : deci acc.1 = acc.1 := by
      obtain ⟨q, hq, e⟩ := h1.1
      rw [← e]; exact (pb_visible_mem hq).2.1
    have hy : deci acc.2.1 = acc.2.1 := by
      obtain ⟨q, hq, e⟩ := h2.1
      rw [← e]; exact (pb_visible_mem hq).2.2
    have hvd : deci v = v := by
      obtain ⟨q, hq, e⟩ := h3.1
      rw [← e]; exact (pb_visible_mem hq).2.1
    have hwd : deci w = w := by
      obtain ⟨q, hq, e⟩ := h4.1
      rw [← e]; exact (pb_visible_mem hq).2.2
    refine ⟨by rw [hx]; exact h1, by rw [hy]; exact h2, ⟨v, h3, ?_⟩, ⟨w, h4, ?_⟩⟩
    · rw [e3]; exact hmax _ _ hvd hdr
    · rw [e4]; exact hmax _ _ hwd hdl

/-- **C52** (the part that holds). A path with at least one visible point gets a well-formed box
inside of the clip box that contains all visible points; its left and upper edges are those of the
smallest such box. -/
theorem c52_inside_partial (c : Clip) (points : List (ℚ × ℚ)) (n : ℤ)
    (hr : c.round.rightX ≤ dblMax) (hl : c.round.lowerY ≤ dblMax)
    (hv : visiblePoints c.round points ≠ []) :
    InsideClip c.round (shapeBox c.round points n) ∧
    (shapeBox c.round points n).pageNum = n ∧
    (∀ q ∈ visiblePoints c.round points,
      (shapeBox c.round points n).leftX ≤ q.1 ∧ q.1 ≤ (shapeBox c.round points n).rightX ∧
      (shapeBox c.round points n).upperY ≤ q.2 ∧ q.2 ≤ (shapeBox c.round points n).lowerY) ∧
    IsLeastOf (visiblePoints c.round points) (·.1) (shapeBox c.round points n).leftX ∧
    IsLeastOf (visiblePoints c.round points) (·.2) (shapeBox c.round points n).upperY := by
  obtain ⟨h1, h2, ⟨v, h3, e3⟩, ⟨w, h4, e4⟩⟩ := pb_shape c.round points n hr hl
    (pb_deci_deci _) (pb_deci_deci _) hv
  have hin : ∀ q ∈ visiblePoints c.round points,
      q.1 ≤ (shapeBox c.round points n).rightX ∧ q.2 ≤ (shapeBox c.round points n).lowerY := by
    intro q hq
    obtain ⟨⟨_, _, a, b⟩, _⟩ := pb_visible_mem hq
    rw [e3, e4]
    exact ⟨le_min (le_max_of_le_right (h3.2 q hq)) (by linarith),
      le_min (le_max_of_le_right (h4.2 q hq)) (by linarith)⟩
  obtain ⟨q1, hq1, eq1⟩ := h1.1
  obtain ⟨q2, hq2, eq2⟩ := h2.1
  obtain ⟨⟨a1, _, _, _⟩, _⟩ := pb_visible_mem hq1
  obtain ⟨⟨_, a2, _, _⟩, _⟩ := pb_visible_mem hq2
  refine ⟨⟨?_, ?_, ?_, ?_, ?_, ?_⟩, rfl, ?_, h1, h2⟩
  · simp only at eq1; rw [← eq1]; linarith
  · exact le_trans (h1.2 q1 hq1) (hin q1 hq1).1
  · rw [e3]; exact min_le_right _ _
  · simp only at eq2; rw [← eq2]; linarith
  · exact le_trans (h2.2 q2 hq2) (hin q2 hq2).2
  · rw [e4]; exact min_le_right _ _
  · intro q hq
    exact ⟨h1.2 q hq, (hin q hq).1, h2.2 q hq, (hin q hq).2⟩

/-- **C52.** If the clip box lies at positive coordinates, the box is exactly the smallest box around
the visible points. -/
theorem c52_tight (c : Clip) (points : List (ℚ × ℚ)) (n : ℤ)
    (hr : c.round.rightX ≤ dblMax) (hl : c.round.lowerY ≤ dblMax)
    (hx : 0 ≤ c.round.leftX) (hy : 0 ≤ c.round.upperY)
    (hv : visiblePoints c.round points ≠ []) :
    IsLeastOf (visiblePoints c.round points) (·.1) (shapeBox c.round points n).leftX ∧
    IsLeastOf (visiblePoints c.round points) (·.2) (shapeBox c.round points n).upperY ∧
    IsGreatestOf (visiblePoints c.round points) (·.1) (shapeBox c.round points n).rightX ∧
    IsGreatestOf (visiblePoints c.round points) (·.2) (shapeBox c.round points n).lowerY := by
  obtain ⟨h1, h2, ⟨v, h3, e3⟩, ⟨w, h4, e4⟩⟩ := pb_shape c.round points n hr hl
    (pb_deci_deci _) (pb_deci_deci _) hv
  refine ⟨h1, h2, ?_, ?_⟩
  · obtain ⟨q, hq, e⟩ := h3.1
    obtain ⟨⟨a, _, b, _⟩, _⟩ := pb_visible_mem hq
    simp only at e
    rw [e3, max_eq_right (by linarith), min_eq_left (by linarith)]
    exact h3
  · obtain ⟨q, hq, e⟩ := h4.1
    obtain ⟨⟨_, a, _, b⟩, _⟩ := pb_visible_mem hq
    simp only at e
    rw [e4, max_eq_right (by linarith), min_eq_left (by linarith)]
    exact h4

theorem pb_nothing_visible (clip : Clip) : ∀ (points : List (ℚ × ℚ)) (acc : ℚ × ℚ × ℚ × ℚ),
    visiblePoints clip points = [] → points.foldl (strokePoint clip) acc = acc
  | [], _, _ => rfl
  | p :: ps, acc, h => by
    have h' := pb_visible_append clip [p] ps
    rw [List.singleton_append, h] at h'
    obtain ⟨h1, h2⟩ := List.append_eq_nil_iff.mp h'.symm
    rw [List.foldl_cons]
    have : strokePoint clip acc p = acc := by
      unfold strokePoint
      simp only
      rw [if_pos]
      by_contra hh
      have := (pb_hidden clip (roundTo p.1 coordinatePrecision)
        (roundTo p.2 coordinatePrecision)).mp (by simpa using hh)
      have hm : (deci p.1, deci p.2) ∈ visiblePoints clip [p] := by
        unfold visiblePoints
        refine List.mem_filter.mpr ⟨by simp, ?_⟩
        rw [decide_eq_true_iff]; exact this
      rw [h1] at hm; cases hm
    rw [this]
    exact pb_nothing_visible clip ps acc h2

/-- **C52 is false in general.** A path without a visible point - outside of the clip box, or
crossing it with both end points outside, or along its edge - still becomes a shape, and the box of
this shape is inside out: its left edge is the largest number, its right edge is 0. -/
theorem c52_nothing_visible_refuted (clip : Clip) (points : List (ℚ × ℚ)) (n : ℤ)
    (hv : visiblePoints clip points = []) :
    (shapeBox clip points n).rightX = 0 ∧ (shapeBox clip points n).lowerY = 0 ∧
    (shapeBox clip points n).leftX > 10 ^ 300 ∧ (shapeBox clip points n).upperY > 10 ^ 300 ∧
    ∀ (t : Tables) (s : State) (c : Clip), clip = c.round → ∀ p, s.page = some p →
      ∃ s', step t s (.stroke points c) = .ok s' ∧
        s'.page = some (route clip (.shape (shapeBox clip points p.pageNum) s.numElements) p) := by
  have hbig : deci dblMax > 10 ^ 300 := by decide +kernel
  unfold shapeBox
  rw [pb_nothing_visible clip points _ hv]
  refine ⟨pb_deci_dblMin, pb_deci_dblMin, hbig, hbig, ?_⟩
  intro t s c hc p hp
  subst hc
  simp only [step, place, hp]
  refine ⟨_, rfl, ?_⟩
  simp only [shapeBox]
  rw [pb_nothing_visible _ points _ hv]

/-- Non-vacuity: a triangle in the page is its box; a line through the whole page is inside out; at
negative coordinates the box is not tight. -/
example :
    let c : Clip := ⟨0, 0, 600, 800⟩
    let tri : List (ℚ × ℚ) := [(10, 10), (20, 10), (15, 31)]
    visiblePoints c.round tri ≠ [] ∧ (shapeBox c.round tri 1).rightX = 20 ∧
    (shapeBox c.round tri 1).lowerY = 31 ∧
    visiblePoints c.round [(-10, 400), (700, 400)] = [] ∧
    (shapeBox (Clip.round ⟨-100, -100, 100, 100⟩) [(-50, -50)] 1).rightX = 0 := by
  decide +kernel

/-! ## Images -/

/-- The four edges the parser computes for an image: its lower left corner is the place of the
origin, the opposite corner is found by adding the two scales. -/
def imageEdges (ctm : Mat) : ℚ × ℚ × ℚ × ℚ :=
  (deci ctm.m4, deci ctm.m5, deci (deci ctm.m4 + ctm.m0), deci (deci ctm.m5 + ctm.m3))

/-- **C64.** An image is recorded if and only if its origin lies more than 0.1 right of the left and
below the upper edge of the clip box and the opposite corner more than 0.1 left of the right and
above the lower edge. -/
theorem c64_recorded_iff (clip : Clip) (ctm : Mat) :
    (graphicBox clip ctm).isSome = true ↔
      clip.leftX + 1 / 10 < (imageEdges ctm).1 ∧ clip.upperY + 1 / 10 < (imageEdges ctm).2.1 ∧
      (imageEdges ctm).2.2.1 < clip.rightX - 1 / 10 ∧
      (imageEdges ctm).2.2.2 < clip.lowerY - 1 / 10 := by
  have hd : ∀ z : ℚ, roundTo z coordinatePrecision = deci z := fun _ => rfl
  unfold graphicBox imageEdges coordsTol
  simp only [hd]
  split
  · rename_i h
    constructor
    · intro h'; cases h'
    · rintro ⟨h1, h2, h3, h4⟩
      exfalso
      simp only [Bool.or_eq_true, eos_iff, eol_iff] at h
      rcases h with ((h | h) | h) | h <;> linarith
  · rename_i h
    simp only [Bool.or_eq_true, eos_iff, eol_iff, not_or, not_le] at h
    obtain ⟨⟨⟨h1, h2⟩, h3⟩, h4⟩ := h
    exact ⟨fun _ => ⟨h1, h2, h3, h4⟩, fun _ => rfl⟩

/-- **C64.** The box of a recorded image lies in the clip box, its edges are in the right order, and
it is the part inside of the clip box of the rectangle between the two corners. -/
theorem c64_box (clip : Clip) (ctm : Mat) (b : Box) (h : graphicBox clip ctm = some b)
    (hx : clip.leftX ≤ clip.rightX) (hy : clip.upperY ≤ clip.lowerY) :
    InsideClip clip b ∧
    b.leftX = max (min (imageEdges ctm).1 (imageEdges ctm).2.2.1) clip.leftX ∧
    b.rightX = min (max (imageEdges ctm).1 (imageEdges ctm).2.2.1) clip.rightX ∧
    b.upperY = max (min (imageEdges ctm).2.1 (imageEdges ctm).2.2.2) clip.upperY ∧
    b.lowerY = min (max (imageEdges ctm).2.1 (imageEdges ctm).2.2.2) clip.lowerY := by
  have hs := (c64_recorded_iff clip ctm).mp (by rw [h]; rfl)
  have hd : ∀ z : ℚ, roundTo z coordinatePrecision = deci z := fun _ => rfl
  obtain ⟨h1, h2, h3, h4⟩ := hs
  unfold graphicBox at h
  simp only [hd, minimum_eq_min, maximum_eq_max] at h
  split at h
  · cases h
  · have e := Option.some.inj h
    subst e
    refine ⟨⟨le_max_right _ _, ?_, min_le_right _ _, le_max_right _ _, ?_, min_le_right _ _⟩,
      rfl, rfl, rfl, rfl⟩
    · simp only [imageEdges] at h1 h3
      refine max_le (le_min (le_trans (min_le_left _ _) (le_max_left _ _)) ?_)
        (le_min (le_trans ?_ (le_max_left _ _)) hx)
      · exact le_trans (min_le_right _ _) (by linarith)
      · linarith
    · simp only [imageEdges] at h2 h4
      refine max_le (le_min (le_trans (min_le_left _ _) (le_max_left _ _)) ?_)
        (le_min (le_trans ?_ (le_max_left _ _)) hy)
      · exact le_trans (min_le_right _ _) (by linarith)
      · linarith

/-- **C64 is false for images that fill the width of their clip box**: although visible, they are
not recorded. -/
theorem c64_full_width_refuted (clip : Clip) (ctm : Mat)
    (h : deci ctm.m4 ≤ clip.leftX ∨ clip.rightX ≤ deci (deci ctm.m4 + ctm.m0)) :
    graphicBox clip ctm = none := by
  cases hg : graphicBox clip ctm with
  | none => rfl
  | some b =>
    obtain ⟨h1, _, h3, _⟩ := (c64_recorded_iff clip ctm).mp (by rw [hg]; rfl)
    simp only [imageEdges] at h1 h3
    rcases h with h | h <;> linarith

/-- **C64 is false for images rotated by a quarter**: their two scales are 0, and the recorded box
has no extent. -/
theorem c64_quarter_turn_refuted (clip : Clip) (ctm : Mat) (b : Box) (h0 : ctm.m0 = 0)
    (h3 : ctm.m3 = 0) (h : graphicBox clip ctm = some b) :
    b.leftX = b.rightX ∧ b.upperY = b.lowerY := by
  have hs := (c64_recorded_iff clip ctm).mp (by rw [h]; rfl)
  have hd : ∀ z : ℚ, roundTo z coordinatePrecision = deci z := fun _ => rfl
  obtain ⟨h1, h2, h3', h4⟩ := hs
  unfold graphicBox at h
  simp only [hd, minimum_eq_min, maximum_eq_max, h0, h3, add_zero, pb_deci_deci] at h
  simp only [imageEdges, h0, h3, add_zero, pb_deci_deci] at h1 h2 h3' h4
  split at h
  · cases h
  · have e := Option.some.inj h
    subst e
    simp only [min_self, max_self]
    exact ⟨by rw [max_eq_left (by linarith), min_eq_left (by linarith)],
      by rw [max_eq_left (by linarith), min_eq_left (by linarith)]⟩

/-- Non-vacuity: an image in the middle of the page (as Poppler reports it, with a negative vertical
scale) is recorded with its rectangle; cut to its own clip box it is dropped; turned by a quarter its
box is a point. -/
example :
    let c : Clip := ⟨0, 0, 600, 800⟩
    (graphicBox c ⟨200, 0, 0, -100, 50, 300⟩).map (fun b => (b.leftX, b.upperY, b.rightX, b.lowerY))
      = some (50, 200, 250, 300) ∧
    graphicBox ⟨50, 200, 250, 300⟩ ⟨200, 0, 0, -100, 50, 300⟩ = none ∧
    (graphicBox c ⟨0, 200, 100, 0, 50, 300⟩).map (fun b => (b.leftX, b.upperY, b.rightX, b.lowerY))
      = some (50, 300, 50, 300) := by
  decide +kernel

/-! ## Characters -/

/-- **C63.** The pen positions: the place of a character is the image of the point (0, rise) under the
text matrix (placed at the current point) and the current transformation matrix; the place of the next
one is the image of the point reached by advancing by the scaled width (the rise is left out there). -/
theorem c63_pen (f : StateFont) (ev : CharEvent) :
    ((renderMatrix ev).m4, (renderMatrix ev).m5) = apply ev.ctm (apply (textMatrix ev) (0, ev.rise)) ∧
    ((nextMatrix f ev).m4, (nextMatrix f ev).m5) =
      apply ev.ctm (apply (textMatrix ev) (f.width * ev.fontSize * ev.horizScaling, 0)) := by
  unfold renderMatrix nextMatrix concat apply
  constructor <;> (ext <;> simp only <;> ring)

theorem pb_larger (a b t : ℚ) : larger a b t = decide (b + t < a) := rfl

theorem pb_smaller (a b t : ℚ) : smaller a b t = decide (a < b - t) := rfl

/-- **C63.** The rotation of text that is turned by a multiple of a quarter, in page coordinates with
y pointing down: 0 if it runs to the right, 1 downwards, 2 to the left, 3 upwards. -/
theorem c63_rotation (a d : ℚ) (ha : 1 / 100 < a) (hd : 1 / 100 < d) :
    rotationOf (a, 0, 0, -d) = 0 ∧ rotationOf (0, a, d, 0) = 1 ∧
    rotationOf (-a, 0, 0, d) = 2 ∧ rotationOf (0, -a, -d, 0) = 3 := by
  have hmul : tol < a * d := by
    unfold tol
    nlinarith
  have ht := tol_pos
  have ht1 : tol < 1 / 100 := by norm_num [tol]
  have habs : |a * d| = a * d := abs_of_pos (by nlinarith)
  unfold rotationOf
  simp only [pb_larger, pb_smaller, mul_zero, abs_zero, mul_neg, neg_mul, abs_neg, habs, zero_add,
    zero_sub, neg_neg, decide_eq_true_iff, Bool.or_eq_true]
  have n1 : ¬ a * d + tol < 0 := by intro h; linarith
  refine ⟨?_, ?_, ?_, ?_⟩
  · rw [if_pos hmul, if_pos (Or.inl (by linarith))]
  · rw [if_neg n1, if_pos (by linarith)]
  · rw [if_pos hmul, if_neg]
    rintro (h | h) <;> linarith
  · rw [if_neg n1, if_neg (by intro h; linarith)]

/-- The rectangle of a character before rounding if its font file says nothing about the glyph. -/
def metricOf (font : Font) (f : StateFont) (ev : CharEvent) : RawBox :=
  metricBox f.wMode (charRotation f ev) (renderMatrix ev).m4 (renderMatrix ev).m5
    (nextMatrix f ev).m4 (nextMatrix f ev).m5 ev.transformedFontSize
    (font.info.ascent * ev.transformedFontSize) (font.info.descent * ev.transformedFontSize)

/-- **C63.** The box of an upright character whose glyph is not known from the font file: it reaches
from the pen to the next pen, from the ascent above the base line to the descent below it, rounded to
one decimal; the base line is the height of the pen. -/
theorem c63_upright_box (charMap : Str → Option (ℕ × Str)) (font : Font) (f : StateFont) (ev : CharEvent)
    (n : ℤ) (r : ℕ) (hw : f.wMode = false) (hr : charRotation f ev = 0)
    (hg : font.glyphs (charName ev) = none) :
    let c := makeChar charMap font f ev n r
    let pen := apply ev.ctm (apply (textMatrix ev) (0, ev.rise))
    let next := apply ev.ctm (apply (textMatrix ev) (f.width * ev.fontSize * ev.horizScaling, 0))
    c.pos.leftX = deci pen.1 ∧ c.pos.rightX = deci next.1 ∧
    c.pos.upperY = deci (pen.2 - font.info.ascent * ev.transformedFontSize) ∧
    c.pos.lowerY = deci (pen.2 - font.info.descent * ev.transformedFontSize) ∧
    c.base = deci pen.2 ∧ c.pos.rotation = 0 ∧ c.pos.wMode = 0 ∧ c.pos.pageNum = n := by
  obtain ⟨h1, h2⟩ := c63_pen f ev
  have hd : ∀ z : ℚ, roundTo z coordinatePrecision = deci z := fun _ => rfl
  simp only [makeChar, hg, Option.map_none, chooseBox, hw, hr, metricBox, hd, if_true, if_false,
    Bool.false_eq_true, ← h1, ← h2]
  refine ⟨trivial, ?_, trivial, trivial, trivial, trivial, trivial, trivial⟩
  congr 1; ring

/-- **C63.** With an embedded glyph box: the tight box replaces the metric one exactly if it reaches
more than 0.1 above or below it, and then the base line is its lower edge. -/
theorem c63_choice (metric g : RawBox) :
    (g.upperY < metric.upperY - 1 / 10 ∨ g.lowerY > metric.lowerY + 1 / 10 →
      chooseBox metric (some g) = g) ∧
    (metric.upperY - 1 / 10 ≤ g.upperY → g.lowerY ≤ metric.lowerY + 1 / 10 →
      chooseBox metric (some g) = metric) ∧ chooseBox metric none = metric := by
  unfold chooseBox coordsTol
  simp only [pb_larger, pb_smaller, Bool.or_eq_true, decide_eq_true_iff]
  exact ⟨fun h => if_pos h, fun h1 h2 => if_neg (by
    rintro (h | h) <;> linarith), trivial⟩

/-- **C63.** The tight box is the smallest upright rectangle around the images of two opposite corners
of the glyph box under the font matrix and the text rendering matrix; it is always well-formed. -/
theorem c63_glyph (m0 m1 m2 m3 m4 m5 : ℚ) (trm : Mat) (g : ℚ × ℚ × ℚ × ℚ) :
    let p := apply trm (apply ⟨m0, m1, m2, m3, m4, m5⟩ (g.1, g.2.1))
    let q := apply trm (apply ⟨m0, m1, m2, m3, m4, m5⟩ (g.2.2.1, g.2.2.2))
    let b := glyphBox [m0, m1, m2, m3, m4, m5] trm g
    b.leftX = min p.1 q.1 ∧ b.rightX = max p.1 q.1 ∧ b.upperY = min p.2 q.2 ∧
    b.lowerY = max p.2 q.2 ∧ b.base = b.lowerY ∧ b.leftX ≤ b.rightX ∧ b.upperY ≤ b.lowerY := by
  have e : ∀ a b c d x y : ℚ, a = b → c = d → x = y → min a c = min b d ∧ max a c = max b d ∧ x = y := by
    rintro a b c d x y rfl rfl rfl; exact ⟨rfl, rfl, rfl⟩
  simp only [glyphBox, apply, minimum_eq_min, maximum_eq_max, List.getD_cons_zero,
    List.getD_cons_succ]
  refine ⟨?_, ?_, ?_, ?_, trivial, min_le_max, min_le_max⟩
  · congr 1 <;> ring
  · congr 1 <;> ring
  · congr 1 <;> ring
  · congr 1 <;> ring

/-- What Poppler's matrix says about the way from one pen to the next. -/
theorem pb_advance (f : StateFont) (ev : CharEvent) (hr : ev.rise = 0) :
    (nextMatrix f ev).m4 - (renderMatrix ev).m4 = f.width * (popplerFontTrans ev).1 ∧
    (nextMatrix f ev).m5 - (renderMatrix ev).m5 = f.width * (popplerFontTrans ev).2.1 := by
  unfold nextMatrix renderMatrix concat popplerFontTrans textMatrix
  rw [hr]
  constructor <;> (simp only; ring)

/-- **C63.** Without text rise, the metric box is well-formed for text running right, down or up (the
sign of the advance is the one that goes with the rotation) if the width and the font size are not
negative. -/
theorem c63_well_formed_partial (font : Font) (f : StateFont) (ev : CharEvent)
    (hp : ev.fontTrans = popplerFontTrans ev) (h3 : f.type3 = false) (hw : f.wMode = false)
    (hrise : ev.rise = 0) (hwidth : 0 ≤ f.width) (hs : 0 ≤ ev.transformedFontSize)
    (ha : font.info.descent ≤ font.info.ascent)
    (hdir : (charRotation f ev = 0 ∧ 0 ≤ ev.fontTrans.1) ∨
      (charRotation f ev = 1 ∧ 0 ≤ ev.fontTrans.2.1) ∨
      (charRotation f ev = 3 ∧ ev.fontTrans.2.1 ≤ 0)) :
    (metricOf font f ev).leftX ≤ (metricOf font f ev).rightX ∧
    (metricOf font f ev).upperY ≤ (metricOf font f ev).lowerY := by
  obtain ⟨h1, h2⟩ := pb_advance f ev hrise
  rw [← hp] at h1 h2
  have hmul : font.info.descent * ev.transformedFontSize ≤ font.info.ascent * ev.transformedFontSize :=
    mul_le_mul_of_nonneg_right ha hs
  unfold metricOf metricBox
  rw [hw]
  rcases hdir with ⟨hr, hd⟩ | ⟨hr, hd⟩ | ⟨hr, hd⟩
  · have := mul_nonneg hwidth hd
    simp only [hr, Bool.false_eq_true, if_false, if_true]
    constructor <;> linarith
  · have := mul_nonneg hwidth hd
    simp only [hr, Bool.false_eq_true, if_false, if_true, one_ne_zero]
    constructor <;> linarith
  · have := mul_nonneg hwidth (neg_nonneg.mpr hd)
    have n1 : ¬ ((3 : ℤ) = 0) := by decide
    have n2 : ¬ ((3 : ℤ) = 1) := by decide
    have n3 : ¬ ((3 : ℤ) = 2) := by decide
    simp only [hr, Bool.false_eq_true, if_false, if_true, if_neg n1, if_neg n2, if_neg n3]
    constructor <;> linarith

/-- **C63 is false for text that is upside down**: its box is inside out, the left edge lies right of
the right edge (by the width of the character). -/
theorem c63_upside_down_refuted (font : Font) (f : StateFont) (ev : CharEvent)
    (hp : ev.fontTrans = popplerFontTrans ev) (hw : f.wMode = false)
    (hrise : ev.rise = 0) (hwidth : 0 < f.width) (hr : charRotation f ev = 2)
    (hneg : ev.fontTrans.1 < 0) :
    (metricOf font f ev).rightX < (metricOf font f ev).leftX ∧
    (metricOf font f ev).leftX - (metricOf font f ev).rightX = f.width * |ev.fontTrans.1| := by
  obtain ⟨h1, _⟩ := pb_advance f ev hrise
  rw [← hp] at h1
  have n1 : ¬ ((2 : ℤ) = 0) := by decide
  have n2 : ¬ ((2 : ℤ) = 1) := by decide
  unfold metricOf metricBox
  simp only [hw, hr, Bool.false_eq_true, if_false, if_true, if_neg n1, if_neg n2]
  rw [abs_of_neg hneg]
  have := mul_pos hwidth (neg_pos.mpr hneg)
  constructor <;> linarith

/-- The font of the example. -/
def exStateFont : StateFont where
  type3 := false
  matrix := ⟨1, 0, 0, 1, 0, 0⟩
  wMode := false
  charName := "A".toList
  width := 1 / 2

/-- A character of size 10 at (100, 200) on a page of height 800, turned upside down if `s` is -1. -/
def exCharEvent (s : ℚ) : CharEvent where
  font := some exStateFont
  uLen := 1
  mapped := some "A".toList
  fontTrans := (s * 10, 0, 0, -(s * 10))
  fontSize := 10
  horizScaling := 1
  rise := 0
  textMat := (s, 0, 0, s)
  curX := 100
  curY := 600
  ctm := ⟨1, 0, 0, -1, 0, 800⟩
  transformedFontSize := 10
  clip := ⟨0, 0, 600, 800⟩

/-- Non-vacuity: the upright character has the box (100, 190.5) - (105, 203.5) with base line 200; the
one that is upside down runs from 100 to 95. -/
example : (exCharEvent 1).fontTrans = popplerFontTrans (exCharEvent 1) ∧
    (exCharEvent (-1)).fontTrans = popplerFontTrans (exCharEvent (-1)) ∧
    charRotation exStateFont (exCharEvent 1) = 0 ∧ charRotation exStateFont (exCharEvent (-1)) = 2 ∧
    (fun b : RawBox => (b.leftX, b.upperY, b.rightX, b.lowerY, b.base))
      (metricBox false 0 100 200 105 200 10 (19 / 2) (-(7 / 2))) =
      (100, 381 / 2, 105, 407 / 2, 200) ∧
    ((renderMatrix (exCharEvent (-1))).m4, (nextMatrix exStateFont (exCharEvent (-1))).m4) =
      (100, 95) := by
  decide +kernel

end Verif.Props

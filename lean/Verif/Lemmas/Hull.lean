import Verif.Model.Hull
import Verif.Spec.Hull
import Verif.Lemmas.Math

/-! Bounding box computations yield smallest boxes. -/

namespace Verif

open Verif.Math Verif.Spec

/-- The box lies in the range of coordinates for which the initial values `DBL_MAX` / `DBL_MIN` (the
smallest *positive* double) of a bounding box are neutral: right and lower edge are positive. -/
structure PositiveBox (b : Box) : Prop where
  left : b.leftX ≤ dblMax
  upper : b.upperY ≤ dblMax
  right : dblMin ≤ b.rightX
  lower : dblMin ≤ b.lowerY

theorem extendAll_leftX (b : Box) (es : List Box) :
    (Box.extendAll b es).leftX = es.foldl (fun acc e => min acc e.leftX) b.leftX := by
  induction es generalizing b with
  | nil => rfl
  | cons e es ih => simp only [Box.extendAll, List.foldl_cons] at ih ⊢; rw [ih]; simp [Box.extend, minimum_eq_min]

theorem extendAll_upperY (b : Box) (es : List Box) :
    (Box.extendAll b es).upperY = es.foldl (fun acc e => min acc e.upperY) b.upperY := by
  induction es generalizing b with
  | nil => rfl
  | cons e es ih => simp only [Box.extendAll, List.foldl_cons] at ih ⊢; rw [ih]; simp [Box.extend, minimum_eq_min]

theorem extendAll_rightX (b : Box) (es : List Box) :
    (Box.extendAll b es).rightX = es.foldl (fun acc e => max acc e.rightX) b.rightX := by
  induction es generalizing b with
  | nil => rfl
  | cons e es ih => simp only [Box.extendAll, List.foldl_cons] at ih ⊢; rw [ih]; simp [Box.extend, maximum_eq_max]

theorem extendAll_lowerY (b : Box) (es : List Box) :
    (Box.extendAll b es).lowerY = es.foldl (fun acc e => max acc e.lowerY) b.lowerY := by
  induction es generalizing b with
  | nil => rfl
  | cons e es ih => simp only [Box.extendAll, List.foldl_cons] at ih ⊢; rw [ih]; simp [Box.extend, maximum_eq_max]

theorem extendAll_rest (b : Box) (es : List Box) :
    (Box.extendAll b es).pageNum = b.pageNum ∧ (Box.extendAll b es).rotation = b.rotation ∧
      (Box.extendAll b es).wMode = b.wMode := by
  induction es generalizing b with
  | nil => exact ⟨rfl, rfl, rfl⟩
  | cons e es ih =>
    have := ih (Box.extend b e)
    simpa [Box.extendAll, Box.extend] using this

theorem foldl_min_le {α : Type} (f : α → ℚ) (l : List α) (a : ℚ) :
    l.foldl (fun acc e => min acc (f e)) a ≤ a ∧ ∀ e ∈ l, l.foldl (fun acc e => min acc (f e)) a ≤ f e := by
  induction l generalizing a with
  | nil => simp
  | cons x xs ih =>
    obtain ⟨h1, h2⟩ := ih (min a (f x))
    simp only [List.foldl_cons]
    refine ⟨le_trans h1 (min_le_left _ _), ?_⟩
    intro e he
    rcases List.mem_cons.mp he with rfl | he
    · exact le_trans h1 (min_le_right _ _)
    · exact h2 e he

theorem foldl_min_mem {α : Type} (f : α → ℚ) (l : List α) (a : ℚ) :
    l.foldl (fun acc e => min acc (f e)) a = a ∨ ∃ e ∈ l, f e = l.foldl (fun acc e => min acc (f e)) a := by
  induction l generalizing a with
  | nil => simp
  | cons x xs ih =>
    simp only [List.foldl_cons]
    rcases ih (min a (f x)) with h | ⟨e, he, h⟩
    · rw [h]
      rcases min_choice a (f x) with h' | h'
      · left; exact h'
      · right; exact ⟨x, by simp, h'.symm⟩
    · right; exact ⟨e, by simp [he], h⟩

theorem foldl_max_ge {α : Type} (f : α → ℚ) (l : List α) (a : ℚ) :
    a ≤ l.foldl (fun acc e => max acc (f e)) a ∧ ∀ e ∈ l, f e ≤ l.foldl (fun acc e => max acc (f e)) a := by
  induction l generalizing a with
  | nil => simp
  | cons x xs ih =>
    obtain ⟨h1, h2⟩ := ih (max a (f x))
    simp only [List.foldl_cons]
    refine ⟨le_trans (le_max_left _ _) h1, ?_⟩
    intro e he
    rcases List.mem_cons.mp he with rfl | he
    · exact le_trans (le_max_right _ _) h1
    · exact h2 e he

theorem foldl_max_mem {α : Type} (f : α → ℚ) (l : List α) (a : ℚ) :
    l.foldl (fun acc e => max acc (f e)) a = a ∨ ∃ e ∈ l, f e = l.foldl (fun acc e => max acc (f e)) a := by
  induction l generalizing a with
  | nil => simp
  | cons x xs ih =>
    simp only [List.foldl_cons]
    rcases ih (max a (f x)) with h | ⟨e, he, h⟩
    · rw [h]
      rcases max_choice a (f x) with h' | h'
      · left; exact h'
      · right; exact ⟨x, by simp, h'.symm⟩
    · right; exact ⟨e, by simp [he], h⟩

theorem isLeastOf_foldl {α : Type} (f : α → ℚ) {l : List α} (hne : l ≠ []) {a : ℚ}
    (ha : ∀ e ∈ l, f e ≤ a) : IsLeastOf l f (l.foldl (fun acc e => min acc (f e)) a) := by
  refine ⟨?_, (foldl_min_le f l a).2⟩
  rcases foldl_min_mem f l a with h | h
  · obtain ⟨e, he⟩ := List.exists_mem_of_ne_nil l hne
    refine ⟨e, he, le_antisymm ?_ ((foldl_min_le f l a).2 e he)⟩
    rw [h]; exact ha e he
  · exact h

theorem isGreatestOf_foldl {α : Type} (f : α → ℚ) {l : List α} (hne : l ≠ []) {a : ℚ}
    (ha : ∀ e ∈ l, a ≤ f e) : IsGreatestOf l f (l.foldl (fun acc e => max acc (f e)) a) := by
  refine ⟨?_, (foldl_max_ge f l a).2⟩
  rcases foldl_max_mem f l a with h | h
  · obtain ⟨e, he⟩ := List.exists_mem_of_ne_nil l hne
    refine ⟨e, he, le_antisymm ((foldl_max_ge f l a).2 e he) ?_⟩
    rw [h]; exact ha e he
  · exact h

/-- The loop started from a default box yields the smallest box around a non-empty list of boxes. -/
theorem extendAll_isHull {b : Box} {es : List Box} (hne : es ≠ []) (hl : b.leftX = dblMax)
    (hu : b.upperY = dblMax) (hr : b.rightX = dblMin) (hw : b.lowerY = dblMin)
    (hp : ∀ e ∈ es, PositiveBox e) : IsHull es (Box.extendAll b es) where
  left := by
    rw [extendAll_leftX, hl]
    exact isLeastOf_foldl _ hne fun e he => (hp e he).left
  upper := by
    rw [extendAll_upperY, hu]
    exact isLeastOf_foldl _ hne fun e he => (hp e he).upper
  right := by
    rw [extendAll_rightX, hr]
    exact isGreatestOf_foldl _ hne fun e he => (hp e he).right
  lower := by
    rw [extendAll_lowerY, hw]
    exact isGreatestOf_foldl _ hne fun e he => (hp e he).lower

/-- Without the range assumption, the box still contains all elements. -/
theorem extendAll_contains (b : Box) (es : List Box) : ∀ e ∈ es,
    (Box.extendAll b es).leftX ≤ e.leftX ∧ (Box.extendAll b es).upperY ≤ e.upperY ∧
    e.rightX ≤ (Box.extendAll b es).rightX ∧ e.lowerY ≤ (Box.extendAll b es).lowerY := by
  intro e he
  rw [extendAll_leftX, extendAll_upperY, extendAll_rightX, extendAll_lowerY]
  exact ⟨(foldl_min_le _ es _).2 e he, (foldl_min_le _ es _).2 e he, (foldl_max_ge _ es _).2 e he,
    (foldl_max_ge _ es _).2 e he⟩

end Verif

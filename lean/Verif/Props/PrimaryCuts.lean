import Verif.Props.ReadingOrder
import Verif.Spec.Hull

/-!
# C57, continued: the primary cuts of a page
-/

namespace Verif.Props

open Verif.XYCut Verif.Math Verif.Elements Verif.Spec Verif.ReadingOrder

theorem pr_extent (es : List RElem) (b : ∀ e ∈ es, e.pos.leftX ≤ dblMax ∧ e.pos.upperY ≤ dblMax ∧ dblMin ≤ e.pos.rightX ∧ dblMin ≤ e.pos.lowerY)
    {l t r w : ℚ} (hl : IsLeastOf es (·.pos.leftX) l) (ht : IsLeastOf es (·.pos.upperY) t) (hr : IsGreatestOf es (·.pos.rightX) r)
    (hw : IsGreatestOf es (·.pos.lowerY) w) : es.foldl Extent.add {} = ⟨l, t, r, w⟩ := by
  have key : ∀ (es : List RElem) (x : Extent), es.foldl Extent.add x =
      ⟨es.foldl (fun a e => min a e.pos.leftX) x.minX, es.foldl (fun a e => min a e.pos.upperY) x.minY,
       es.foldl (fun a e => max a e.pos.rightX) x.maxX, es.foldl (fun a e => max a e.pos.lowerY) x.maxY⟩ := by
    intro es
    induction es with
    | nil => intro x; rfl
    | cons e es ih => intro x; rw [List.foldl_cons, ih]; simp only [Extent.add, minimum_eq_min, maximum_eq_max, List.foldl_cons]
  have least : ∀ (f : RElem → ℚ) (v : ℚ), IsLeastOf es f v → (∀ e ∈ es, f e ≤ dblMax) → es.foldl (fun a e => min a (f e)) dblMax = v := by
    intro f v hv hd
    have h1 : ∀ (es : List RElem) (a : ℚ), es.foldl (fun a e => min a (f e)) a ≤ a ∧ (∀ e ∈ es, es.foldl (fun a e => min a (f e)) a ≤ f e) ∧
        (es.foldl (fun a e => min a (f e)) a = a ∨ ∃ e ∈ es, es.foldl (fun a e => min a (f e)) a = f e) := by
      intro es
      induction es with
      | nil => intro a; simp
      | cons e es ih =>
        intro a
        obtain ⟨i1, i2, i3⟩ := ih (min a (f e))
        rw [List.foldl_cons]
        refine ⟨le_trans i1 (min_le_left _ _), ?_, ?_⟩
        · intro x hx
          rcases List.mem_cons.mp hx with rfl | hx
          · exact le_trans i1 (min_le_right _ _)
          · exact i2 x hx
        · rcases i3 with i3 | ⟨x, hx, i3⟩
          · rcases min_choice a (f e) with h | h
            · left; rw [i3, h]
            · right; exact ⟨e, by simp, by rw [i3, h]⟩
          · right; exact ⟨x, by simp [hx], i3⟩
    obtain ⟨⟨e, he, hev⟩, hv2⟩ := hv
    obtain ⟨_, i2, i3⟩ := h1 es dblMax
    have h4 := i2 e he
    rcases i3 with i3 | ⟨x, hx, i3⟩
    · have := hd e he
      rw [i3] at h4 ⊢
      linarith
    · have := hv2 x hx
      rw [i3] at h4 ⊢
      linarith
  have greatest : ∀ (f : RElem → ℚ) (v : ℚ), IsGreatestOf es f v → (∀ e ∈ es, dblMin ≤ f e) → es.foldl (fun a e => max a (f e)) dblMin = v := by
    intro f v hv hd
    have h1 : ∀ (es : List RElem) (a : ℚ), (∀ e ∈ es, f e ≤ es.foldl (fun a e => max a (f e)) a) ∧ a ≤ es.foldl (fun a e => max a (f e)) a ∧
        (es.foldl (fun a e => max a (f e)) a = a ∨ ∃ e ∈ es, es.foldl (fun a e => max a (f e)) a = f e) := by
      intro es
      induction es with
      | nil => intro a; simp
      | cons e es ih =>
        intro a
        obtain ⟨i1, i2, i3⟩ := ih (max a (f e))
        rw [List.foldl_cons]
        refine ⟨?_, le_trans (le_max_left _ _) i2, ?_⟩
        · intro x hx
          rcases List.mem_cons.mp hx with rfl | hx
          · exact le_trans (le_max_right _ _) i2
          · exact i1 x hx
        · rcases i3 with i3 | ⟨x, hx, i3⟩
          · rcases max_choice a (f e) with h | h
            · left; rw [i3, h]
            · right; exact ⟨e, by simp, by rw [i3, h]⟩
          · right; exact ⟨x, by simp [hx], i3⟩
    obtain ⟨⟨e, he, hev⟩, hv2⟩ := hv
    obtain ⟨i1, _, i3⟩ := h1 es dblMin
    have h4 := i1 e he
    rcases i3 with i3 | ⟨x, hx, i3⟩
    · have := hd e he
      rw [i3] at h4 ⊢
      linarith
    · have := hv2 x hx
      rw [i3] at h4 ⊢
      linarith
  rw [key]
  rw [least _ _ hl fun e he => (b e he).1, least _ _ ht fun e he => (b e he).2.1, greatest _ _ hr fun e he => (b e he).2.2.1,
    greatest _ _ hw fun e he => (b e he).2.2.2]

theorem pr_least (es : List RElem) (hne : es ≠ []) (f : RElem → ℚ) : ∃ v, IsLeastOf es f v := by
  induction es with
  | nil => exact absurd rfl hne
  | cons e es ih =>
    by_cases h : es = []
    · subst h; exact ⟨f e, ⟨e, by simp, rfl⟩, by simp⟩
    · obtain ⟨v, ⟨x, hx, hv⟩, h2⟩ := ih h
      refine ⟨min (f e) v, ?_, ?_⟩
      · rcases min_choice (f e) v with h | h
        · exact ⟨e, by simp, h.symm⟩
        · exact ⟨x, by simp [hx], by rw [h, hv]⟩
      · intro y hy
        rcases List.mem_cons.mp hy with rfl | hy
        · exact min_le_left _ _
        · exact le_trans (min_le_right _ _) (h2 y hy)

theorem pr_greatest (es : List RElem) (hne : es ≠ []) (f : RElem → ℚ) : ∃ v, IsGreatestOf es f v := by
  induction es with
  | nil => exact absurd rfl hne
  | cons e es ih =>
    by_cases h : es = []
    · subst h; exact ⟨f e, ⟨e, by simp, rfl⟩, by simp⟩
    · obtain ⟨v, ⟨x, hx, hv⟩, h2⟩ := ih h
      refine ⟨max (f e) v, ?_, ?_⟩
      · rcases max_choice (f e) v with h | h
        · exact ⟨e, by simp, h.symm⟩
        · exact ⟨x, by simp [hx], by rw [h, hv]⟩
      · intro y hy
        rcases List.mem_cons.mp hy with rfl | hy
        · exact le_max_left _ _
        · exact le_trans (h2 y hy) (le_max_right _ _)

/-- The figure or shape is higher than ten characters and reaches from the upper into the lower half of the area between `top` and `bottom`. -/
def CrossesMiddle (st : Stats) (top bottom : ℚ) (e : RElem) : Prop :=
  e.isBlock = false ∧ 10 * st.avgCharHeight < e.pos.getHeight ∧ e.pos.upperY < (top + bottom) / 2 ∧ (top + bottom) / 2 < e.pos.lowerY

/-- **C57 (primary vertical cuts of a page).** `top` is the upper edge of the uppermost and `bottom` the lower edge of the lowermost element of the page.  A gap is a primary vertical cut of the page exactly if one of its two
neighbours is a turned text block, or a high figure or shape that crosses the line in the middle between `top` and `bottom`. -/
theorem c57_primary_x_page (st : Stats) (lib : Lib RElem) (es : List RElem)
    (b : ∀ e ∈ es, e.pos.leftX ≤ dblMax ∧ e.pos.upperY ≤ dblMax ∧ dblMin ≤ e.pos.rightX ∧ dblMin ≤ e.pos.lowerY)
    {top bottom : ℚ} (ht : IsLeastOf es (·.pos.upperY) top) (hb : IsGreatestOf es (·.pos.lowerY) bottom) (c : Cut RElem)
    (hc : c ∈ (xCut RElem.pos lib 0 0 (choosePrimaryXCuts st (es.foldl Extent.add {})) es).cuts) :
    c.isChosen = true ↔ Turned c.elementBefore ∨ Turned c.elementAfter ∨ CrossesMiddle st top bottom c.elementBefore ∨ CrossesMiddle st top bottom c.elementAfter := by
  have hne : es ≠ [] := by rintro rfl; simp [xCut] at hc
  obtain ⟨l, hl⟩ := pr_least es hne (·.pos.leftX)
  obtain ⟨r, hr⟩ := pr_greatest es hne (·.pos.rightX)
  rw [pr_extent es b hl ht hr hb] at hc
  unfold xCut at hc
  rw [if_neg (by simpa using hne)] at hc
  obtain ⟨i, hi, rfl⟩ := List.mem_mapIdx.mp hc
  have hs : lib.sortLeftX es ≠ [] := by
    intro h0
    have : xCandidates RElem.pos lib 0 0 es = [] := by simp [xCandidates, h0]
    rw [this] at hi; simp at hi
  exact c57_primary_x_iff st _ _ _ hs i ((xCandidates RElem.pos lib 0 0 es)[i]) (List.getElem?_eq_getElem hi)

/-- The figure or shape is wider than ten characters and reaches from the left into the right half of the area between `left` and `right`. -/
def CrossesMiddleX (st : Stats) (left right : ℚ) (e : RElem) : Prop :=
  e.isBlock = false ∧ 10 * st.avgCharWidth < e.pos.getWidth ∧ e.pos.leftX < (left + right) / 2 ∧ (left + right) / 2 < e.pos.rightX

/-- **C57 (primary horizontal cuts of a page).** `left` and `right` are the outermost edges of the elements `es` of the page.  Within a group `g` between two primary vertical cuts, a gap is a primary horizontal cut exactly if
only one of its two neighbours is a title, only one is author information, only one is a marginal, or one of them is a wide figure or shape that crosses the line in the middle between `left` and `right`. -/
theorem c57_primary_y_page (st : Stats) (lib : Lib RElem) (es g : List RElem)
    (b : ∀ e ∈ es, e.pos.leftX ≤ dblMax ∧ e.pos.upperY ≤ dblMax ∧ dblMin ≤ e.pos.rightX ∧ dblMin ≤ e.pos.lowerY)
    {left right : ℚ} (hl : IsLeastOf es (·.pos.leftX) left) (hr : IsGreatestOf es (·.pos.rightX) right) (c : Cut RElem)
    (hc : c ∈ (yCut RElem.pos lib 0 (choosePrimaryYCuts st (es.foldl Extent.add {})) g).cuts) :
    c.isChosen = true ↔
      (∃ r ∈ [Role.title, .authorInfo, .marginal],
        (∃ u p, c.elementBefore = .block u r p) ∧ (¬ ∃ u p, c.elementAfter = .block u r p) ∨
        (¬ ∃ u p, c.elementBefore = .block u r p) ∧ (∃ u p, c.elementAfter = .block u r p)) ∨
      CrossesMiddleX st left right c.elementBefore ∨ CrossesMiddleX st left right c.elementAfter := by
  have hne : es ≠ [] := by obtain ⟨⟨e, he, _⟩, _⟩ := hl; exact List.ne_nil_of_mem he
  obtain ⟨t, ht⟩ := pr_least es hne (·.pos.upperY)
  obtain ⟨w, hw⟩ := pr_greatest es hne (·.pos.lowerY)
  rw [pr_extent es b hl ht hr hw] at hc
  unfold yCut at hc
  by_cases hg : g = []
  · rw [if_pos (by simp [hg])] at hc; simp at hc
  rw [if_neg (by simpa using hg)] at hc
  obtain ⟨i, hi, rfl⟩ := List.mem_mapIdx.mp hc
  have hs : lib.sortUpperY g ≠ [] := by
    intro h0
    have : yCandidates RElem.pos lib 0 g = [] := by simp [yCandidates, h0]
    rw [this] at hi; simp at hi
  exact c57_primary_y_iff st _ _ _ hs i ((yCandidates RElem.pos lib 0 g)[i]) (List.getElem?_eq_getElem hi)

/-! ### Example -/

/-- Two columns of text with a high line between them. -/
def exColumns : List RElem :=
  [.block 0 .paragraph { pageNum := 1, leftX := 10, upperY := 10, rightX := 50, lowerY := 200 },
   .shape 0 { pageNum := 1, leftX := 60, upperY := 20, rightX := 61, lowerY := 190 },
   .block 1 .paragraph { pageNum := 1, leftX := 70, upperY := 10, rightX := 110, lowerY := 200 }]

/-- Non-vacuity: both gaps next to the line are primary cuts. -/
example : ((xCut RElem.pos (refLib RElem.pos) 0 0 (choosePrimaryXCuts { avgCharWidth := 5, avgCharHeight := 10 } (exColumns.foldl Extent.add {})) exColumns).cuts.map
    fun c => (c.posInElements, c.isChosen)) = [(1, true), (2, true)] := by decide +kernel

example : IsLeastOf exColumns (·.pos.upperY) 10 ∧ IsGreatestOf exColumns (·.pos.lowerY) 200 := by
  refine ⟨⟨by decide +kernel, by decide +kernel⟩, ⟨by decide +kernel, by decide +kernel⟩⟩

end Verif.Props

import Verif.Model.ReadingOrder
import Verif.Spec.ReadingOrder
import Verif.Props.XYCut

/-!
# Reading order detection: C33, C57
-/

namespace Verif.Props

open Verif.XYCut Verif.Math Verif.Elements Verif.Spec Verif.ReadingOrder

/-! ## Permutation -/

theorem flatMap_perm_flatten {α : Type} (f : List α → List α) (hf : ∀ g, (f g).Perm g) :
    ∀ gs : List (List α), (gs.flatMap f).Perm gs.flatten := by
  intro gs
  induction gs with
  | nil => simp
  | cons g gs ih => simpa using (hf g).append ih

/-- The comparator of line 143: an exact comparison of the upper edges. -/
def topFirst (a b : RElem) : Bool := decide (a.pos.upperY < b.pos.upperY)

theorem swo_topFirst (l : List RElem) : StrictWeakOrderOn topFirst l :=
  swo_of_exact (fun e => e.pos.upperY) fun a _ b _ => by simp [topFirst]

theorem divideXGroup_perm {Q : RElem → Prop} (st : Stats) (x : Extent) (lib : Lib RElem)
    (hx : PermOn Q lib.sortLeftX) (hy : PermOn Q lib.sortUpperY) (g : List RElem)
    (hQ : ∀ e ∈ g, Q e) : (divideXGroup st x lib g).flatten.Perm g := by
  by_cases hne : g = []
  · subst hne; simp [divideXGroup, (c17_empty RElem.pos lib minYCutGapHeight 0 _).2.2.1]
  · have hY := c17_yCut_partition RElem.pos lib minYCutGapHeight (choosePrimaryYCuts st x) g (hy g hQ) hne
    refine List.Perm.trans ?_ hY.perm
    have hQ' : ∀ g' ∈ (yCut RElem.pos lib minYCutGapHeight (choosePrimaryYCuts st x) g).groups,
        ∀ e ∈ g', Q e := fun g' hg' e he =>
      hQ e (hY.perm.subset (List.mem_flatten.mpr ⟨g', hg', he⟩))
    unfold divideXGroup
    generalize (yCut RElem.pos lib minYCutGapHeight (choosePrimaryYCuts st x) g).groups = gs at hQ'
    clear hY
    induction gs with
    | nil => simp
    | cons g' gs ih =>
      simp only [List.flatMap_cons, List.flatten_append, List.flatten_cons]
      exact (c18_xyCut_partitions (params lib) hx hy g' (hQ' g' (by simp))).perm.append
        (ih fun g2 h2 => hQ' g2 (by simp [h2]))

theorem divideXGroups_perm {Q : RElem → Prop} (st : Stats) (x : Extent) (lib : Lib RElem)
    (hx : PermOn Q lib.sortLeftX) (hy : PermOn Q lib.sortUpperY) : ∀ (gs : List (List RElem)),
    (∀ g ∈ gs, ∀ e ∈ g, Q e) → (gs.flatMap (divideXGroup st x lib)).flatten.Perm gs.flatten := by
  intro gs
  induction gs with
  | nil => simp
  | cons g gs ih =>
    intro hQ
    simp only [List.flatMap_cons, List.flatten_append, List.flatten_cons]
    exact (divideXGroup_perm st x lib hx hy g (hQ g (by simp))).append
      (ih fun g2 h2 => hQ g2 (by simp [h2]))

theorem pageGroups_perm {Q : RElem → Prop} (st : Stats) (lib : Lib RElem)
    (hx : PermOn Q lib.sortLeftX) (hy : PermOn Q lib.sortUpperY) (es : List RElem)
    (hQ : ∀ e ∈ es, Q e) : (pageGroups st lib es).flatten.Perm es := by
  unfold pageGroups
  simp only
  generalize es.foldl Extent.add {} = x
  by_cases hne : es = []
  · subst hne; simp [(c17_empty RElem.pos lib minXCutGapWidth 0 _).1]
  · have hX := c17_xCut_partition RElem.pos lib minXCutGapWidth 0 (choosePrimaryXCuts st x) es (hx es hQ) hne
    refine List.Perm.trans ?_ hX.perm
    have hQ' : ∀ g' ∈ (xCut RElem.pos lib minXCutGapWidth 0 (choosePrimaryXCuts st x) es).groups,
        ∀ e ∈ g', Q e := fun g' hg' e he =>
      hQ e (hX.perm.subset (List.mem_flatten.mpr ⟨g', hg', he⟩))
    exact divideXGroups_perm st x lib hx hy _ hQ'

/-- The page elements in the order in which the program visits them. -/
def visitOrder (st : Stats) (lib : Lib RElem) (sort : List RElem → List RElem) (es : List RElem) :
    List RElem := (pageGroups st lib es).flatMap sort

theorem pageOrder_eq (st : Stats) (lib : Lib RElem) (sort : List RElem → List RElem)
    (blocks figures shapes : List RElem) :
    pageOrder st lib sort blocks figures shapes =
      (visitOrder st lib sort (blocks ++ figures ++ shapes)).filter (·.isBlock) := by
  unfold pageOrder visitOrder
  generalize pageGroups st lib (blocks ++ figures ++ shapes) = gs
  induction gs with
  | nil => simp
  | cons g gs ih => simp [ih]

/-- C33: whatever the positions and roles, the blocks of a page are a rearrangement of its blocks: none
is lost, none is duplicated, and no figure or shape becomes a block. (`Q` is the property of elements
under which the sorts of the cuts rearrange their input: true for any well-behaved sort, and "rounded coordinates"
for a standard one, `c17_sorts_are_permutations`.) -/
theorem c33_permutation {Q : RElem → Prop} (st : Stats) (lib : Lib RElem)
    (sort : List RElem → List RElem) (hx : PermOn Q lib.sortLeftX) (hy : PermOn Q lib.sortUpperY)
    (hs : SortContract topFirst sort) (blocks figures shapes : List RElem)
    (hb : ∀ e ∈ blocks, e.isBlock = true) (hf : ∀ e ∈ figures ++ shapes, e.isBlock = false)
    (hQ : ∀ e ∈ blocks ++ figures ++ shapes, Q e) :
    (pageOrder st lib sort blocks figures shapes).Perm blocks := by
  rw [pageOrder_eq]
  have h1 : (visitOrder st lib sort (blocks ++ figures ++ shapes)).Perm (blocks ++ figures ++ shapes) :=
    (flatMap_perm_flatten sort (fun g => (hs g (swo_topFirst g)).1) _).trans
      (pageGroups_perm st lib hx hy _ hQ)
  refine (h1.filter _).trans ?_
  rw [List.append_assoc, List.filter_append, List.filter_eq_self.mpr hb]
  have : (figures ++ shapes).filter (·.isBlock) = [] := by
    rw [List.filter_eq_nil_iff]; intro e he; simp [hf e he]
  rw [this, List.append_nil]

/-- C33 (whole document): the pages stay the same, no block moves to another page, and the figures and shapes of a
page do not change. -/
theorem c33_document {Q : RElem → Prop} (st : Stats) (lib : Lib RElem)
    (sort : List RElem → List RElem) (hx : PermOn Q lib.sortLeftX) (hy : PermOn Q lib.sortUpperY)
    (hs : SortContract topFirst sort) (pages : List Page)
    (hb : ∀ p ∈ pages, ∀ e ∈ p.blocks, e.isBlock = true)
    (hf : ∀ p ∈ pages, ∀ e ∈ p.figures ++ p.shapes, e.isBlock = false)
    (hQ : ∀ p ∈ pages, ∀ e ∈ p.blocks ++ p.figures ++ p.shapes, Q e) :
    List.Forall₂ (fun before after => after.blocks.Perm before.blocks ∧
      after.figures = before.figures ∧ after.shapes = before.shapes)
      pages (detectReadingOrder st lib sort pages) := by
  unfold detectReadingOrder
  induction pages with
  | nil => simp
  | cons p ps ih =>
    rw [List.map_cons]
    refine List.Forall₂.cons ⟨?_, rfl, rfl⟩ (ih (fun q h => hb q (by simp [h]))
      (fun q h => hf q (by simp [h])) (fun q h => hQ q (by simp [h])))
    exact c33_permutation st lib sort hx hy hs p.blocks p.figures p.shapes (hb p (by simp))
      (hf p (by simp)) (hQ p (by simp))

/-! ## The geometry of the cuts with a minimum gap of 0 -/

/-- No two elements begin at the same left (upper) edge if one of them is a line without width
(height); such lines confuse the search for gaps, see `c57_rule_cuts_through_block`. -/
def Clear (a b : Box) : Prop :=
  (a.leftX = b.leftX → a.leftX < a.rightX ∧ b.leftX < b.rightX) ∧
  (a.upperY = b.upperY → a.upperY < a.lowerY ∧ b.upperY < b.lowerY)

theorem Clear.symm {a b : Box} (h : Clear a b) : Clear b a :=
  ⟨fun e => (h.1 e.symm).symm, fun e => (h.2 e.symm).symm⟩

theorem hgap0_iff {n : ℕ} (hn : n ≤ 3) {a e : Box} (ha : ParsedBox n a) (he : ParsedBox n e)
    (hle : a.leftX ≤ e.leftX) (hc : Clear a e) :
    equalOrLarger (computeHorizontalGap a e) 0 tol = true ↔ a.rightX ≤ e.leftX := by
  have hs := smaller_exact_of_decimal hn ha.decimal.1 he.decimal.1
  have hd := smaller_exact_of_decimal hn he.decimal.1 ha.decimal.2.2.1
  rw [smaller_iff] at hd
  unfold computeHorizontalGap
  rcases lt_or_eq_of_le hle with hlt | heq
  · rw [if_pos (hs.mpr hlt)]
    have hu := ha.upright
    have : ¬ (a.rotation = 2 ∨ a.rotation = 3) := fun h => h.elim hu.1 hu.2
    simp only [this, if_false]
    rw [eol_iff]
    constructor
    · intro h
      by_contra hcon
      have := hd.mpr (lt_of_not_ge hcon)
      linarith
    · intro h; have := tol_pos; linarith
  · have hns : ¬ (smaller a.leftX e.leftX tol = true) := by rw [hs, heq]; exact lt_irrefl _
    rw [if_neg hns]
    have hu := he.upright
    have : ¬ (e.rotation = 2 ∨ e.rotation = 3) := fun h => h.elim hu.1 hu.2
    simp only [this, if_false]
    obtain ⟨h1, h2⟩ := hc.1 heq
    have hd2 := smaller_exact_of_decimal hn he.decimal.1 he.decimal.2.2.1
    rw [smaller_iff] at hd2
    have h3 := hd2.mpr h2
    rw [eol_iff]
    constructor <;> intro h <;> linarith

theorem vgap0_iff {n : ℕ} (hn : n ≤ 3) {a e : Box} (ha : ParsedBox n a) (he : ParsedBox n e)
    (hle : a.upperY ≤ e.upperY) (hc : Clear a e) :
    equalOrLarger (computeVerticalGap a e) 0 tol = true ↔ a.lowerY ≤ e.upperY := by
  have hs := smaller_exact_of_decimal hn ha.decimal.2.1 he.decimal.2.1
  have hd := smaller_exact_of_decimal hn he.decimal.2.1 ha.decimal.2.2.2
  rw [smaller_iff] at hd
  unfold computeVerticalGap
  rcases lt_or_eq_of_le hle with hlt | heq
  · rw [if_pos (hs.mpr hlt)]
    have hu := ha.upright
    have : ¬ (a.rotation = 2 ∨ a.rotation = 3) := fun h => h.elim hu.1 hu.2
    simp only [this, if_false]
    rw [eol_iff]
    constructor
    · intro h
      by_contra hcon
      have := hd.mpr (lt_of_not_ge hcon)
      linarith
    · intro h; have := tol_pos; linarith
  · have hns : ¬ (smaller a.upperY e.upperY tol = true) := by rw [hs, heq]; exact lt_irrefl _
    rw [if_neg hns]
    have hu := he.upright
    have : ¬ (e.rotation = 2 ∨ e.rotation = 3) := fun h => h.elim hu.1 hu.2
    simp only [this, if_false]
    obtain ⟨h1, h2⟩ := hc.2 heq
    have hd2 := smaller_exact_of_decimal hn he.decimal.2.1 he.decimal.2.2.2
    rw [smaller_iff] at hd2
    have h3 := hd2.mpr h2
    rw [eol_iff]
    constructor <;> intro h <;> linarith

/-- Elements as the parser produces them (see `ParsedBox`), among which no line without width or height begins at
the edge of another element. -/
structure GoodElems {α : Type} (pos : α → Box) (n : ℕ) (es : List α) : Prop where
  parsed : ∀ e ∈ es, ParsedBox n (pos e)
  clear : es.Pairwise fun a b => Clear (pos a) (pos b)

theorem GoodElems.perm {α : Type} {pos : α → Box} {n : ℕ} {es es' : List α} (h : GoodElems pos n es)
    (hp : es'.Perm es) : GoodElems pos n es' :=
  ⟨fun e he => h.parsed e (hp.subset he), (hp.pairwise_iff fun h => h.symm).mpr h.clear⟩

theorem GoodElems.sublist {α : Type} {pos : α → Box} {n : ℕ} {es es' : List α} (h : GoodElems pos n es)
    (hs : es'.Sublist es) : GoodElems pos n es' :=
  ⟨fun e he => h.parsed e (hs.subset he), h.clear.sublist hs⟩

theorem yLoop_zero {α : Type} (pos : α → Box) {n : ℕ} (hn : n ≤ 3) (x1 x2 : ℚ) :
    ∀ (es pre : List α) (big : α), GoodElems pos n (pre ++ es) →
      (pre ++ es).Pairwise (fun a b => (pos a).upperY ≤ (pos b).upperY) →
      big ∈ pre → (∀ x ∈ pre, (pos x).lowerY ≤ (pos big).lowerY) →
      ∀ c ∈ yLoop pos 0 x1 x2 pre.length big es,
        Before (fun e => (pos e).upperY) (fun e => (pos e).lowerY)
          ((pre ++ es).take c.posInElements) ((pre ++ es).drop c.posInElements) := by
  intro es
  induction es with
  | nil => intro pre big hp hs hb hmax c hc; simp [yLoop] at hc
  | cons e es ih =>
    intro pre big hp hs hb hmax
    have hbP := hp.parsed big (by simp [hb])
    have heP := hp.parsed e (by simp)
    have hcl : Clear (pos big) (pos e) := (List.pairwise_append.mp hp.clear).2.2 big hb e (by simp)
    rw [List.pairwise_append] at hs
    obtain ⟨hs1, hs2, hs3⟩ := hs
    have hle : (pos big).upperY ≤ (pos e).upperY := hs3 big hb e (by simp)
    have hgap := vgap0_iff hn hbP heP hle hcl
    have hafter : ∀ b ∈ e :: es, (pos e).upperY ≤ (pos b).upperY := by
      intro b hbm
      rcases List.mem_cons.mp hbm with rfl | hbm
      · exact le_refl _
      · exact (List.pairwise_cons.mp hs2).1 b hbm
    set big' := if larger (pos e).lowerY (pos big).lowerY tol then e else big with hbig'
    have hlar := larger_exact_of_decimal hn heP.decimal.2.2.2 hbP.decimal.2.2.2
    have hpre : (pre ++ [e]) ++ es = pre ++ e :: es := by simp
    have hrec := ih (pre ++ [e]) big' (by rw [hpre]; exact hp)
      (by rw [hpre, List.pairwise_append]; exact ⟨hs1, hs2, hs3⟩)
      (by rw [hbig']; split <;> simp [hb])
      (by
        intro x hx
        rcases List.mem_append.mp hx with hx | hx
        · have h1 := hmax x hx
          rw [hbig']; split
          · next h => exact le_trans h1 (le_of_lt (hlar.mp h))
          · exact h1
        · simp only [List.mem_singleton] at hx; subst hx
          rw [hbig']; split
          · exact le_refl _
          · next h => rw [hlar] at h; exact le_of_not_gt h)
    rw [hpre, List.length_append, List.length_singleton] at hrec
    have htake : (pre ++ e :: es).take pre.length = pre := by simp
    have hdrop : (pre ++ e :: es).drop pre.length = e :: es := by simp
    rw [yLoop]
    rw [← hbig']
    split
    · next hg =>
      intro c hc
      rcases List.mem_cons.mp hc with rfl | hc
      · simp only
        rw [htake, hdrop]
        intro a ha b hbm
        exact le_trans (hmax a ha) (le_trans (hgap.mp hg) (hafter b hbm))
      · exact hrec c hc
    · exact hrec

theorem xLoop_zero {α : Type} {pos : α → Box} {lib : Lib α} (hl : LibContract pos lib) {n : ℕ}
    (hn : n ≤ 3) (y1 y2 : ℚ) :
    ∀ (es pre q rest : List α), GoodElems pos n (pre ++ es) →
      (pre ++ es).Pairwise (fun a b => (pos a).leftX ≤ (pos b).leftX) →
      QInv pos 0 pre q rest →
      (∀ c ∈ xLoop pos lib 0 0 y1 y2 pre.length q es,
        Before (fun e => (pos e).leftX) (fun e => (pos e).rightX)
          ((pre ++ es).take c.posInElements) ((pre ++ es).drop c.posInElements)) ∧
      (∀ k, pre.length ≤ k → k < (pre ++ es).length →
        (∀ a ∈ (pre ++ es).take k, ∀ b, (pre ++ es)[k]? = some b → (pos a).rightX ≤ (pos b).leftX) →
        ∃ c ∈ xLoop pos lib 0 0 y1 y2 pre.length q es, c.posInElements = k) := by
  intro es
  induction es with
  | nil =>
    intro pre q rest hp hs hq
    refine ⟨by simp [xLoop], fun k h1 h2 => ?_⟩
    simp at h2; omega
  | cons e es ih =>
    intro pre q rest hp hs hq
    have hpp : ∀ x ∈ pre, ParsedBox n (pos x) := fun x hx => hp.parsed x (by simp [hx])
    have heP := hp.parsed e (by simp)
    rw [List.pairwise_append] at hs
    obtain ⟨hs1, hs2, hs3⟩ := hs
    have hqpre : ∀ x ∈ q, x ∈ pre := fun x hx => hq.perm.symm.subset (by simp [hx])
    have hafter : ∀ b ∈ e :: es, (pos e).leftX ≤ (pos b).leftX := by
      intro b hbm
      rcases List.mem_cons.mp hbm with rfl | hbm
      · exact le_refl _
      · exact (List.pairwise_cons.mp hs2).1 b hbm
    obtain ⟨rest', hq'⟩ := updateQ_inv hl hn hq e hpp heP
    have hpre : (pre ++ [e]) ++ es = pre ++ e :: es := by simp
    have hrec := ih (pre ++ [e]) _ rest' (by rw [hpre]; exact hp)
      (by rw [hpre, List.pairwise_append]; exact ⟨hs1, hs2, hs3⟩) hq'
    rw [hpre, List.length_append, List.length_singleton] at hrec
    have htake : (pre ++ e :: es).take pre.length = pre := by simp
    have hdrop : (pre ++ e :: es).drop pre.length = e :: es := by simp
    have hget : (pre ++ e :: es)[pre.length]? = some e := by simp
    obtain ⟨hsp, hss⟩ := hl.sortRightX q (swo_rightX hn fun x hx => hpp x (hqpre x hx))
    have hgap : ∀ x ∈ pre, (equalOrLarger (computeHorizontalGap (pos x) (pos e)) 0 tol = true ↔
        (pos x).rightX ≤ (pos e).leftX) := fun x hx =>
      hgap0_iff hn (hpp x hx) heP (hs3 x hx e (by simp))
        ((List.pairwise_append.mp hp.clear).2.2 x hx e (by simp))
    -- the queue has exactly one element
    obtain ⟨t, rfl⟩ : ∃ t, q = [t] := by
      have h1 := hq.size
      have h2 := List.length_pos_iff.mpr hq.nonempty
      exact List.length_eq_one_iff.mp (by omega)
    have hst : lib.sortRightXDesc [t] = [t] := List.perm_singleton.mp hsp
    have ht : t ∈ pre := hqpre t (by simp)
    have hmax : ∀ a ∈ pre, (pos a).rightX ≤ (pos t).rightX := by
      intro a ha
      rcases List.mem_append.mp (hq.perm.subset ha) with h | h
      · simp only [List.mem_singleton] at h; subst h; exact le_refl _
      · exact hq.dominated a h t (by simp)
    rw [xLoop]
    simp only [PQ.sort, hst]
    simp only [findGap]
    by_cases hg : equalOrLarger (computeHorizontalGap (pos t) (pos e)) 0 tol = true
    · simp only [hg, if_true]
      refine ⟨?_, ?_⟩
      · intro c hc
        rcases List.mem_cons.mp hc with rfl | hc
        · simp only
          rw [htake, hdrop]
          intro a ha b hb
          exact le_trans (hmax a ha) (le_trans ((hgap t ht).mp hg) (hafter b hb))
        · exact hrec.1 c hc
      · intro k hk1 hk2 hall
        by_cases hk : k = pre.length
        · subst hk; exact ⟨_, List.mem_cons_self, rfl⟩
        · obtain ⟨c, hc, hck⟩ := hrec.2 k (by omega) hk2 hall
          exact ⟨c, List.mem_cons_of_mem _ hc, hck⟩
    · rw [if_neg hg]
      refine ⟨hrec.1, ?_⟩
      intro k hk1 hk2 hall
      by_cases hk : k = pre.length
      · subst hk
        rw [htake] at hall
        exact absurd ((hgap t ht).mpr (hall t ht e hget)) hg
      · exact hrec.2 k (by omega) hk2 hall

theorem yCandidates_zero {α : Type} {pos : α → Box} {lib : Lib α} (hl : LibContract pos lib) {n : ℕ}
    (hn : n ≤ 3) {es : List α} (hp : GoodElems pos n es) :
    ∀ c ∈ yCandidates pos lib 0 es, Before (fun e => (pos e).upperY) (fun e => (pos e).lowerY)
      ((lib.sortUpperY es).take c.posInElements) ((lib.sortUpperY es).drop c.posInElements) := by
  obtain ⟨h1, h2⟩ := pairwise_upperY hl hn hp.parsed
  have hp' := hp.perm h1
  unfold yCandidates
  cases hs : lib.sortUpperY es with
  | nil => simp
  | cons e0 es =>
    rw [hs] at h2 hp'
    simpa using yLoop_zero pos hn
      (extent (fun e => (pos e).leftX) (fun e => (pos e).rightX) (e0 :: es)).1
      (extent (fun e => (pos e).leftX) (fun e => (pos e).rightX) (e0 :: es)).2 es [e0] e0
      (by simpa using hp') (by simpa using h2) (by simp) (by simp)

theorem xCandidates_zero {α : Type} {pos : α → Box} {lib : Lib α} (hl : LibContract pos lib) {n : ℕ}
    (hn : n ≤ 3) {es : List α} (hp : GoodElems pos n es) :
    (∀ c ∈ xCandidates pos lib 0 0 es, Before (fun e => (pos e).leftX) (fun e => (pos e).rightX)
      ((lib.sortLeftX es).take c.posInElements) ((lib.sortLeftX es).drop c.posInElements)) ∧
    (∀ k, 1 ≤ k → k < (lib.sortLeftX es).length →
      (∀ a ∈ (lib.sortLeftX es).take k, ∀ b, (lib.sortLeftX es)[k]? = some b →
        (pos a).rightX ≤ (pos b).leftX) →
      ∃ c ∈ xCandidates pos lib 0 0 es, c.posInElements = k) := by
  obtain ⟨h1, h2⟩ := pairwise_leftX hl hn hp.parsed
  have hp' := hp.perm h1
  unfold xCandidates
  cases hs : lib.sortLeftX es with
  | nil => exact ⟨by simp, fun k _ h => by simp at h⟩
  | cons e0 es =>
    rw [hs] at h2 hp'
    have hpush : pushQ lib.popTop (0 + 1) [] e0 = [e0] := by simp [pushQ, PQ.push]
    simp only [hpush]
    simpa using xLoop_zero hl hn
      (extent (fun e => (pos e).upperY) (fun e => (pos e).lowerY) (e0 :: es)).1
      (extent (fun e => (pos e).upperY) (fun e => (pos e).lowerY) (e0 :: es)).2 es [e0] [e0] []
      (by simpa using hp') (by simpa using h2) ⟨by simp, by simp, by simp, by simp⟩

/-- A sorted list falls into the elements below and the elements above a threshold. -/
theorem sorted_split {α : Type} (f : α → ℚ) (t : ℚ) :
    ∀ s : List α, s.Pairwise (fun a b => f a ≤ f b) →
      ∃ s1 s2, s = s1 ++ s2 ∧ (∀ a ∈ s1, f a < t) ∧ ∀ b ∈ s2, t ≤ f b := by
  intro s
  induction s with
  | nil => intro _; exact ⟨[], [], by simp⟩
  | cons x xs ih =>
    intro h
    by_cases hx : f x < t
    · obtain ⟨s1, s2, rfl, h1, h2⟩ := ih (List.pairwise_cons.mp h).2
      refine ⟨x :: s1, s2, rfl, ?_, h2⟩
      intro a ha
      rcases List.mem_cons.mp ha with rfl | ha
      · exact hx
      · exact h1 a ha
    · refine ⟨[], x :: xs, rfl, by simp, ?_⟩
      intro b hb
      rcases List.mem_cons.mp hb with rfl | hb
      · exact le_of_not_gt hx
      · exact le_trans (le_of_not_gt hx) ((List.pairwise_cons.mp h).1 b hb)

theorem exists_least {α : Type} (f : α → ℚ) : ∀ l : List α, l ≠ [] → ∃ m ∈ l, ∀ x ∈ l, f m ≤ f x := by
  intro l
  induction l with
  | nil => intro h; exact absurd rfl h
  | cons x xs ih =>
    intro _
    by_cases hxs : xs = []
    · subst hxs; exact ⟨x, by simp, by simp⟩
    · obtain ⟨m, hm, hmin⟩ := ih hxs
      by_cases h : f x ≤ f m
      · refine ⟨x, by simp, ?_⟩
        intro y hy
        rcases List.mem_cons.mp hy with rfl | hy
        · exact le_refl _
        · exact le_trans h (hmin y hy)
      · refine ⟨m, by simp [hm], ?_⟩
        intro y hy
        rcases List.mem_cons.mp hy with rfl | hy
        · exact le_of_not_ge h
        · exact hmin y hy

/-- If a vertical line divides the elements, it divides them in sorted order. -/
theorem divided_split {α : Type} {pos : α → Box} {n : ℕ} {s xs ys : List α} (hp : GoodElems pos n s)
    (hsort : s.Pairwise (fun a b => (pos a).leftX ≤ (pos b).leftX)) (hperm : s.Perm (xs ++ ys))
    (hxs : xs ≠ []) (hys : ys ≠ [])
    (hbef : Before (fun e => (pos e).leftX) (fun e => (pos e).rightX) xs ys) :
    ∃ s1 s2, s = s1 ++ s2 ∧ s1 ≠ [] ∧ s2 ≠ [] ∧
      Before (fun e => (pos e).leftX) (fun e => (pos e).rightX) s1 s2 := by
  have hg := hp.perm hperm.symm
  have hlt : ∀ a ∈ xs, ∀ b ∈ ys, (pos a).leftX < (pos b).leftX := by
    intro a ha b hb
    have hw := (hg.parsed a (by simp [ha])).wide
    have hr := hbef a ha b hb
    rcases lt_or_eq_of_le (le_trans hw hr) with h | h
    · exact h
    · have := ((List.pairwise_append.mp hg.clear).2.2 a ha b hb).1 h
      linarith [this.1]
  obtain ⟨b0, hb0, hmin⟩ := exists_least (fun e => (pos e).leftX) ys hys
  obtain ⟨s1, s2, hs, hlo, hhi⟩ := sorted_split (fun e => (pos e).leftX) (pos b0).leftX _ hsort
  have hmem : ∀ e, e ∈ s1 ++ s2 ↔ e ∈ xs ++ ys := fun e => by
    rw [← hs]; exact hperm.mem_iff
  have hs1 : ∀ a ∈ s1, a ∈ xs := by
    intro a ha
    rcases List.mem_append.mp ((hmem a).mp (by simp [ha])) with h | h
    · exact h
    · have h1 := hlo a ha; have h2 := hmin a h; exact absurd h1 (not_lt.mpr h2)
  have hs2 : ∀ b ∈ s2, b ∈ ys := by
    intro b hb
    rcases List.mem_append.mp ((hmem b).mp (by simp [hb])) with h | h
    · have := hhi b hb; have := hlt b h b0 hb0; linarith
    · exact h
  refine ⟨s1, s2, hs, ?_, ?_, fun a ha b hb => hbef a (hs1 a ha) b (hs2 b hb)⟩
  · obtain ⟨a, ha⟩ := List.exists_mem_of_ne_nil xs hxs
    rcases List.mem_append.mp ((hmem a).mpr (by simp [ha])) with h | h
    · exact List.ne_nil_of_mem h
    · have := hhi a h; have := hlt a ha b0 hb0; linarith
  · rcases List.mem_append.mp ((hmem b0).mpr (by simp [hb0])) with h | h
    · exact absurd (hlo b0 h) (lt_irrefl _)
    · exact List.ne_nil_of_mem h

/-- Without a candidate no vertical line divides the elements. -/
theorem undivided_of_no_xCut {α : Type} {pos : α → Box} {lib : Lib α} (hl : LibContract pos lib) {n : ℕ}
    (hn : n ≤ 3) {es : List α} (hp : GoodElems pos n es) (hno : xCandidates pos lib 0 0 es = []) :
    Undivided (fun e => (pos e).leftX) (fun e => (pos e).rightX) es := by
  intro xs ys hperm hxs hys hbef
  obtain ⟨h1, h2⟩ := pairwise_leftX hl hn hp.parsed
  obtain ⟨s1, s2, hs, hne1, hne2, hb⟩ := divided_split (hp.perm h1) h2 (h1.trans hperm) hxs hys hbef
  have := (xCandidates_zero hl hn hp).2 s1.length (List.length_pos_iff.mpr hne1)
    (by rw [hs]; have := List.length_pos_iff.mpr hne2; simp; omega)
    (by
      intro a ha b hb'
      rw [hs] at ha hb'
      have ha' : a ∈ s1 := by simpa using ha
      rw [List.getElem?_append_right (le_refl _), Nat.sub_self] at hb'
      exact hb a ha' b (List.mem_of_getElem? hb'))
  obtain ⟨c, hc, _⟩ := this
  rw [hno] at hc; simp at hc

/-! ## The reading order -/

theorem isReadingOrder_congr {α : Type} {l r t b : α → ℚ} {es es' out : List α} (hp : es'.Perm es)
    (h : IsReadingOrder l r t b es out) : IsReadingOrder l r t b es' out := by
  cases h with
  | column h1 h2 h3 =>
    exact .column (h1.trans hp.symm) h2 fun xs ys h => h3 xs ys (hp.symm.trans h)
  | leftRight h1 h2 h3 h4 h5 h6 => exact .leftRight (hp.trans h1) h2 h3 h4 h5 h6
  | topBottom h1 h2 h3 h4 h5 h6 => exact .topBottom (hp.trans h1) h2 h3 h4 h5 h6

/-- Reading several parts one after the other. -/
theorem isReadingOrder_flatten {α : Type} {l r t b : α → ℚ} {R : List α → List α → Prop}
    (hstep : ∀ xs ys ox oy, xs ≠ [] → ys ≠ [] → R xs ys → IsReadingOrder l r t b xs ox →
      IsReadingOrder l r t b ys oy → IsReadingOrder l r t b (xs ++ ys) (ox ++ oy))
    (hR : ∀ (g : List α) (gs : List (List α)), (∀ g' ∈ gs, R g g') → R g gs.flatten)
    (f : List α → List α) :
    ∀ gs : List (List α), gs ≠ [] → (∀ g ∈ gs, g ≠ []) → gs.Pairwise R →
      (∀ g ∈ gs, IsReadingOrder l r t b g (f g)) →
      IsReadingOrder l r t b gs.flatten (gs.flatMap f) := by
  intro gs
  induction gs with
  | nil => intro h; exact absurd rfl h
  | cons g gs ih =>
    intro _ hne hpw hf
    by_cases hgs : gs = []
    · subst hgs; simpa using hf g (by simp)
    · simp only [List.flatten_cons, List.flatMap_cons]
      have hpw' := List.pairwise_cons.mp hpw
      refine hstep g gs.flatten _ _ (hne g (by simp)) ?_ (hR g gs hpw'.1) (hf g (by simp))
        (ih hgs (fun x hx => hne x (by simp [hx])) hpw'.2 (fun x hx => hf x (by simp [hx])))
      obtain ⟨x, hx⟩ := List.exists_mem_of_ne_nil gs hgs
      obtain ⟨y, hy⟩ := List.exists_mem_of_ne_nil x (hne x (by simp [hx]))
      exact List.ne_nil_of_mem (List.mem_flatten.mpr ⟨x, hx, hy⟩)

/-- If the elements before each chosen cut are before the elements after it, the groups follow one another. -/
theorem splitGroups_pairwise {α : Type} {first last : α → ℚ} (s : List α) :
    ∀ (cuts : List (Cut α)) (prev : ℕ), prev < s.length → GoodCuts (prev + 1) s.length cuts →
      (∀ c ∈ cuts, Before first last (s.take c.posInElements) (s.drop c.posInElements)) →
      (splitGroups s prev cuts).Pairwise (Before first last) := by
  intro cuts
  induction cuts with
  | nil => intro prev _ _ _; simp [splitGroups]
  | cons c cs ih =>
    intro prev hp hg hb
    obtain ⟨hc1, hc2⟩ := hg.inside c (by simp)
    have hsrt := List.pairwise_cons.mp hg.sorted
    have hcs : GoodCuts (c.posInElements + 1) s.length cs :=
      ⟨fun x hx => ⟨hsrt.1 x hx, (hg.inside x (by simp [hx])).2⟩, hsrt.2⟩
    have hbc := hb c (by simp)
    rw [splitGroups]
    split
    · refine List.pairwise_cons.mpr ⟨?_, ih c.posInElements hc2 hcs (fun x hx => hb x (by simp [hx]))⟩
      intro g hgm a ha b hbm
      refine hbc a ?_ b ?_
      · rw [← List.drop_take] at ha
        exact List.mem_of_mem_drop ha
      · have h1 := (splitGroups_spec s cs c.posInElements hc2 hcs).1
        rw [← h1]
        exact List.mem_flatten.mpr ⟨g, hgm, hbm⟩
    · exact ih prev hp (hcs.weaken (by omega)) (fun x hx => hb x (by simp [hx]))

/-- All candidates are chosen: after the x-cuts no vertical line divides a group. -/
theorem xGroups_undivided {α : Type} {pos : α → Box} {lib : Lib α} (hl : LibContract pos lib) {n : ℕ}
    (hn : n ≤ 3) {es : List α} (hp : GoodElems pos n es) (choose : Choose α)
    (hch : ∀ cs s i, choose cs s i = true) :
    ∀ g ∈ (xCut pos lib 0 0 choose es).groups,
      Undivided (fun e => (pos e).leftX) (fun e => (pos e).rightX) g := by
  intro g hg xs ys hperm hxs hys hbef
  obtain ⟨h1, h2⟩ := pairwise_leftX hl hn hp.parsed
  by_cases hne : es = []
  · subst hne; simp [(c17_empty pos lib 0 0 choose).1] at hg
  have hP := c17_xCut_partition pos lib 0 0 choose es h1 hne
  obtain ⟨A, B, hAB⟩ := List.append_of_mem hg
  have hflat := hP.contiguous
  rw [hAB] at hflat
  simp only [List.flatten_append, List.flatten_cons] at hflat
  have hps : GoodElems pos n (lib.sortLeftX es) := hp.perm h1
  have hsub : g.Sublist (lib.sortLeftX es) := by
    rw [← hflat]; exact (List.sublist_append_left _ _).trans (List.sublist_append_right _ _)
  obtain ⟨s1, s2, rfl, hne1, hne2, hb⟩ :=
    divided_split (hps.sublist hsub) (h2.sublist hsub) hperm hxs hys hbef
  -- the groups are in order
  have hgood := goodCuts_applyChoice choose _ (lib.sortLeftX es) (xCandidates_good pos lib 0 0 es)
  have hlen : 0 < (lib.sortLeftX es).length := by
    rw [h1.length_eq]; exact List.length_pos_iff.mpr hne
  have hgroups : (xCut pos lib 0 0 choose es).groups =
      splitGroups (lib.sortLeftX es) 0 (applyChoice choose (xCandidates pos lib 0 0 es) (lib.sortLeftX es)) := by
    unfold xCut; rw [if_neg (by simpa using hne)]
  have hpw : (xCut pos lib 0 0 choose es).groups.Pairwise
      (Before (fun e => (pos e).leftX) (fun e => (pos e).rightX)) := by
    rw [hgroups]
    refine splitGroups_pairwise _ _ 0 hlen hgood ?_
    intro c hc
    obtain ⟨c0, hc0, b, rfl⟩ := applyChoice_mem hc
    exact (xCandidates_zero hl hn hp).1 c0 hc0
  rw [hAB, List.pairwise_append] at hpw
  -- so there is a candidate inside the group
  have hl1 := List.length_pos_iff.mpr hne1
  have hl2 := List.length_pos_iff.mpr hne2
  obtain ⟨c, hc, hck⟩ := (xCandidates_zero hl hn hp).2 (A.flatten.length + s1.length) (by omega)
    (by rw [← hflat]; simp; omega)
    (by
      intro a ha b hb'
      rw [← hflat, ← List.length_append] at ha hb'
      have e1 : A.flatten ++ (s1 ++ s2 ++ B.flatten) = (A.flatten ++ s1) ++ (s2 ++ B.flatten) := by simp
      rw [e1] at ha hb'
      rw [List.take_left'] at ha
      rw [List.getElem?_append_right (le_refl _), Nat.sub_self] at hb'
      have hbm : b ∈ s2 := by
        rw [List.getElem?_append_left (by omega)] at hb'
        exact List.mem_of_getElem? hb'
      · rcases List.mem_append.mp ha with ha | ha
        · obtain ⟨x, hx, hax⟩ := List.mem_flatten.mp ha
          exact hpw.2.2 x hx (s1 ++ s2) (by simp) a hax b (by simp [hbm])
        · exact hb a ha b hbm
      · rfl)
  obtain ⟨i, hi, rfl⟩ := List.mem_iff_getElem.mp hc
  set cs := applyChoice choose (xCandidates pos lib 0 0 es) (lib.sortLeftX es) with hcs
  have hi' : i < cs.length := by simpa [hcs, applyChoice] using hi
  have hchosen : cs[i].isChosen = true := by simp [hcs, applyChoice, hch]
  have hpos : cs[i].posInElements = A.flatten.length + s1.length := by
    simp only [hcs, applyChoice, List.getElem_mapIdx]; exact hck
  obtain ⟨g1, g2, e1, _, _, e2, _⟩ := splitGroups_boundary _ cs 0 hlen hgood cs[i] (List.getElem_mem hi') hchosen
  rw [← hgroups, hAB] at e1
  have hlen1 : g1.flatten.length = A.flatten.length + s1.length := by
    rw [e2, List.drop_zero, hpos, List.length_take, ← hflat]; simp
  rcases List.append_eq_append_iff.mp e1 with ⟨a', h3, h4⟩ | ⟨c', h3, h4⟩
  · cases a' with
    | nil => rw [h3, List.append_nil] at hlen1; omega
    | cons x a'' =>
      simp only [List.cons_append, List.cons.injEq] at h4
      rw [h3, ← h4.1] at hlen1
      simp only [List.flatten_append, List.flatten_cons, List.length_append] at hlen1; omega
  · rw [h3] at hlen1
    simp only [List.flatten_append, List.length_append] at hlen1; omega

variable {α : Type}

/-- The two orders used for the page elements. -/
abbrev PageReadingOrder (es out : List RElem) : Prop :=
  IsReadingOrder (fun e => e.pos.leftX) (fun e => e.pos.rightX) (fun e => e.pos.upperY)
    (fun e => e.pos.lowerY) es out

theorem before_flatten {α : Type} {first last : α → ℚ} (g : List α) (gs : List (List α))
    (h : ∀ g' ∈ gs, Before first last g g') : Before first last g gs.flatten := by
  intro a ha b hb
  obtain ⟨x, hx, hbx⟩ := List.mem_flatten.mp hb
  exact h x hx a ha b hbx

/-- Reading the groups of a vertical cut one after the other. -/
theorem xCut_readingOrder {lib : Lib RElem} (hl : LibContract RElem.pos lib) {n : ℕ}
    (hn : n ≤ 3) {es : List RElem} (hp : GoodElems RElem.pos n es) (hne : es ≠ []) (choose : Choose RElem)
    (f : List RElem → List RElem)
    (hf : ∀ g ∈ (xCut RElem.pos lib 0 0 choose es).groups, PageReadingOrder g (f g)) :
    PageReadingOrder es ((xCut RElem.pos lib 0 0 choose es).groups.flatMap f) := by
  obtain ⟨h1, h2⟩ := pairwise_leftX hl hn hp.parsed
  have hP := c17_xCut_partition RElem.pos lib 0 0 choose es h1 hne
  refine isReadingOrder_congr hP.perm.symm ?_
  have hgood := goodCuts_applyChoice choose _ (lib.sortLeftX es) (xCandidates_good RElem.pos lib 0 0 es)
  have hlen : 0 < (lib.sortLeftX es).length := by
    rw [h1.length_eq]; exact List.length_pos_iff.mpr hne
  refine isReadingOrder_flatten (R := Before (fun e => e.pos.leftX) (fun e => e.pos.rightX))
    (fun xs ys ox oy a b c d e => .leftRight (List.Perm.refl _) a b c d e)
    before_flatten f _ ?_ hP.nonempty ?_ hf
  · intro h0
    have := hP.perm.length_eq
    rw [h0] at this
    exact hne (List.length_eq_zero_iff.mp this.symm)
  · unfold xCut; rw [if_neg (by simpa using hne)]
    refine splitGroups_pairwise _ _ 0 hlen hgood ?_
    intro c hc
    obtain ⟨c0, hc0, b, rfl⟩ := applyChoice_mem hc
    exact (xCandidates_zero hl hn hp).1 c0 hc0

theorem yCut_readingOrder {lib : Lib RElem} (hl : LibContract RElem.pos lib) {n : ℕ}
    (hn : n ≤ 3) {es : List RElem} (hp : GoodElems RElem.pos n es) (hne : es ≠ []) (choose : Choose RElem)
    (f : List RElem → List RElem)
    (hf : ∀ g ∈ (yCut RElem.pos lib 0 choose es).groups, PageReadingOrder g (f g)) :
    PageReadingOrder es ((yCut RElem.pos lib 0 choose es).groups.flatMap f) := by
  obtain ⟨h1, h2⟩ := pairwise_upperY hl hn hp.parsed
  have hP := c17_yCut_partition RElem.pos lib 0 choose es h1 hne
  refine isReadingOrder_congr hP.perm.symm ?_
  have hgood := goodCuts_applyChoice choose _ (lib.sortUpperY es) (yCandidates_good RElem.pos lib 0 es)
  have hlen : 0 < (lib.sortUpperY es).length := by
    rw [h1.length_eq]; exact List.length_pos_iff.mpr hne
  refine isReadingOrder_flatten (R := Before (fun e => e.pos.upperY) (fun e => e.pos.lowerY))
    (fun xs ys ox oy a b c d e => .topBottom (List.Perm.refl _) a b c d e)
    before_flatten f _ ?_ hP.nonempty ?_ hf
  · intro h0
    have := hP.perm.length_eq
    rw [h0] at this
    exact hne (List.length_eq_zero_iff.mp this.symm)
  · unfold yCut; rw [if_neg (by simpa using hne)]
    refine splitGroups_pairwise _ _ 0 hlen hgood ?_
    intro c hc
    obtain ⟨c0, hc0, b, rfl⟩ := applyChoice_mem hc
    exact yCandidates_zero hl hn hp c0 hc0

theorem good_of_xGroup {lib : Lib RElem} (hl : LibContract RElem.pos lib) {n : ℕ}
    (hn : n ≤ 3) {es : List RElem} (hp : GoodElems RElem.pos n es) (choose : Choose RElem) :
    ∀ g ∈ (xCut RElem.pos lib 0 0 choose es).groups, GoodElems RElem.pos n g ∧ g ≠ [] := by
  by_cases hne : es = []
  · subst hne; simp [(c17_empty RElem.pos lib 0 0 choose).1]
  obtain ⟨h1, h2⟩ := pairwise_leftX hl hn hp.parsed
  have hP := c17_xCut_partition RElem.pos lib 0 0 choose es h1 hne
  intro g hg
  exact ⟨(hp.perm hP.perm).sublist (List.sublist_flatten_of_mem hg), hP.nonempty g hg⟩

theorem good_of_yGroup {lib : Lib RElem} (hl : LibContract RElem.pos lib) {n : ℕ}
    (hn : n ≤ 3) {es : List RElem} (hp : GoodElems RElem.pos n es) (choose : Choose RElem) :
    ∀ g ∈ (yCut RElem.pos lib 0 choose es).groups, GoodElems RElem.pos n g ∧ g ≠ [] := by
  by_cases hne : es = []
  · subst hne; simp [(c17_empty RElem.pos lib 0 0 choose).2.2.1]
  obtain ⟨h1, h2⟩ := pairwise_upperY hl hn hp.parsed
  have hP := c17_yCut_partition RElem.pos lib 0 choose es h1 hne
  intro g hg
  exact ⟨(hp.perm hP.perm).sublist (List.sublist_flatten_of_mem hg), hP.nonempty g hg⟩

theorem forGroups_flatMap {f : List RElem → Option (Out RElem)} (srt : List RElem → List RElem) :
    ∀ (gs : List (List RElem)) out, forGroups f gs = some out →
      (∀ g ∈ gs, ∃ o, f g = some o) ∧
      out.1.flatMap srt = gs.flatMap fun g => ((f g).getD ([], [])).1.flatMap srt := by
  intro gs
  induction gs with
  | nil => intro out h; simp [forGroups] at h; subst h; simp
  | cons x xs ih =>
    intro out ho
    rw [forGroups] at ho
    cases hf : f x with
    | none => rw [hf] at ho; simp at ho
    | some a =>
      cases hr : forGroups f xs with
      | none => rw [hf, hr] at ho; simp at ho
      | some b =>
        rw [hf, hr] at ho
        simp only [Option.some.injEq] at ho
        subst ho
        obtain ⟨h1, h2⟩ := ih b hr
        refine ⟨?_, by simp [hf, h2]⟩
        intro g hg
        rcases List.mem_cons.mp hg with rfl | hg
        · exact ⟨a, hf⟩
        · exact h1 g hg

/-- The recursive division of a group yields a reading order. -/
theorem xyCutF_readingOrder {lib : Lib RElem} (hl : LibContract RElem.pos lib) {n : ℕ} (hn : n ≤ 3)
    (srt : List RElem → List RElem) (hsrt : SortContract topFirst srt) :
    ∀ fuel (es : List RElem) out, GoodElems RElem.pos n es → es ≠ [] →
      xyCutF (params lib) fuel es = some out → PageReadingOrder es (out.1.flatMap srt) := by
  have hcol : ∀ g, Undivided (fun e : RElem => e.pos.leftX) (fun e => e.pos.rightX) g →
      PageReadingOrder g (srt g) := by
    intro g hu
    obtain ⟨h1, h2⟩ := hsrt g (swo_topFirst g)
    exact .column h1 (h2.imp fun h => by simpa [topFirst] using h) hu
  intro fuel
  induction fuel with
  | zero =>
    intro es out hp hne h
    rw [xyCutF, if_neg (by simpa using hne)] at h; cases h
  | succ fuel ih =>
    intro es out hp hne h
    have hdiv : ∀ g out, GoodElems RElem.pos n g → g ≠ [] →
        Undivided (fun e : RElem => e.pos.leftX) (fun e => e.pos.rightX) g →
        divideGroup (params lib) (xyCutF (params lib) fuel) g = some out →
        PageReadingOrder g (out.1.flatMap srt) := by
      intro g out hg hgne hu ho
      unfold divideGroup at ho
      simp only at ho
      split at ho
      · obtain ⟨o, h1, rfl⟩ := Option.map_eq_some_iff.mp ho
        obtain ⟨h2, h3⟩ := forGroups_flatMap srt _ o h1
        simp only [h3]
        refine yCut_readingOrder hl hn hg hgne _ _ ?_
        intro g' hg'
        obtain ⟨o', ho'⟩ := h2 g' hg'
        obtain ⟨hg1, hg2⟩ := good_of_yGroup hl hn hg _ g' hg'
        simp only [ho', Option.getD_some]
        exact ih g' o' hg1 hg2 ho'
      · simp only [Option.some.injEq] at ho
        subst ho
        simpa using hcol g hu
    rw [xyCutF, if_neg (by simpa using hne)] at h
    simp only at h
    split at h
    · obtain ⟨o, h1, rfl⟩ := Option.map_eq_some_iff.mp h
      obtain ⟨h2, h3⟩ := forGroups_flatMap srt _ o h1
      simp only [h3]
      refine xCut_readingOrder hl hn hp hne _ _ ?_
      intro g hg
      obtain ⟨o', ho'⟩ := h2 g hg
      obtain ⟨hg1, hg2⟩ := good_of_xGroup hl hn hp _ g hg
      simp only [ho', Option.getD_some]
      exact hdiv g o' hg1 hg2 (xGroups_undivided hl hn hp _ (fun _ _ _ => rfl) g hg) ho'
    · next hok =>
      obtain ⟨o, h1, rfl⟩ := Option.map_eq_some_iff.mp h
      refine hdiv es o hp hne ?_ h1
      refine undivided_of_no_xCut hl hn hp ?_
      simp only [params, xCut] at hok
      rw [if_neg (by simpa using hne)] at hok
      simp only [applyChoice, chooseXCuts, minXCutGapWidth] at hok
      cases hc : xCandidates RElem.pos lib 0 0 es with
      | nil => rfl
      | cons c cs => rw [hc] at hok; simp at hok

/-- C57 (order): the blocks of a page are printed in a reading order of the page elements: wherever the page
is divided, everything on the left (above) is printed before everything on the right (below), and the rest -
columns no vertical line divides - from top to bottom. -/
theorem c57_reading_order (st : Stats) {lib : Lib RElem} (hl : LibContract RElem.pos lib) {n : ℕ} (hn : n ≤ 3)
    (sort : List RElem → List RElem) (hs : SortContract topFirst sort) (blocks figures shapes : List RElem)
    (hp : GoodElems RElem.pos n (blocks ++ figures ++ shapes)) :
    ∃ order, PageReadingOrder (blocks ++ figures ++ shapes) order ∧
      pageOrder st lib sort blocks figures shapes = order.filter (·.isBlock) := by
  refine ⟨_, ?_, pageOrder_eq st lib sort blocks figures shapes⟩
  generalize blocks ++ figures ++ shapes = es at hp
  by_cases hne : es = []
  · subst hne
    have : visitOrder st lib sort [] = [] := by
      simp [visitOrder, pageGroups, (c17_empty RElem.pos lib minXCutGapWidth 0 _).1]
    rw [this]
    refine .column (by simp) (by simp) ?_
    intro xs ys h hx
    have := h.length_eq
    have h2 := List.length_pos_iff.mpr hx
    rw [List.length_append, List.length_nil] at this; omega
  · unfold visitOrder pageGroups
    simp only
    generalize es.foldl Extent.add {} = x
    rw [List.flatMap_assoc]
    refine xCut_readingOrder hl hn hp hne _ _ ?_
    intro g hg
    obtain ⟨hg1, hg2⟩ := good_of_xGroup hl hn hp _ g hg
    unfold divideXGroup
    rw [List.flatMap_assoc]
    refine yCut_readingOrder hl hn hg1 hg2 _ _ ?_
    intro g' hg'
    obtain ⟨hg3, hg4⟩ := good_of_yGroup hl hn hg1 _ g' hg'
    have hperm := c17_sorts_are_permutations hl hn
    exact xyCutF_readingOrder hl hn sort hs _ g' _ hg3 hg4
      (c18_xyCut_fuel_irrelevant (params lib) hperm.1 hperm.2 g' (fun e he => (hg3.parsed e he).rounded) _
        (Nat.le_refl _))

/-! ## The primary cuts -/

/-- A text block that is rotated or written vertically. -/
def Turned (e : RElem) : Prop := e.isBlock = true ∧ (e.pos.wMode ≠ 0 ∨ e.pos.rotation ≠ 0)

/-- A figure or shape higher than ten characters that crosses the horizontal middle line of the page elements. -/
def HighSeparator (st : Stats) (x : Extent) (e : RElem) : Prop :=
  e.isBlock = false ∧ 10 * st.avgCharHeight < e.pos.getHeight ∧
    e.pos.upperY < (x.minY + x.maxY) / 2 ∧ (x.minY + x.maxY) / 2 < e.pos.lowerY

/-- A figure or shape wider than ten characters that crosses the vertical middle line of the page elements. -/
def WideSeparator (st : Stats) (x : Extent) (e : RElem) : Prop :=
  e.isBlock = false ∧ 10 * st.avgCharWidth < e.pos.getWidth ∧
    e.pos.leftX < (x.minX + x.maxX) / 2 ∧ (x.minX + x.maxX) / 2 < e.pos.rightX

theorem isTurnedBlock_iff (e : RElem) : e.isTurnedBlock = true ↔ Turned e := by
  cases e <;> simp [RElem.isTurnedBlock, Turned, RElem.isBlock, RElem.pos]

theorem isVerticalRule_iff (st : Stats) (x : Extent) (e : RElem) :
    isVerticalRule st x e = true ↔ HighSeparator st x e := by
  have h : x.minY + (x.maxY - x.minY) / 2 = (x.minY + x.maxY) / 2 := by ring
  simp [isVerticalRule, HighSeparator, h, and_assoc]

theorem isHorizontalRule_iff (st : Stats) (x : Extent) (e : RElem) :
    isHorizontalRule st x e = true ↔ WideSeparator st x e := by
  have h : x.minX + (x.maxX - x.minX) / 2 = (x.minX + x.maxX) / 2 := by ring
  simp [isHorizontalRule, WideSeparator, h, and_assoc]

/-- C57 (primary vertical cuts): a gap is a primary vertical cut exactly if one of its two neighbours is a
turned text block or a high separator. (The comparison of the writing modes and rotations of the two neighbours in the
code never decides: if they differ, one of the blocks is turned.) -/
theorem c57_primary_x_iff (st : Stats) (x : Extent) (cuts : List (Cut RElem)) (elements : List RElem)
    (hne : elements ≠ []) (i : ℕ) (c : Cut RElem) (hi : cuts[i]? = some c) :
    choosePrimaryXCuts st x cuts elements i = true ↔
      Turned c.elementBefore ∨ Turned c.elementAfter ∨
      HighSeparator st x c.elementBefore ∨ HighSeparator st x c.elementAfter := by
  unfold choosePrimaryXCuts
  rw [if_neg (by simpa using hne), hi]
  simp only [isPrimaryX, Bool.or_eq_true, isTurnedBlock_iff, isVerticalRule_iff, Bool.and_eq_true,
    decide_eq_true_eq]
  constructor
  · rintro ((((h | h) | ⟨⟨h1, h2⟩, h3⟩) | h) | h)
    · exact .inl h
    · exact .inr (.inl h)
    · by_cases hA : Turned c.elementBefore
      · exact .inl hA
      · right; left
        have hA' : c.elementBefore.pos.wMode = 0 ∧ c.elementBefore.pos.rotation = 0 := by
          unfold Turned at hA
          push Not at hA
          exact hA h1
        rw [hA'.1, hA'.2] at h3
        exact ⟨h2, h3.elim (fun h => .inl (Ne.symm h)) (fun h => .inr (Ne.symm h))⟩
    · exact .inr (.inr (.inl h))
    · exact .inr (.inr (.inr h))
  · rintro (h | h | h | h) <;> simp [h]

/-- C57 (primary horizontal cuts): a gap is a primary horizontal cut exactly if only one of its two neighbours is a title,
only one is author information, only one is a marginal, or one of them is a wide separator. -/
theorem c57_primary_y_iff (st : Stats) (x : Extent) (cuts : List (Cut RElem)) (elements : List RElem)
    (hne : elements ≠ []) (i : ℕ) (c : Cut RElem) (hi : cuts[i]? = some c) :
    choosePrimaryYCuts st x cuts elements i = true ↔
      (∃ r ∈ [Role.title, Role.authorInfo, Role.marginal],
        (∃ u p, c.elementBefore = .block u r p) ∧ (¬ ∃ u p, c.elementAfter = .block u r p) ∨
        (¬ ∃ u p, c.elementBefore = .block u r p) ∧ (∃ u p, c.elementAfter = .block u r p)) ∨
      WideSeparator st x c.elementBefore ∨ WideSeparator st x c.elementAfter := by
  have hr : ∀ (r : Role) (e : RElem), e.hasRole r = true ↔ ∃ u p, e = .block u r p := by
    intro r e
    cases e <;> simp [RElem.hasRole]
  have hx : ∀ r : Role, (c.elementBefore.hasRole r != c.elementAfter.hasRole r) = true ↔
      ((∃ u p, c.elementBefore = .block u r p) ∧ (¬ ∃ u p, c.elementAfter = .block u r p) ∨
        (¬ ∃ u p, c.elementBefore = .block u r p) ∧ (∃ u p, c.elementAfter = .block u r p)) := by
    intro r
    rw [← hr, ← hr]
    cases c.elementBefore.hasRole r <;> cases c.elementAfter.hasRole r <;> simp
  unfold choosePrimaryYCuts
  rw [if_neg (by simpa using hne), hi]
  simp only [isPrimaryY, Bool.or_eq_true, isHorizontalRule_iff, hx]
  simp only [List.mem_cons, List.not_mem_nil, or_false, exists_eq_or_imp, exists_eq_left]
  simp only [or_assoc]

/-- C57: at every primary vertical cut the printed order splits: all blocks left of the cut come before all blocks right
of it. -/
theorem c57_primary_x_split {Q : RElem → Prop} (st : Stats) (lib : Lib RElem)
    (sort : List RElem → List RElem) (hx : PermOn Q lib.sortLeftX) (hy : PermOn Q lib.sortUpperY)
    (hs : SortContract topFirst sort) (blocks figures shapes : List RElem)
    (hQ : ∀ e ∈ blocks ++ figures ++ shapes, Q e)
    (es : List RElem) (hes : es = blocks ++ figures ++ shapes) (c : Cut RElem)
    (hc : c ∈ (xCut RElem.pos lib 0 0 (choosePrimaryXCuts st (es.foldl Extent.add {})) es).cuts)
    (hch : c.isChosen = true) :
    ∃ first second, pageOrder st lib sort blocks figures shapes = first ++ second ∧
      first.Perm (((lib.sortLeftX es).take c.posInElements).filter (·.isBlock)) ∧
      second.Perm (((lib.sortLeftX es).drop c.posInElements).filter (·.isBlock)) := by
  rw [pageOrder_eq, ← hes]
  rw [← hes] at hQ
  unfold visitOrder pageGroups
  have hm : minXCutGapWidth = 0 := rfl
  simp only [hm]
  set x := es.foldl Extent.add {} with hxdef
  have hne : es ≠ [] := by
    rintro rfl
    have : (xCut RElem.pos lib 0 0 (choosePrimaryXCuts st x) []).cuts = [] := by simp [xCut]
    rw [this] at hc; simp at hc
  have hperm := hx es hQ
  have hgood := goodCuts_applyChoice (choosePrimaryXCuts st x) _ (lib.sortLeftX es)
    (xCandidates_good RElem.pos lib 0 0 es)
  have hlen : 0 < (lib.sortLeftX es).length := by
    rw [hperm.length_eq]; exact List.length_pos_iff.mpr hne
  have hX : xCut RElem.pos lib 0 0 (choosePrimaryXCuts st x) es =
      ⟨splitGroups (lib.sortLeftX es) 0 (applyChoice (choosePrimaryXCuts st x)
        (xCandidates RElem.pos lib 0 0 es) (lib.sortLeftX es)), applyChoice (choosePrimaryXCuts st x)
        (xCandidates RElem.pos lib 0 0 es) (lib.sortLeftX es), (applyChoice (choosePrimaryXCuts st x)
        (xCandidates RElem.pos lib 0 0 es) (lib.sortLeftX es)).any (·.isChosen)⟩ := by
    unfold xCut; rw [if_neg (by simpa using hne)]
  rw [hX] at hc ⊢
  obtain ⟨g1, g2, e1, _, _, e2, e3⟩ := splitGroups_boundary _ _ 0 hlen hgood c hc hch
  simp only
  rw [e1, List.flatMap_append, List.flatMap_append, List.filter_append]
  refine ⟨_, _, rfl, ?_, ?_⟩
  all_goals
    refine List.Perm.filter _ ?_
    refine (flatMap_perm_flatten sort (fun g => (hs g (swo_topFirst g)).1) _).trans ?_
  · rw [List.drop_zero] at e2
    rw [← e2]
    have hQ' : ∀ g ∈ g1, ∀ e ∈ g, Q e := fun g hg e he => hQ e (hperm.subset (by
      have : e ∈ g1.flatten := List.mem_flatten.mpr ⟨g, hg, he⟩
      rw [e2] at this; exact List.mem_of_mem_take this))
    exact divideXGroups_perm st x lib hx hy g1 hQ'
  · rw [← e3]
    have hQ' : ∀ g ∈ g2, ∀ e ∈ g, Q e := fun g hg e he => hQ e (hperm.subset (by
      have : e ∈ g2.flatten := List.mem_flatten.mpr ⟨g, hg, he⟩
      rw [e3] at this; exact List.mem_of_mem_drop this))
    exact divideXGroups_perm st x lib hx hy g2 hQ'

/-! ## The other horizontal cuts -/

theorem canXCut_iff {lib : Lib RElem} (hl : LibContract RElem.pos lib) {n : ℕ} (hn : n ≤ 3)
    {g : List RElem} (hg : GoodElems RElem.pos n g) :
    canXCut lib g = true ↔ ¬ Undivided (fun e : RElem => e.pos.leftX) (fun e => e.pos.rightX) g := by
  have hok : canXCut lib g = true ↔ g ≠ [] ∧ xCandidates RElem.pos lib 0 0 g ≠ [] := by
    unfold canXCut xCut
    have hm : minXCutGapWidth = 0 := rfl
    by_cases hne : g = []
    · simp [hne]
    · rw [if_neg (by simpa using hne), hm]
      cases hc : xCandidates RElem.pos lib 0 0 g <;> simp [applyChoice, chooseXCuts, hne]
  rw [hok]
  constructor
  · rintro ⟨_, hc⟩ hu
    obtain ⟨c, hc⟩ := List.exists_mem_of_ne_nil _ hc
    obtain ⟨h1, _⟩ := pairwise_leftX hl hn hg.parsed
    have hb := (xCandidates_zero hl hn hg).1 c hc
    obtain ⟨h2, h3⟩ := (xCandidates_good RElem.pos lib 0 0 g).inside c hc
    refine hu _ _ ?_ ?_ ?_ hb
    · rw [List.take_append_drop]; exact h1.symm
    · intro h0
      have := congrArg List.length h0
      rw [List.length_take, List.length_nil] at this; omega
    · intro h0
      have := congrArg List.length h0
      rw [List.length_drop, List.length_nil] at this; omega
  · intro hu
    refine ⟨?_, fun h0 => hu (undivided_of_no_xCut hl hn hg h0)⟩
    rintro rfl
    refine hu ?_
    intro xs ys h hx
    have := h.length_eq
    have h2 := List.length_pos_iff.mpr hx
    rw [List.length_append, List.length_nil] at this; omega

theorem findLowCut_spec (ok : ℕ → Bool) (i : ℕ) : ∀ k j, findLowCut ok i k = some j →
    i ≤ j ∧ j < i + k ∧ ok j = true := by
  intro k
  induction k with
  | zero => intro j h; cases h
  | succ k ih =>
    intro j h
    rw [findLowCut] at h
    split at h
    · next hok => simp only [Option.some.injEq] at h; subst h; exact ⟨by omega, by omega, hok⟩
    · obtain ⟨h1, h2, h3⟩ := ih j h; exact ⟨h1, by omega, h3⟩

theorem pairLoop_spec (ok : ℕ → ℕ → Bool) (last : ℕ) : ∀ fuel i k, k ∈ pairLoop ok last fuel i →
    ∃ a b, a ≤ b ∧ b ≤ last ∧ (k = a ∨ k = b) ∧ ok a b = true := by
  intro fuel
  induction fuel with
  | zero => intro i k h; simp [pairLoop] at h
  | succ fuel ih =>
    intro i k h
    rw [pairLoop] at h
    split at h
    · next hlt =>
      split at h
      · next j hj =>
        obtain ⟨h1, h2, h3⟩ := findLowCut_spec _ _ _ _ hj
        rcases List.mem_cons.mp h with rfl | h
        · exact ⟨k, j, h1, by omega, .inl rfl, h3⟩
        · rcases List.mem_cons.mp h with rfl | h
          · exact ⟨i, k, h1, by omega, .inr rfl, h3⟩
          · exact ih _ k h
      · exact ih _ k h
    · simp at h

theorem find_range_rev {k : ℕ} (p : ℕ → Bool) : ∀ i, k ≤ i → p k = true →
    (∀ j ≤ i, k < j → p j = false) → (List.range (i + 1)).reverse.find? p = some k := by
  intro i
  induction i with
  | zero =>
    intro hk hp _
    have : k = 0 := by omega
    subst this; simp [hp]
  | succ i ih =>
    intro hk hp hn
    rw [List.range_succ, List.reverse_append, List.reverse_singleton, List.singleton_append, List.find?_cons]
    by_cases hki : k = i + 1
    · subst hki; simp [hp]
    · rw [hn (i + 1) (by omega) (by omega)]
      exact ih (by omega) hp fun j hj => hn j (by omega)

/-- The position of the `k`-th candidate in the sorted elements. -/
def cutPos (cuts : List (Cut RElem)) (k : ℕ) : ℕ := (cuts[k]?.map (·.posInElements)).getD 0

/-- A vertical line divides the elements. -/
def VerticallyDivided (es : List RElem) : Prop :=
  ¬ Undivided (fun e : RElem => e.pos.leftX) (fun e => e.pos.rightX) es

/-- C57 (horizontal cuts): inside the primary groups a horizontal cut is made only if a vertical line divides everything
below it, everything above it, or everything between it and another chosen cut. -/
theorem c57_y_cut_justified {lib : Lib RElem} (hl : LibContract RElem.pos lib) {n : ℕ} (hn : n ≤ 3)
    (cuts : List (Cut RElem)) (elements : List RElem) (hg : GoodElems RElem.pos n elements) (i : ℕ)
    (h : chooseYCuts lib cuts elements i = true) :
    VerticallyDivided (elements.drop (cutPos cuts i)) ∨
    VerticallyDivided (elements.take (cutPos cuts i)) ∨
    ∃ a b, a ≤ b ∧ b < cuts.length ∧ (i = a ∨ i = b) ∧
      VerticallyDivided ((elements.take (cutPos cuts b)).drop (cutPos cuts a)) := by
  have hsub : ∀ g : List RElem, g.Sublist elements → (canXCut lib g = true ↔ VerticallyDivided g) :=
    fun g hs => canXCut_iff hl hn (hg.sublist hs)
  unfold chooseYCuts at h
  split at h
  · cases h
  next hne =>
  have hlen : 0 < cuts.length := by
    cases cuts with
    | nil => simp at hne
    | cons => simp
  simp only [List.contains_eq_mem, decide_eq_true_eq, chooseYIndices, List.mem_append,
    Option.mem_toList] at h
  rcases h with (h | h) | h
  · left
    have h2 := List.find?_some h
    exact (hsub _ (List.drop_sublist _ _)).mp h2
  · right; left
    have h2 := List.find?_some h
    exact (hsub _ (List.take_sublist _ _)).mp h2
  · right; right
    obtain ⟨a, b, h1, h2, h3, h4⟩ := pairLoop_spec _ _ _ _ _ h
    refine ⟨a, b, h1, ?_, h3, (hsub _ ((List.drop_sublist _ _).trans (List.take_sublist _ _))).mp h4⟩
    refine lt_of_le_of_lt h2 ?_
    cases hf : (List.range cuts.length).find? fun i =>
        canXCut lib (elements.drop ((cuts[i]?.map (·.posInElements)).getD 0)) with
    | none => simp only [Option.getD_none]; omega
    | some k => simpa using List.mem_of_find?_eq_some hf

/-- C57 (horizontal cuts): the topmost candidate below which a vertical line divides all elements is chosen, and so is the
lowest candidate not below it above which a vertical line divides all elements. -/
theorem c57_y_cut_chosen {lib : Lib RElem} (hl : LibContract RElem.pos lib) {n : ℕ} (hn : n ≤ 3)
    (cuts : List (Cut RElem)) (elements : List RElem) (hne : elements ≠ [])
    (hg : GoodElems RElem.pos n elements) (i : ℕ) (hi : i < cuts.length)
    (h : VerticallyDivided (elements.drop (cutPos cuts i)))
    (hmin : ∀ j < i, ¬ VerticallyDivided (elements.drop (cutPos cuts j))) :
    chooseYCuts lib cuts elements i = true ∧
    ∀ k ≤ i, VerticallyDivided (elements.take (cutPos cuts k)) →
      (∀ j ≤ i, k < j → ¬ VerticallyDivided (elements.take (cutPos cuts j))) →
      chooseYCuts lib cuts elements k = true := by
  have hsub : ∀ g : List RElem, g.Sublist elements → (canXCut lib g = true ↔ VerticallyDivided g) :=
    fun g hs => canXCut_iff hl hn (hg.sublist hs)
  have hcne : ¬ ((elements.isEmpty || cuts.isEmpty) = true) := by
    have : cuts ≠ [] := by rintro rfl; simp at hi
    simp [hne, this]
  have hlast : (List.range cuts.length).find? (fun i =>
      canXCut lib (elements.drop ((cuts[i]?.map (·.posInElements)).getD 0))) = some i := by
    rw [List.find?_range_eq_some]
    refine ⟨(hsub _ (List.drop_sublist _ _)).mpr h, by simpa using hi, ?_⟩
    intro j hj
    have := hmin j hj
    rw [← hsub _ (List.drop_sublist _ _)] at this
    simpa [cutPos] using this
  have hmem : ∀ k, chooseYCuts lib cuts elements k = true ↔ k ∈ chooseYIndices lib
      (fun k => (cuts[k]?.map (·.posInElements)).getD 0) cuts.length elements := by
    intro k
    unfold chooseYCuts
    rw [if_neg hcne]
    simp only [List.contains_eq_mem, decide_eq_true_eq]
  simp only [hmem, chooseYIndices, List.mem_append, Option.mem_toList, hlast, Option.getD_some]
  refine ⟨.inl (.inl trivial), ?_⟩
  intro k hk hd hmax
  left; right
  refine find_range_rev _ i hk ((hsub _ (List.take_sublist _ _)).mpr hd) ?_
  intro j hj hkj
  have := hmax j hj hkj
  rw [← hsub _ (List.take_sublist _ _)] at this
  simpa [cutPos] using this

/-! ### Exactly which horizontal cuts are taken -/

/-- `rs` are the pairs of an upper and a lower candidate found from top to bottom between the candidates `first` and
`last`: each upper candidate is paired with the lowest one such that the elements between them can be divided (`Ok`),
the search continues behind the lower one, and no candidate outside the pairs has a partner. -/
structure PairsFound (Ok : ℕ → ℕ → Prop) (first last : ℕ) (rs : List (ℕ × ℕ)) : Prop where
  inside : ∀ r ∈ rs, first ≤ r.1 ∧ r.1 ≤ r.2 ∧ r.2 ≤ last
  divisible : ∀ r ∈ rs, Ok r.1 r.2
  lowest : ∀ r ∈ rs, ∀ j, r.2 < j → j ≤ last → ¬ Ok r.1 j
  disjoint : rs.Pairwise fun r r' => r.2 < r'.1
  outside : ∀ a, first ≤ a → a < last → (∀ r ∈ rs, ¬ (r.1 ≤ a ∧ a ≤ r.2)) → ∀ j, a ≤ j → j ≤ last → ¬ Ok a j

theorem findLowCut_low (ok : ℕ → Bool) (i : ℕ) : ∀ k j, findLowCut ok i k = some j →
    ∀ j', j < j' → j' < i + k → ok j' = false := by
  intro k
  induction k with
  | zero => intro j h; simp [findLowCut] at h
  | succ k ih =>
    intro j h j' h1 h2
    rw [findLowCut] at h
    split at h
    · injection h with h; omega
    · next hk =>
      by_cases hj : j' = i + k
      · subst hj; simpa using hk
      · exact ih j h j' h1 (by omega)

theorem findLowCut_none (ok : ℕ → Bool) (i : ℕ) : ∀ k, findLowCut ok i k = none →
    ∀ j', i ≤ j' → j' < i + k → ok j' = false := by
  intro k
  induction k with
  | zero => intro _ j' h1 h2; omega
  | succ k ih =>
    intro h j' h1 h2
    rw [findLowCut] at h
    split at h
    · cases h
    · next hk =>
      by_cases hj : j' = i + k
      · subst hj; simpa using hk
      · exact ih h j' h1 (by omega)

theorem pairLoop_found (ok : ℕ → ℕ → Bool) (last : ℕ) : ∀ fuel i, last < i + fuel →
    ∃ rs, PairsFound (fun a b => ok a b = true) i last rs ∧
      pairLoop ok last fuel i = rs.flatMap fun r => [r.1, r.2] := by
  intro fuel
  induction fuel with
  | zero =>
    intro i h
    exact ⟨[], ⟨by simp, by simp, by simp, by simp, fun a h1 h2 => by omega⟩, by simp [pairLoop]⟩
  | succ fuel ih =>
    intro i h
    rw [pairLoop]
    split
    · next hlt =>
      split
      · next j hj =>
        obtain ⟨h1, h2, h3⟩ := findLowCut_spec _ _ _ _ hj
        have hlow := findLowCut_low _ _ _ _ hj
        obtain ⟨rs, ht, he⟩ := ih (j + 1) (by omega)
        refine ⟨(i, j) :: rs, ⟨?_, ?_, ?_, ?_, ?_⟩, by simp [he]⟩
        · intro r hr
          rcases List.mem_cons.mp hr with rfl | hr
          · exact ⟨le_refl _, h1, by simp; omega⟩
          · have := ht.inside r hr; omega
        · intro r hr
          rcases List.mem_cons.mp hr with rfl | hr
          · exact h3
          · exact ht.divisible r hr
        · intro r hr j' hj1 hj2
          rcases List.mem_cons.mp hr with rfl | hr
          · rw [hlow j' hj1 (by omega)]; simp
          · exact ht.lowest r hr j' hj1 hj2
        · refine List.pairwise_cons.mpr ⟨fun r hr => ?_, ht.disjoint⟩
          have := ht.inside r hr; simp; omega
        · intro a ha1 ha2 hout
          refine ht.outside a ?_ ha2 fun r hr => hout r (by simp [hr])
          by_contra hc
          exact hout (i, j) (by simp) ⟨ha1, by simp; omega⟩
      · next hp =>
        obtain ⟨rs, ht, he⟩ := ih (i + 1) (by omega)
        refine ⟨rs, ⟨fun r hr => ?_, ht.divisible, ht.lowest, ht.disjoint, ?_⟩, he⟩
        · have := ht.inside r hr; omega
        · intro a ha1 ha2 hout j hj1 hj2
          rcases Nat.eq_or_lt_of_le ha1 with rfl | hlt'
          · rw [findLowCut_none _ _ _ hp j hj1 (by omega)]; simp
          · exact ht.outside a hlt' ha2 hout j hj1 hj2
    · exact ⟨[], ⟨by simp, by simp, by simp, by simp, fun a h1 h2 => by omega⟩, by simp⟩

theorem find_range_rev_none {p : ℕ → Bool} {i : ℕ} (h : (List.range (i + 1)).reverse.find? p = none) :
    ∀ j ≤ i, p j = false := by
  intro j hj
  have := List.find?_eq_none.mp h j (by simp; omega)
  simpa using this

theorem find_range_rev_some {p : ℕ → Bool} : ∀ {i k : ℕ}, (List.range (i + 1)).reverse.find? p = some k →
    k ≤ i ∧ p k = true ∧ ∀ j ≤ i, k < j → p j = false := by
  intro i
  induction i with
  | zero =>
    intro k h
    have hk : k ∈ (List.range (0 + 1)).reverse := List.mem_of_find?_eq_some h
    have hk0 : k = 0 := by simpa using hk
    exact ⟨by omega, List.find?_some h, fun j hj hkj => by omega⟩
  | succ i ih =>
    intro k h
    rw [List.range_succ, List.reverse_append, List.reverse_singleton, List.singleton_append, List.find?_cons] at h
    split at h
    · next hp =>
      injection h with h
      subst h
      exact ⟨le_refl _, hp, fun j hj hkj => by omega⟩
    · next hp =>
      obtain ⟨h1, h2, h3⟩ := ih h
      refine ⟨by omega, h2, fun j hj hkj => ?_⟩
      by_cases hji : j = i + 1
      · subst hji; exact hp
      · exact h3 j (by omega) hkj

/-- C57 (horizontal cuts, exactly): inside the primary groups exactly the following candidates become horizontal cuts.
Let `last` be the uppermost candidate such that a vertical line divides everything below it (if there is none, the
lowest candidate), and `first` the lowest candidate not below `last` such that a vertical line divides everything above it
(if there is none, the uppermost candidate). These two, if they exist, and the candidates of the pairs between `first` and
`last` (see `PairsFound`) such that a vertical line divides everything between them. -/
theorem c57_y_cuts_exactly {lib : Lib RElem} (hl : LibContract RElem.pos lib) {n : ℕ} (hn : n ≤ 3)
    (cuts : List (Cut RElem)) (elements : List RElem) (hc : cuts ≠ []) (he : elements ≠ [])
    (hg : GoodElems RElem.pos n elements) :
    ∃ (last first : ℕ) (rs : List (ℕ × ℕ)),
      let Below (k : ℕ) := VerticallyDivided (elements.drop (cutPos cuts k))
      let Above (k : ℕ) := VerticallyDivided (elements.take (cutPos cuts k))
      let Between (a b : ℕ) := VerticallyDivided ((elements.take (cutPos cuts b)).drop (cutPos cuts a))
      last < cuts.length ∧ first ≤ last ∧
      (∀ j < last, ¬ Below j) ∧ (Below last ∨ last + 1 = cuts.length) ∧
      (∀ j ≤ last, first < j → ¬ Above j) ∧ (Above first ∨ first = 0) ∧
      PairsFound Between first last rs ∧
      ∀ i, chooseYCuts lib cuts elements i = true ↔
        (i = last ∧ Below last) ∨ (i = first ∧ Above first) ∨ ∃ r ∈ rs, i = r.1 ∨ i = r.2 := by
  have hsub : ∀ g : List RElem, g.Sublist elements → (canXCut lib g = true ↔ VerticallyDivided g) :=
    fun g hs => canXCut_iff hl hn (hg.sublist hs)
  have hcne : ¬ ((elements.isEmpty || cuts.isEmpty) = true) := by simp [hc, he]
  have hlen : 0 < cuts.length := List.length_pos_iff.mpr hc
  have hB : ∀ k, (canXCut lib (elements.drop (cutPos cuts k)) = true ↔
      VerticallyDivided (elements.drop (cutPos cuts k))) := fun k => hsub _ (List.drop_sublist _ _)
  have hA : ∀ k, (canXCut lib (elements.take (cutPos cuts k)) = true ↔
      VerticallyDivided (elements.take (cutPos cuts k))) := fun k => hsub _ (List.take_sublist _ _)
  have hP : ∀ a b, (canXCut lib ((elements.take (cutPos cuts b)).drop (cutPos cuts a)) = true ↔
      VerticallyDivided ((elements.take (cutPos cuts b)).drop (cutPos cuts a))) :=
    fun a b => hsub _ ((List.drop_sublist _ _).trans (List.take_sublist _ _))
  have hmem : ∀ k, chooseYCuts lib cuts elements k = true ↔ k ∈ chooseYIndices lib (cutPos cuts) cuts.length elements := by
    intro k
    unfold chooseYCuts
    rw [if_neg hcne]
    simp only [List.contains_eq_mem, decide_eq_true_eq]
    rfl
  simp only [hmem, chooseYIndices, List.mem_append, Option.mem_toList]
  -- the last cut
  generalize hlf : (List.range cuts.length).find? (fun i => canXCut lib (elements.drop (cutPos cuts i))) = lf
  have hlast : ∃ last, lf.getD (cuts.length - 1) = last ∧ last < cuts.length ∧
      (∀ j < last, ¬ VerticallyDivided (elements.drop (cutPos cuts j))) ∧
      (VerticallyDivided (elements.drop (cutPos cuts last)) ∨ last + 1 = cuts.length) ∧
      ∀ i, lf = some i ↔ i = last ∧ VerticallyDivided (elements.drop (cutPos cuts last)) := by
    cases lf with
    | none =>
      have hno : ∀ j < cuts.length, ¬ VerticallyDivided (elements.drop (cutPos cuts j)) := by
        intro j hj hv
        have := List.find?_eq_none.mp hlf j (by simpa using hj)
        exact this ((hB j).mpr hv)
      refine ⟨cuts.length - 1, rfl, by omega, fun j hj => hno j (by omega), .inr (by omega), ?_⟩
      intro i
      simp [hno (cuts.length - 1) (by omega)]
    | some k =>
      rw [List.find?_range_eq_some] at hlf
      obtain ⟨h1, h2, h3⟩ := hlf
      have hk : VerticallyDivided (elements.drop (cutPos cuts k)) := (hB k).mp h1
      refine ⟨k, rfl, by simpa using h2, ?_, .inl hk, ?_⟩
      · intro j hj hv
        have := h3 j hj
        rw [(hB j).mpr hv] at this
        simp at this
      · intro i; simp only [Option.some.injEq]
        exact ⟨fun h => ⟨h.symm, hk⟩, fun h => h.1.symm⟩
  obtain ⟨last, e1, l1, l2, l3, l4⟩ := hlast
  rw [e1]
  generalize hff : (List.range (last + 1)).reverse.find? (fun i => canXCut lib (elements.take (cutPos cuts i))) = ff
  have hfirst : ∃ first, ff.getD 0 = first ∧ first ≤ last ∧
      (∀ j ≤ last, first < j → ¬ VerticallyDivided (elements.take (cutPos cuts j))) ∧
      (VerticallyDivided (elements.take (cutPos cuts first)) ∨ first = 0) ∧
      ∀ i, ff = some i ↔ i = first ∧ VerticallyDivided (elements.take (cutPos cuts first)) := by
    cases ff with
    | none =>
      have hno : ∀ j ≤ last, ¬ VerticallyDivided (elements.take (cutPos cuts j)) := by
        intro j hj hv
        have := find_range_rev_none hff j hj
        rw [(hA j).mpr hv] at this
        cases this
      refine ⟨0, rfl, by omega, fun j hj _ => hno j hj, .inr rfl, ?_⟩
      intro i
      simp [hno 0 (by omega)]
    | some k =>
      obtain ⟨h1, h2, h3⟩ := find_range_rev_some hff
      have hk := (hA k).mp h2
      refine ⟨k, rfl, h1, ?_, .inl hk, ?_⟩
      · intro j hj hkj hv
        have := h3 j hj hkj
        rw [(hA j).mpr hv] at this
        cases this
      · intro i; simp only [Option.some.injEq]
        exact ⟨fun h => ⟨h.symm, hk⟩, fun h => h.1.symm⟩
  obtain ⟨first, e2, f1, f2, f3, f4⟩ := hfirst
  rw [e2]
  obtain ⟨rs, hrs, hl'⟩ := pairLoop_found
    (fun i j => canXCut lib ((elements.take (cutPos cuts j)).drop (cutPos cuts i))) last (last + 1) first (by omega)
  refine ⟨last, first, rs, l1, f1, l2, l3, f2, f3, ?_, ?_⟩
  · have : (fun a b => canXCut lib ((elements.take (cutPos cuts b)).drop (cutPos cuts a)) = true) =
        fun a b => VerticallyDivided ((elements.take (cutPos cuts b)).drop (cutPos cuts a)) := by
      funext a b; exact propext (hP a b)
    rw [← this]; exact hrs
  · intro i
    rw [hl', l4, f4, or_assoc]
    simp [List.mem_flatMap]

/-! ## Concrete pages -/

/-- A box on page 1. -/
def boxAt (l u r b : ℤ) : Box := { pageNum := 1, leftX := l, upperY := u, rightX := r, lowerY := b }

theorem boxAt_parsed (l u r b : ℤ) (h1 : l ≤ r) (h2 : u ≤ b) : ParsedBox 1 (boxAt l u r b) := by
  have hr : ∀ z : ℤ, ∃ x, (z : ℚ) = roundTo x 1 := fun z => ⟨z, by
    rw [roundTo_eq]
    have : (z : ℚ) * 10 ^ 1 = ((z * 10 : ℤ) : ℚ) := by push_cast; ring
    rw [this, stdRound_int]
    push_cast; ring⟩
  exact ⟨⟨hr l, hr u, hr r, hr b⟩, ⟨by simp [boxAt], by simp [boxAt]⟩, by simpa [boxAt] using h1,
    by simpa [boxAt] using h2⟩

/-- A page with a title above two columns and a margin note: the margin note is rotated, the second block of the right
column comes first in the input. -/
def samplePageBlocks : List RElem :=
  [ .block 0 .paragraph (boxAt 70 80 110 100), .block 1 .paragraph (boxAt 20 30 60 100),
    .block 2 .title (boxAt 20 10 110 20), .block 3 .paragraph (boxAt 70 30 110 70),
    .block 4 .marginal { boxAt 0 10 8 90 with rotation := 1 } ]

/-- The blocks of the sample page are read in the order: margin note, title, left column, right column. -/
example : (pageOrder { avgCharWidth := 1, avgCharHeight := 1 } (refLib RElem.pos) (Spec.insSort topFirst)
    samplePageBlocks [] []).map (fun e => match e with | .block u _ _ => u | _ => 99) = [4, 2, 1, 3, 0] := by
  decide +kernel

/-- The sample page satisfies the hypotheses of `c57_reading_order`. -/
example : GoodElems RElem.pos 1 (samplePageBlocks ++ [] ++ []) := by
  constructor
  · intro e he
    simp only [samplePageBlocks, List.append_nil, List.mem_cons, List.not_mem_nil, or_false] at he
    rcases he with rfl | rfl | rfl | rfl | rfl
    · exact boxAt_parsed _ _ _ _ (by norm_num) (by norm_num)
    · exact boxAt_parsed _ _ _ _ (by norm_num) (by norm_num)
    · exact boxAt_parsed _ _ _ _ (by norm_num) (by norm_num)
    · exact boxAt_parsed _ _ _ _ (by norm_num) (by norm_num)
    · have h := boxAt_parsed 0 10 8 90 (by norm_num) (by norm_num)
      exact ⟨h.rounded, ⟨by simp [RElem.pos], by simp [RElem.pos]⟩, h.wide, h.tall⟩
  · norm_num [samplePageBlocks, Clear, RElem.pos, boxAt]

/-- Non-vacuity of `c57_y_cuts_exactly`: on the title and the two columns of the sample page there is one candidate, and it is
taken because a vertical line divides everything below it. -/
example :
    let es := [RElem.block 2 .title (boxAt 20 10 110 20), .block 1 .paragraph (boxAt 20 30 60 100),
      .block 3 .paragraph (boxAt 70 30 110 70), .block 0 .paragraph (boxAt 70 80 110 100)]
    let cuts := yCandidates RElem.pos (refLib RElem.pos) 0 es
    cuts.length = 1 ∧ chooseYCuts (refLib RElem.pos) cuts es 0 = true := by
  decide +kernel

/-- C57 (order, refuted for rules without width; finding): a vertical rule that begins exactly at the left edge of a block is
taken for a gap, although the blocks left of the rule and the block right of it overlap: the uppermost block of a page that no
vertical line divides is printed last. -/
theorem c57_rule_cuts_through_block :
    ∃ (st : Stats) (blocks shapes : List RElem) (top : RElem),
      Undivided (fun e : RElem => e.pos.leftX) (fun e => e.pos.rightX) blocks ∧
      (∀ e ∈ blocks ++ shapes, ParsedBox 1 e.pos) ∧ blocks.length = 3 ∧ top ∈ blocks ∧
      (∀ e ∈ blocks, e ≠ top → top.pos.lowerY < e.pos.upperY) ∧
      (pageOrder st (refLib RElem.pos) (Spec.insSort topFirst) blocks [] shapes).getLast? = some top := by
  refine ⟨{ avgCharWidth := 1, avgCharHeight := 1 },
    [.block 0 .paragraph (boxAt 0 50 40 60), .block 1 .paragraph (boxAt 10 70 50 80),
      .block 2 .paragraph (boxAt 20 10 50 20)], [.shape 3 (boxAt 10 10 10 80)],
    .block 2 .paragraph (boxAt 20 10 50 20), ?_, ?_, rfl, by simp, ?_, ?_⟩
  · intro xs ys hperm hxs hys hb
    -- all blocks contain the interval from 20 to 40
    obtain ⟨a, ha⟩ := List.exists_mem_of_ne_nil xs hxs
    obtain ⟨b, hbm⟩ := List.exists_mem_of_ne_nil ys hys
    have h := hb a ha b hbm
    have ha' := hperm.symm.subset (List.mem_append_left ys ha)
    have hb' := hperm.symm.subset (List.mem_append_right xs hbm)
    simp only [List.mem_cons, List.not_mem_nil, or_false] at ha' hb'
    rcases ha' with rfl | rfl | rfl <;> rcases hb' with rfl | rfl | rfl <;>
      norm_num [RElem.pos, boxAt] at h
  · intro e he
    simp only [List.cons_append, List.nil_append, List.mem_cons, List.not_mem_nil, or_false] at he
    rcases he with rfl | rfl | rfl | rfl <;> exact boxAt_parsed _ _ _ _ (by norm_num) (by norm_num)
  · intro e he hne
    simp only [List.mem_cons, List.not_mem_nil, or_false] at he
    rcases he with rfl | rfl | rfl
    · norm_num [RElem.pos, boxAt]
    · norm_num [RElem.pos, boxAt]
    · exact absurd rfl hne
  · decide +kernel

end Verif.Props

import Verif.Props.PrimaryCuts
import Verif.Spec.OrderFree

/-!
# C79: the reading order does not depend on the order in which the page elements are found
-/

namespace Verif.Props

open Verif.XYCut Verif.Math Verif.Elements Verif.Spec Verif.ReadingOrder

variable {α : Type}

/-! ## Sorted lists with the same elements -/

/-- What the candidates of a cut are: the places where everything before ends before everything behind; with the elements next to
the gap. -/
structure Cands (first last : α → ℚ) (s : List α) (cuts : List (Cut α)) : Prop where
  good : GoodCuts 1 s.length cuts
  sound : ∀ c ∈ cuts, Before first last (s.take c.posInElements) (s.drop c.posInElements)
  complete : ∀ k, 1 ≤ k → k < s.length → Before first last (s.take k) (s.drop k) → ∃ c ∈ cuts, c.posInElements = k
  after : ∀ c ∈ cuts, s[c.posInElements]? = some c.elementAfter
  before : ∀ c ∈ cuts, c.elementBefore ∈ s.take c.posInElements ∧ ∀ x ∈ s.take c.posInElements, last x ≤ last c.elementBefore

/-- The two edges are in order, and elements that begin at the same edge have an extent. -/
structure Extended (first last : α → ℚ) (es : List α) : Prop where
  ordered : ∀ e ∈ es, first e ≤ last e
  clear : es.Pairwise fun a b => first a = first b → first a < last a ∧ first b < last b

theorem of_strict {first last : α → ℚ} {xs ys : List α} (h : Extended first last (xs ++ ys)) (hb : Before first last xs ys) :
    ∀ a ∈ xs, ∀ b ∈ ys, first a < first b := by
  intro a ha b hbm
  rcases lt_or_eq_of_le (le_trans (h.ordered a (by simp [ha])) (hb a ha b hbm)) with h1 | h1
  · exact h1
  · have h2 := (List.pairwise_append.mp h.clear).2.2 a ha b hbm h1
    have h3 := hb a ha b hbm
    linarith [h2.1]

/-- A place where a sorted list falls apart is one where every other sorted list of the same elements falls apart, with the same elements before it. -/
theorem of_place {first last : α → ℚ} {s s' : List α} (hE : Extended first last s) (hp : s.Perm s')
    (hs : s.Pairwise fun a b => first a ≤ first b) (hs' : s'.Pairwise fun a b => first a ≤ first b) (k : ℕ)
    (hb : Before first last (s.take k) (s.drop k)) : (s.take k).Perm (s'.take k) ∧ (s.drop k).Perm (s'.drop k) := by
  by_cases hd : s.drop k = []
  · have h1 : s.length ≤ k := List.drop_eq_nil_iff.mp hd
    have h2 : s'.length ≤ k := by rw [← hp.length_eq]; exact h1
    rw [List.take_of_length_le h1, List.take_of_length_le h2, hd, List.drop_eq_nil_iff.mpr h2]
    exact ⟨hp, List.Perm.refl _⟩
  obtain ⟨m, hm, hmin⟩ := exists_least first (s.drop k) hd
  have hsplit : s.take k ++ s.drop k = s := List.take_append_drop k s
  have hst := of_strict (xs := s.take k) (ys := s.drop k) (by rw [hsplit]; exact hE) hb
  have hf1 : s.filter (fun e => decide (first e < first m)) = s.take k := by
    conv_lhs => rw [← hsplit]
    rw [List.filter_append, List.filter_eq_self.mpr, List.filter_eq_nil_iff.mpr, List.append_nil]
    · intro b hb'; simpa using hmin b hb'
    · intro a ha; simpa using hst a ha m hm
  obtain ⟨a, b, hab, hlo, hhi⟩ := sorted_split first (first m) s' hs'
  have hf2 : s'.filter (fun e => decide (first e < first m)) = a := by
    rw [hab, List.filter_append, List.filter_eq_self.mpr, List.filter_eq_nil_iff.mpr, List.append_nil]
    · intro x hx; simpa using hhi x hx
    · intro x hx; simpa using hlo x hx
  have h1 : (s.take k).Perm a := by rw [← hf1, ← hf2]; exact hp.filter _
  have hk : a.length = k := by
    rw [← h1.length_eq, List.length_take]
    have : k < s.length := by
      by_contra hcon
      exact hd (List.drop_eq_nil_iff.mpr (not_lt.mp hcon))
    omega
  have hta : s'.take k = a := by rw [hab, ← hk]; simp
  have hda : s'.drop k = b := by rw [hab, ← hk]; simp
  rw [hta, hda]
  refine ⟨h1, ?_⟩
  have h2 : (s.take k ++ s.drop k).Perm (a ++ b) := by rw [hsplit, ← hab]; exact hp
  exact (List.perm_append_left_iff a).mp ((h1.symm.append_right _).trans h2)

theorem of_before_perm {first last : α → ℚ} {xs ys xs' ys' : List α} (h1 : xs.Perm xs') (h2 : ys.Perm ys')
    (h : Before first last xs ys) : Before first last xs' ys' :=
  fun a ha b hb => h a (h1.mem_iff.mpr ha) b (h2.mem_iff.mpr hb)

/-- Two candidate lists for the same elements have the same places. -/
theorem of_positions {first last : α → ℚ} {s s' : List α} {cs cs' : List (Cut α)} (hE : Extended first last s) (hp : s.Perm s')
    (hs : s.Pairwise fun a b => first a ≤ first b) (hs' : s'.Pairwise fun a b => first a ≤ first b)
    (hc : Cands first last s cs) (hc' : Cands first last s' cs') : cs.map (·.posInElements) = cs'.map (·.posInElements) := by
  have hE' : Extended first last s' :=
    ⟨fun e he => hE.ordered e (hp.mem_iff.mpr he), (hp.pairwise_iff fun {a b} h e => (h e.symm).symm).mp hE.clear⟩
  have hsub : ∀ (s s' : List α) (cs cs' : List (Cut α)), Extended first last s → s.Perm s' →
      s.Pairwise (fun a b => first a ≤ first b) → s'.Pairwise (fun a b => first a ≤ first b) →
      Cands first last s cs → Cands first last s' cs' → ∀ k ∈ cs.map (·.posInElements), k ∈ cs'.map (·.posInElements) := by
    intro s s' cs cs' hE hp hs hs' hc hc' k hk
    obtain ⟨c, hcm, rfl⟩ := List.mem_map.mp hk
    obtain ⟨h1, h2⟩ := of_place hE hp hs hs' _ (hc.sound c hcm)
    have h3 := hc.good.inside c hcm
    obtain ⟨c', hc1, hc2⟩ := hc'.complete c.posInElements h3.1 (by rw [← hp.length_eq]; exact h3.2)
      (of_before_perm h1 h2 (hc.sound c hcm))
    exact List.mem_map.mpr ⟨c', hc1, hc2⟩
  have hso : ∀ {s : List α} {cs : List (Cut α)}, Cands first last s cs → (cs.map (·.posInElements)).Pairwise (· < ·) :=
    fun h => List.pairwise_map.mpr h.good.sorted
  have hperm : (cs.map (·.posInElements)).Perm (cs'.map (·.posInElements)) := by
    rw [List.perm_ext_iff_of_nodup ((hso hc).imp fun h => Nat.ne_of_lt h) ((hso hc').imp fun h => Nat.ne_of_lt h)]
    exact fun k => ⟨hsub s s' cs cs' hE hp hs hs' hc hc' k, hsub s' s cs' cs hE' hp.symm hs' hs hc' hc k⟩
  exact hperm.eq_of_pairwise (le := (· < ·)) (fun a b _ _ h1 h2 => absurd h1 (Nat.lt_asymm h2)) (hso hc) (hso hc')

/-- The lists of groups agree, group by group, up to the order within a group. -/
abbrev SameGroups (gs gs' : List (List α)) : Prop := List.Forall₂ List.Perm gs gs'

theorem of_drop_take {s s' : List α} {p k : ℕ} (hpk : p ≤ k) (h1 : (s.take p).Perm (s'.take p)) (h2 : (s.take k).Perm (s'.take k)) :
    ((s.take k).drop p).Perm ((s'.take k).drop p) := by
  have e : ∀ t : List α, t.take p ++ (t.take k).drop p = t.take k := by
    intro t
    conv_rhs => rw [← List.take_append_drop p (t.take k)]
    rw [List.take_take, Nat.min_eq_left hpk]
  rw [← e s, ← e s'] at h2
  exact (List.perm_append_left_iff (s'.take p)).mp ((h1.symm.append_right _).trans h2)

theorem of_split {s s' : List α} (hp : s.Perm s') :
    ∀ (cs cs' : List (Cut α)) (p : ℕ), (s.take p).Perm (s'.take p) → (∀ c ∈ cs, p ≤ c.posInElements) →
      cs.Pairwise (fun a b => a.posInElements < b.posInElements) →
      List.Forall₂ (fun c c' => c.posInElements = c'.posInElements ∧ c.isChosen = c'.isChosen ∧
        (s.take c.posInElements).Perm (s'.take c.posInElements)) cs cs' →
      SameGroups (splitGroups s p cs) (splitGroups s' p cs') := by
  intro cs
  induction cs with
  | nil =>
    intro cs' p h1 _ _ h
    cases h
    simp only [splitGroups]
    refine List.Forall₂.cons ?_ List.Forall₂.nil
    have h2 : (s.take p ++ s.drop p).Perm (s'.take p ++ s'.drop p) := by
      rw [List.take_append_drop, List.take_append_drop]; exact hp
    exact (List.perm_append_left_iff (s'.take p)).mp ((h1.symm.append_right _).trans h2)
  | cons c cs ih =>
    intro cs' p h1 hle hso h
    cases h with
    | cons h0 hr =>
      next c' cs' =>
      obtain ⟨e1, e2, e3⟩ := h0
      have hso' := List.pairwise_cons.mp hso
      simp only [splitGroups, ← e1, ← e2]
      by_cases hch : c.isChosen = true
      · rw [if_pos hch, if_pos hch]
        refine List.Forall₂.cons ?_ (ih _ _ e3 (fun x hx => le_of_lt (hso'.1 x hx)) hso'.2 hr)
        rw [← List.drop_take, ← List.drop_take]
        exact of_drop_take (hle c (by simp)) h1 e3
      · rw [if_neg hch, if_neg hch]
        exact ih _ _ h1 (fun x hx => hle x (by simp [hx])) hso'.2 hr

/-- The groups of a cut depend only on the elements and on which of the places are chosen. -/
theorem of_groups {first last : α → ℚ} {s s' : List α} {cs cs' : List (Cut α)} (hE : Extended first last s) (hp : s.Perm s')
    (hs : s.Pairwise fun a b => first a ≤ first b) (hs' : s'.Pairwise fun a b => first a ≤ first b)
    (hc : Cands first last s cs) (hc' : Cands first last s' cs') (choose choose' : Choose α)
    (hch : ∀ i < cs.length, choose cs s i = choose' cs' s' i) :
    SameGroups (splitGroups s 0 (applyChoice choose cs s)) (splitGroups s' 0 (applyChoice choose' cs' s')) ∧
    (applyChoice choose cs s).any (·.isChosen) = (applyChoice choose' cs' s').any (·.isChosen) := by
  have hpos := of_positions hE hp hs hs' hc hc'
  have hlen : cs.length = cs'.length := by simpa using congrArg List.length hpos
  have hF : List.Forall₂ (fun c c' : Cut α => c.posInElements = c'.posInElements ∧ c.isChosen = c'.isChosen ∧
      (s.take c.posInElements).Perm (s'.take c.posInElements)) (applyChoice choose cs s) (applyChoice choose' cs' s') := by
    rw [List.forall₂_iff_get]
    refine ⟨by simp [applyChoice, hlen], ?_⟩
    intro i h1 h2
    simp only [applyChoice, List.length_mapIdx] at h1 h2
    simp only [applyChoice, List.get_eq_getElem, List.getElem_mapIdx]
    refine ⟨?_, hch i h1, (of_place hE hp hs hs' _ (hc.sound _ (List.getElem_mem h1))).1⟩
    have := congrArg (fun l => l[i]?) hpos
    simpa [h1, h2] using this
  refine ⟨of_split hp _ _ 0 (by simp) (by simp) (goodCuts_applyChoice choose cs s hc.good).sorted hF, ?_⟩
  generalize applyChoice choose cs s = l at hF
  generalize applyChoice choose' cs' s' = l' at hF
  clear hch hpos hlen
  induction hF with
  | nil => rfl
  | cons h _ ih => simp only [List.any_cons, h.2.1, ih]

/-! ## The two cuts -/

theorem of_yLoop (pos : α → Box) {n : ℕ} (hn : n ≤ 3) (x1 x2 : ℚ) :
    ∀ (es pre : List α) (big : α), GoodElems pos n (pre ++ es) →
      (pre ++ es).Pairwise (fun a b => (pos a).upperY ≤ (pos b).upperY) →
      big ∈ pre → (∀ x ∈ pre, (pos x).lowerY ≤ (pos big).lowerY) →
      (∀ c ∈ yLoop pos 0 x1 x2 pre.length big es,
        (pre ++ es)[c.posInElements]? = some c.elementAfter ∧ c.elementBefore ∈ (pre ++ es).take c.posInElements ∧
        ∀ x ∈ (pre ++ es).take c.posInElements, (pos x).lowerY ≤ (pos c.elementBefore).lowerY) ∧
      (∀ k, pre.length ≤ k → k < (pre ++ es).length →
        Before (fun e => (pos e).upperY) (fun e => (pos e).lowerY) ((pre ++ es).take k) ((pre ++ es).drop k) →
        ∃ c ∈ yLoop pos 0 x1 x2 pre.length big es, c.posInElements = k) := by
  intro es
  induction es with
  | nil =>
    intro pre big hp hs hb hmax
    refine ⟨by simp [yLoop], fun k h1 h2 => ?_⟩
    simp at h2; omega
  | cons e es ih =>
    intro pre big hp hs hb hmax
    have hbP := hp.parsed big (by simp [hb])
    have heP := hp.parsed e (by simp)
    have hcl : Clear (pos big) (pos e) := (List.pairwise_append.mp hp.clear).2.2 big hb e (by simp)
    rw [List.pairwise_append] at hs
    obtain ⟨hs1, hs2, hs3⟩ := hs
    have hle : (pos big).upperY ≤ (pos e).upperY := hs3 big hb e (by simp)
    have hgap := vgap0_iff hn hbP heP hle hcl
    set big' := if larger (pos e).lowerY (pos big).lowerY tol then e else big with hbig'
    have hlar := larger_exact_of_decimal hn heP.decimal.2.2.2 hbP.decimal.2.2.2
    have hpre : (pre ++ [e]) ++ es = pre ++ e :: es := by simp
    have hrec := ih (pre ++ [e]) big' (by rw [hpre]; exact hp)
      (by rw [hpre, List.pairwise_append]; exact ⟨hs1, hs2, hs3⟩)
      (by rw [hbig']; split <;> simp [hb])
      (by
        intro x hx
        rcases List.mem_append.mp hx with hx | hx
        · have h1 := hmax x hx
          rw [hbig']; split
          · next h => exact le_trans h1 (le_of_lt (hlar.mp h))
          · exact h1
        · simp only [List.mem_singleton] at hx; subst hx
          rw [hbig']; split
          · exact le_refl _
          · next h => rw [hlar] at h; exact le_of_not_gt h)
    rw [hpre, List.length_append, List.length_singleton] at hrec
    have htake : (pre ++ e :: es).take pre.length = pre := by simp
    have hdrop : (pre ++ e :: es).drop pre.length = e :: es := by simp
    have hget : (pre ++ e :: es)[pre.length]? = some e := by simp
    rw [yLoop]
    rw [← hbig']
    by_cases hg : equalOrLarger (computeVerticalGap (pos big) (pos e)) 0 tol = true
    · simp only [hg, if_true]
      refine ⟨?_, ?_⟩
      · intro c hc
        rcases List.mem_cons.mp hc with rfl | hc
        · simp only [htake]; exact ⟨hget, hb, hmax⟩
        · exact hrec.1 c hc
      · intro k hk1 hk2 hall
        by_cases hk : k = pre.length
        · subst hk; exact ⟨_, List.mem_cons_self, rfl⟩
        · obtain ⟨c, hc, hck⟩ := hrec.2 k (by omega) hk2 hall
          exact ⟨c, List.mem_cons_of_mem _ hc, hck⟩
    · rw [if_neg hg]
      refine ⟨hrec.1, ?_⟩
      intro k hk1 hk2 hall
      by_cases hk : k = pre.length
      · subst hk
        rw [htake, hdrop] at hall
        exact absurd (hgap.mpr (hall big hb e (by simp))) hg
      · exact hrec.2 k (by omega) hk2 hall

theorem of_xLoop {pos : α → Box} {lib : Lib α} (hl : LibContract pos lib) {n : ℕ} (hn : n ≤ 3) (y1 y2 : ℚ) :
    ∀ (es pre q rest : List α), GoodElems pos n (pre ++ es) → QInv pos 0 pre q rest →
      ∀ c ∈ xLoop pos lib 0 0 y1 y2 pre.length q es,
        (pre ++ es)[c.posInElements]? = some c.elementAfter ∧ c.elementBefore ∈ (pre ++ es).take c.posInElements ∧
        ∀ x ∈ (pre ++ es).take c.posInElements, (pos x).rightX ≤ (pos c.elementBefore).rightX := by
  intro es
  induction es with
  | nil => intro pre q rest hp hq; simp [xLoop]
  | cons e es ih =>
    intro pre q rest hp hq
    have hpp : ∀ x ∈ pre, ParsedBox n (pos x) := fun x hx => hp.parsed x (by simp [hx])
    have heP := hp.parsed e (by simp)
    have hqpre : ∀ x ∈ q, x ∈ pre := fun x hx => hq.perm.symm.subset (by simp [hx])
    obtain ⟨rest', hq'⟩ := updateQ_inv hl hn hq e hpp heP
    have hpre : (pre ++ [e]) ++ es = pre ++ e :: es := by simp
    have hrec := ih (pre ++ [e]) _ rest' (by rw [hpre]; exact hp) hq'
    rw [hpre, List.length_append, List.length_singleton] at hrec
    have htake : (pre ++ e :: es).take pre.length = pre := by simp
    have hget : (pre ++ e :: es)[pre.length]? = some e := by simp
    obtain ⟨hsp, hss⟩ := hl.sortRightX q (swo_rightX hn fun x hx => hpp x (hqpre x hx))
    obtain ⟨t, rfl⟩ : ∃ t, q = [t] := by
      have h1 := hq.size
      have h2 := List.length_pos_iff.mpr hq.nonempty
      exact List.length_eq_one_iff.mp (by omega)
    have hst : lib.sortRightXDesc [t] = [t] := List.perm_singleton.mp hsp
    have ht : t ∈ pre := hqpre t (by simp)
    have hmax : ∀ a ∈ pre, (pos a).rightX ≤ (pos t).rightX := by
      intro a ha
      rcases List.mem_append.mp (hq.perm.subset ha) with h | h
      · simp only [List.mem_singleton] at h; subst h; exact le_refl _
      · exact hq.dominated a h t (by simp)
    rw [xLoop]
    simp only [PQ.sort, hst]
    simp only [findGap]
    by_cases hg : equalOrLarger (computeHorizontalGap (pos t) (pos e)) 0 tol = true
    · simp only [hg, if_true]
      intro c hc
      rcases List.mem_cons.mp hc with rfl | hc
      · simp only [htake]; exact ⟨hget, ht, hmax⟩
      · exact hrec c hc
    · rw [if_neg hg]
      exact hrec

/-- The candidates of a vertical cut. -/
theorem of_xCands {pos : α → Box} {lib : Lib α} (hl : LibContract pos lib) {n : ℕ} (hn : n ≤ 3) {es : List α} (hp : GoodElems pos n es) :
    Cands (fun e => (pos e).leftX) (fun e => (pos e).rightX) (lib.sortLeftX es) (xCandidates pos lib 0 0 es) := by
  obtain ⟨h1, h2⟩ := pairwise_leftX hl hn hp.parsed
  have hp' := hp.perm h1
  have hx : ∀ c ∈ xCandidates pos lib 0 0 es, (lib.sortLeftX es)[c.posInElements]? = some c.elementAfter ∧
      c.elementBefore ∈ (lib.sortLeftX es).take c.posInElements ∧
        ∀ x ∈ (lib.sortLeftX es).take c.posInElements, (pos x).rightX ≤ (pos c.elementBefore).rightX := by
    unfold xCandidates
    cases hs : lib.sortLeftX es with
    | nil => simp
    | cons e0 es =>
      rw [hs] at h2 hp'
      have hpush : pushQ lib.popTop (0 + 1) [] e0 = [e0] := by simp [pushQ, PQ.push]
      simp only [hpush]
      simpa using of_xLoop hl hn
        (extent (fun e => (pos e).upperY) (fun e => (pos e).lowerY) (e0 :: es)).1
        (extent (fun e => (pos e).upperY) (fun e => (pos e).lowerY) (e0 :: es)).2 es [e0] [e0] []
        (by simpa using hp') ⟨by simp, by simp, by simp, by simp⟩
  refine ⟨xCandidates_good pos lib 0 0 es, (xCandidates_zero hl hn hp).1, ?_, fun c hc => (hx c hc).1, fun c hc => (hx c hc).2⟩
  intro k hk1 hk2 hb
  refine (xCandidates_zero hl hn hp).2 k hk1 hk2 ?_
  intro a ha b hbm
  refine hb a ha b ?_
  rw [List.mem_iff_getElem?]
  exact ⟨0, by simpa using hbm⟩

/-- The candidates of a horizontal cut. -/
theorem of_yCands {pos : α → Box} {lib : Lib α} (hl : LibContract pos lib) {n : ℕ} (hn : n ≤ 3) {es : List α} (hp : GoodElems pos n es) :
    Cands (fun e => (pos e).upperY) (fun e => (pos e).lowerY) (lib.sortUpperY es) (yCandidates pos lib 0 es) := by
  obtain ⟨h1, h2⟩ := pairwise_upperY hl hn hp.parsed
  have hp' := hp.perm h1
  have hx : (∀ c ∈ yCandidates pos lib 0 es, (lib.sortUpperY es)[c.posInElements]? = some c.elementAfter ∧
      c.elementBefore ∈ (lib.sortUpperY es).take c.posInElements ∧
        ∀ x ∈ (lib.sortUpperY es).take c.posInElements, (pos x).lowerY ≤ (pos c.elementBefore).lowerY) ∧
      (∀ k, 1 ≤ k → k < (lib.sortUpperY es).length →
        Before (fun e => (pos e).upperY) (fun e => (pos e).lowerY) ((lib.sortUpperY es).take k) ((lib.sortUpperY es).drop k) →
        ∃ c ∈ yCandidates pos lib 0 es, c.posInElements = k) := by
    unfold yCandidates
    cases hs : lib.sortUpperY es with
    | nil => exact ⟨by simp, fun k _ h => by simp at h⟩
    | cons e0 es =>
      rw [hs] at h2 hp'
      simpa using of_yLoop pos hn
        (extent (fun e => (pos e).leftX) (fun e => (pos e).rightX) (e0 :: es)).1
        (extent (fun e => (pos e).leftX) (fun e => (pos e).rightX) (e0 :: es)).2 es [e0] e0
        (by simpa using hp') (by simpa using h2) (by simp) (by simp)
  exact ⟨yCandidates_good pos lib 0 es, yCandidates_zero hl hn hp, hx.2, fun c hc => (hx.1 c hc).1, fun c hc => (hx.1 c hc).2⟩

theorem of_extX {pos : α → Box} {n : ℕ} {es : List α} (hp : GoodElems pos n es) :
    Extended (fun e => (pos e).leftX) (fun e => (pos e).rightX) es :=
  ⟨fun e he => (hp.parsed e he).wide, hp.clear.imp fun h => h.1⟩

theorem of_extY {pos : α → Box} {n : ℕ} {es : List α} (hp : GoodElems pos n es) :
    Extended (fun e => (pos e).upperY) (fun e => (pos e).lowerY) es :=
  ⟨fun e he => (hp.parsed e he).tall, hp.clear.imp fun h => h.2⟩

/-- A vertical cut of the same elements, in any order and with any sorting routines, yields the same groups if the same places are chosen. -/
theorem of_xCut {pos : α → Box} {lib lib' : Lib α} (hl : LibContract pos lib) (hl' : LibContract pos lib') {n : ℕ} (hn : n ≤ 3)
    {es es' : List α} (hp : GoodElems pos n es) (he : es.Perm es') (choose choose' : Choose α)
    (hch : ∀ i < (xCandidates pos lib 0 0 es).length,
      choose (xCandidates pos lib 0 0 es) (lib.sortLeftX es) i = choose' (xCandidates pos lib' 0 0 es') (lib'.sortLeftX es') i) :
    SameGroups (xCut pos lib 0 0 choose es).groups (xCut pos lib' 0 0 choose' es').groups ∧
    (xCut pos lib 0 0 choose es).ok = (xCut pos lib' 0 0 choose' es').ok := by
  have hp' := hp.perm he.symm
  obtain ⟨h1, h2⟩ := pairwise_leftX hl hn hp.parsed
  obtain ⟨h1', h2'⟩ := pairwise_leftX hl' hn hp'.parsed
  unfold xCut
  by_cases hne : es = []
  · subst hne
    have : es' = [] := List.nil_perm.mp he
    subst this; simp
  · have hne' : es' ≠ [] := fun h => hne (List.perm_nil.mp (h ▸ he))
    rw [if_neg (by simpa using hne), if_neg (by simpa using hne')]
    exact of_groups (of_extX (hp.perm h1)) ((h1.trans he).trans h1'.symm) h2 h2' (of_xCands hl hn hp) (of_xCands hl' hn hp') choose choose' hch

/-- A horizontal cut of the same elements yields the same groups if the same places are chosen. -/
theorem of_yCut {pos : α → Box} {lib lib' : Lib α} (hl : LibContract pos lib) (hl' : LibContract pos lib') {n : ℕ} (hn : n ≤ 3)
    {es es' : List α} (hp : GoodElems pos n es) (he : es.Perm es') (choose choose' : Choose α)
    (hch : ∀ i < (yCandidates pos lib 0 es).length,
      choose (yCandidates pos lib 0 es) (lib.sortUpperY es) i = choose' (yCandidates pos lib' 0 es') (lib'.sortUpperY es') i) :
    SameGroups (yCut pos lib 0 choose es).groups (yCut pos lib' 0 choose' es').groups ∧
    (yCut pos lib 0 choose es).ok = (yCut pos lib' 0 choose' es').ok := by
  have hp' := hp.perm he.symm
  obtain ⟨h1, h2⟩ := pairwise_upperY hl hn hp.parsed
  obtain ⟨h1', h2'⟩ := pairwise_upperY hl' hn hp'.parsed
  unfold yCut
  by_cases hne : es = []
  · subst hne
    have : es' = [] := List.nil_perm.mp he
    subst this; simp
  · have hne' : es' ≠ [] := fun h => hne (List.perm_nil.mp (h ▸ he))
    rw [if_neg (by simpa using hne), if_neg (by simpa using hne')]
    exact of_groups (of_extY (hp.perm h1)) ((h1.trans he).trans h1'.symm) h2 h2' (of_yCands hl hn hp) (of_yCands hl' hn hp') choose choose' hch

/-! ## The choices inside the primary groups -/

theorem of_canXCut {lib lib' : Lib RElem} (hl : LibContract RElem.pos lib) (hl' : LibContract RElem.pos lib') {n : ℕ} (hn : n ≤ 3)
    {g g' : List RElem} (hg : GoodElems RElem.pos n g) (hp : g.Perm g') : canXCut lib g = canXCut lib' g' := by
  rw [Bool.eq_iff_iff, canXCut_iff hl hn hg, canXCut_iff hl' hn (hg.perm hp.symm)]
  refine not_congr ⟨fun h xs ys hp' => h xs ys (hp.trans hp'), fun h xs ys hp' => h xs ys (hp.symm.trans hp')⟩

theorem of_chooseY {lib lib' : Lib RElem} (hl : LibContract RElem.pos lib) (hl' : LibContract RElem.pos lib') {n : ℕ} (hn : n ≤ 3)
    {es es' : List RElem} (hp : GoodElems RElem.pos n es) (he : es.Perm es') (i : ℕ) :
    chooseYCuts lib (yCandidates RElem.pos lib 0 es) (lib.sortUpperY es) i =
      chooseYCuts lib' (yCandidates RElem.pos lib' 0 es') (lib'.sortUpperY es') i := by
  have hp' := hp.perm he.symm
  obtain ⟨h1, h2⟩ := pairwise_upperY hl hn hp.parsed
  obtain ⟨h1', h2'⟩ := pairwise_upperY hl' hn hp'.parsed
  have hc := of_yCands hl hn hp
  have hc' := of_yCands hl' hn hp'
  have hps := hp.perm h1
  have hperm := (h1.trans he).trans h1'.symm
  generalize yCandidates RElem.pos lib 0 es = cs at hc
  generalize yCandidates RElem.pos lib' 0 es' = cs' at hc'
  generalize lib.sortUpperY es = s at *
  generalize lib'.sortUpperY es' = s' at *
  have hpos := of_positions (of_extY hps) hperm h2 h2' hc hc'
  have hlen : cs.length = cs'.length := by simpa using congrArg List.length hpos
  have hpk : (fun k : ℕ => (cs[k]?.map fun c : Cut RElem => c.posInElements).getD 0) =
      fun k : ℕ => (cs'[k]?.map fun c : Cut RElem => c.posInElements).getD 0 := by
    funext k
    rw [← List.getElem?_map, ← List.getElem?_map, hpos]
  have hplace : ∀ k : ℕ, (s.take ((cs[k]?.map fun c : Cut RElem => c.posInElements).getD 0)).Perm (s'.take ((cs[k]?.map fun c : Cut RElem => c.posInElements).getD 0)) ∧
      (s.drop ((cs[k]?.map fun c : Cut RElem => c.posInElements).getD 0)).Perm (s'.drop ((cs[k]?.map fun c : Cut RElem => c.posInElements).getD 0)) := by
    intro k
    cases hk : cs[k]? with
    | none => simpa using hperm
    | some c => exact of_place (of_extY hps) hperm h2 h2' _ (hc.sound c (List.mem_of_getElem? hk))
  have hse : s.isEmpty = s'.isEmpty := by
    cases s with
    | nil => rw [List.nil_perm.mp hperm]
    | cons a s => cases s' with
      | nil => exact absurd (List.perm_nil.mp hperm) (by simp)
      | cons b s' => rfl
  have hce : cs.isEmpty = cs'.isEmpty := by
    rw [Bool.eq_iff_iff, List.isEmpty_iff_length_eq_zero, List.isEmpty_iff_length_eq_zero, hlen]
  unfold chooseYCuts
  rw [hse, hce, ← hpk, hlen]
  generalize hpd : (fun k : ℕ => (cs[k]?.map fun c : Cut RElem => c.posInElements).getD 0) = p
  have hplace' : ∀ k, (s.take (p k)).Perm (s'.take (p k)) ∧ (s.drop (p k)).Perm (s'.drop (p k)) := by
    intro k; rw [← hpd]; exact hplace k
  have hidx : chooseYIndices lib p cs'.length s = chooseYIndices lib' p cs'.length s' := by
    have e1 : (fun i => canXCut lib (s.drop (p i))) = fun i => canXCut lib' (s'.drop (p i)) := by
      funext j; exact of_canXCut hl hl' hn (hps.sublist (List.drop_sublist _ _)) (hplace' j).2
    have e2 : (fun i => canXCut lib (s.take (p i))) = fun i => canXCut lib' (s'.take (p i)) := by
      funext j; exact of_canXCut hl hl' hn (hps.sublist (List.take_sublist _ _)) (hplace' j).1
    have e3 : (fun i j => canXCut lib ((s.take (p j)).drop (p i))) = fun i j => canXCut lib' ((s'.take (p j)).drop (p i)) := by
      funext i j
      refine of_canXCut hl hl' hn (hps.sublist ((List.drop_sublist _ _).trans (List.take_sublist _ _))) ?_
      by_cases hij : p i ≤ p j
      · exact of_drop_take hij (hplace' i).1 (hplace' j).1
      · rw [List.drop_eq_nil_iff.mpr, List.drop_eq_nil_iff.mpr]
        · rw [List.length_take]; omega
        · rw [List.length_take]; omega
    unfold chooseYIndices
    simp only [e1, e2, e3]
  rw [hidx]

theorem of_forGroups {f f' : List RElem → Option (Out RElem)} {Q : List RElem → Prop}
    (h : ∀ g g', Q g → g.Perm g' → ∀ o o', f g = some o → f' g' = some o' → SameGroups o.1 o'.1) :
    ∀ gs gs', SameGroups gs gs' → (∀ g ∈ gs, Q g) → ∀ o o', forGroups f gs = some o → forGroups f' gs' = some o' → SameGroups o.1 o'.1 := by
  intro gs gs' hs
  induction hs with
  | nil => intro _ o o' h1 h2; simp only [forGroups, Option.some.injEq] at h1 h2; subst h1 h2; exact List.Forall₂.nil
  | @cons g g' gs gs' hg hgs ih =>
    intro hQ o o' h1 h2
    rw [forGroups] at h1 h2
    cases e1 : f g with
    | none => rw [e1] at h1; simp at h1
    | some a =>
      cases e2 : forGroups f gs with
      | none => rw [e1, e2] at h1; simp at h1
      | some b =>
        cases e3 : f' g' with
        | none => rw [e3] at h2; simp at h2
        | some a' =>
          cases e4 : forGroups f' gs' with
          | none => rw [e3, e4] at h2; simp at h2
          | some b' =>
            rw [e1, e2] at h1
            rw [e3, e4] at h2
            simp only [Option.some.injEq] at h1 h2
            subst h1 h2
            exact List.rel_append (h g g' (hQ g (by simp)) hg a a' e1 e3) (ih (fun x hx => hQ x (by simp [hx])) b b' e2 e4)

/-- The recursive division yields the same groups. -/
theorem of_xyCutF {lib lib' : Lib RElem} (hl : LibContract RElem.pos lib) (hl' : LibContract RElem.pos lib') {n : ℕ} (hn : n ≤ 3) :
    ∀ fuel (es es' : List RElem), GoodElems RElem.pos n es → es.Perm es' → ∀ o o', xyCutF (params lib) fuel es = some o →
      xyCutF (params lib') fuel es' = some o' → SameGroups o.1 o'.1 := by
  have hempty : ∀ {es es' : List RElem}, es.Perm es' → es.isEmpty = es'.isEmpty := by
    intro es es' hp
    rw [Bool.eq_iff_iff, List.isEmpty_iff_length_eq_zero, List.isEmpty_iff_length_eq_zero, hp.length_eq]
  intro fuel
  induction fuel with
  | zero =>
    intro es es' hp he o o' h1 h2
    rw [xyCutF] at h1 h2
    rw [← hempty he] at h2
    by_cases hne : es.isEmpty = true
    · rw [if_pos hne] at h1 h2
      simp only [Option.some.injEq] at h1 h2
      subst h1 h2; exact List.Forall₂.nil
    · rw [if_neg hne] at h1; cases h1
  | succ fuel ih =>
    intro es es' hp he o o' h1 h2
    have hdiv : ∀ g g' : List RElem, GoodElems RElem.pos n g → g.Perm g' → ∀ o o',
        divideGroup (params lib) (xyCutF (params lib) fuel) g = some o →
        divideGroup (params lib') (xyCutF (params lib') fuel) g' = some o' → SameGroups o.1 o'.1 := by
      intro g g' hg hgp o o' h1 h2
      have hy := of_yCut hl hl' hn hg hgp (chooseYCuts lib) (chooseYCuts lib') (fun i _ => of_chooseY hl hl' hn hg hgp i)
      have ey : ∀ (l : Lib RElem) (g : List RElem), divideGroup (params l) (xyCutF (params l) fuel) g =
          if (yCut RElem.pos l 0 (chooseYCuts l) g).ok = true then
            (forGroups (xyCutF (params l) fuel) (yCut RElem.pos l 0 (chooseYCuts l) g).groups).map fun out =>
              (out.1, (yCut RElem.pos l 0 (chooseYCuts l) g).cuts ++ out.2)
          else some ([g], (yCut RElem.pos l 0 (chooseYCuts l) g).cuts) := fun _ _ => rfl
      rw [ey] at h1 h2
      rw [← hy.2] at h2
      by_cases hok : (yCut RElem.pos lib 0 (chooseYCuts lib) g).ok = true
      · rw [if_pos hok] at h1 h2
        obtain ⟨a, ha, rfl⟩ := Option.map_eq_some_iff.mp h1
        obtain ⟨b, hb, rfl⟩ := Option.map_eq_some_iff.mp h2
        exact of_forGroups (Q := GoodElems RElem.pos n) ih _ _ hy.1 (fun x hx => (good_of_yGroup hl hn hg _ x hx).1) a b ha hb
      · rw [if_neg hok] at h1 h2
        simp only [Option.some.injEq] at h1 h2
        subst h1 h2
        exact List.Forall₂.cons hgp List.Forall₂.nil
    rw [xyCutF] at h1 h2
    rw [← hempty he] at h2
    by_cases hne : es.isEmpty = true
    · rw [if_pos hne] at h1 h2
      simp only [Option.some.injEq] at h1 h2
      subst h1 h2; exact List.Forall₂.nil
    · rw [if_neg hne] at h1 h2
      have hx := of_xCut hl hl' hn hp he chooseXCuts chooseXCuts (fun _ _ => rfl)
      have ep : ∀ l : Lib RElem, xCut (params l).pos (params l).lib (params l).minXGap (params l).maxOverlap (params l).chooseX =
        xCut RElem.pos l 0 0 chooseXCuts := fun _ => rfl
      simp only [ep] at h1 h2
      rw [← hx.2] at h2
      by_cases hok : (xCut RElem.pos lib 0 0 chooseXCuts es).ok = true
      · rw [if_pos hok] at h1 h2
        obtain ⟨a, ha, rfl⟩ := Option.map_eq_some_iff.mp h1
        obtain ⟨b, hb, rfl⟩ := Option.map_eq_some_iff.mp h2
        exact of_forGroups (Q := GoodElems RElem.pos n) hdiv _ _ hx.1 (fun x hx => (good_of_xGroup hl hn hp _ x hx).1) a b ha hb
      · rw [if_neg hok] at h1 h2
        obtain ⟨a, ha, rfl⟩ := Option.map_eq_some_iff.mp h1
        obtain ⟨b, hb, rfl⟩ := Option.map_eq_some_iff.mp h2
        exact hdiv es es' hp he a b ha hb

theorem of_xyCut {lib lib' : Lib RElem} (hl : LibContract RElem.pos lib) (hl' : LibContract RElem.pos lib') {n : ℕ} (hn : n ≤ 3)
    {es es' : List RElem} (hp : GoodElems RElem.pos n es) (he : es.Perm es') :
    SameGroups (xyCut (params lib) es).1 (xyCut (params lib') es').1 := by
  have hs := c17_sorts_are_permutations hl hn
  have hs' := c17_sorts_are_permutations hl' hn
  have h1 := c18_xyCut_fuel_irrelevant (params lib) hs.1 hs.2 es (fun e h => (hp.parsed e h).rounded) es.length (Nat.le_refl _)
  have h2 := c18_xyCut_fuel_irrelevant (params lib') hs'.1 hs'.2 es' (fun e h => ((hp.perm he.symm).parsed e h).rounded) es.length
    (by rw [he.length_eq])
  exact of_xyCutF hl hl' hn _ es es' hp he _ _ h1 h2

/-! ## The primary cuts -/

/-- The elements next to a gap have, whatever the order of the elements, the same edges. -/
theorem of_neighbours {first last : α → ℚ} {s s' : List α} {cs cs' : List (Cut α)} (hE : Extended first last s) (hp : s.Perm s')
    (hs : s.Pairwise fun a b => first a ≤ first b) (hs' : s'.Pairwise fun a b => first a ≤ first b)
    (hc : Cands first last s cs) (hc' : Cands first last s' cs') (i : ℕ) (hi : i < cs.length) :
    ∃ c c', cs[i]? = some c ∧ cs'[i]? = some c' ∧ c.elementBefore ∈ s ∧ c.elementAfter ∈ s ∧ c'.elementBefore ∈ s ∧ c'.elementAfter ∈ s ∧
      last c.elementBefore = last c'.elementBefore ∧ first c.elementAfter = first c'.elementAfter := by
  have hpos := of_positions hE hp hs hs' hc hc'
  have hlen : cs.length = cs'.length := by simpa using congrArg List.length hpos
  have hi' : i < cs'.length := by omega
  have hk : cs[i].posInElements = cs'[i].posInElements := by
    have := congrArg (fun l => l[i]?) hpos
    simpa [hi, hi'] using this
  have hm := List.getElem_mem hi
  have hm' := List.getElem_mem hi'
  obtain ⟨h1, h2⟩ := of_place hE hp hs hs' _ (hc.sound _ hm)
  have hb := hc.before _ hm
  have hb' := hc'.before _ hm'
  have ha := hc.after _ hm
  have ha' := hc'.after _ hm'
  rw [← hk] at hb' ha'
  have hmem : cs[i].elementAfter ∈ s.drop cs[i].posInElements := List.mem_iff_getElem?.mpr ⟨0, by simpa using ha⟩
  have hmem' : cs'[i].elementAfter ∈ s'.drop cs[i].posInElements := List.mem_iff_getElem?.mpr ⟨0, by simpa using ha'⟩
  have hleast : ∀ (t : List α) (k : ℕ) (x : α), t.Pairwise (fun a b => first a ≤ first b) → t[k]? = some x →
      ∀ y ∈ t.drop k, first x ≤ first y := by
    intro t k x ht hx y hy
    obtain ⟨hk, rfl⟩ := List.getElem?_eq_some_iff.mp hx
    obtain ⟨j, hj, rfl⟩ := List.mem_iff_getElem.mp hy
    rw [List.getElem_drop]
    rcases Nat.eq_zero_or_pos j with rfl | hj0
    · exact le_refl _
    · exact List.pairwise_iff_getElem.mp ht k (k + j) hk _ (by omega)
  refine ⟨cs[i], cs'[i], List.getElem?_eq_getElem hi, List.getElem?_eq_getElem hi', List.mem_of_mem_take hb.1, List.mem_of_mem_drop hmem,
    hp.mem_iff.mpr (List.mem_of_mem_take hb'.1), hp.mem_iff.mpr (List.mem_of_mem_drop hmem'), ?_, ?_⟩
  · exact le_antisymm (hb'.2 _ (h1.mem_iff.mp hb.1)) (hb.2 _ (h1.mem_iff.mpr hb'.1))
  · exact le_antisymm (hleast s _ _ hs ha _ (h2.mem_iff.mpr hmem')) (hleast s' _ _ hs' ha' _ (h2.mem_iff.mp hmem))

/-- The elements that share an edge agree on everything the primary cuts look at. -/
structure TiesAlike (st : Stats) (x : Extent) (es : List RElem) : Prop where
  left : TiesAgree (fun e => e.pos.leftX) (fun e => Turned e ∨ HighSeparator st x e) es
  right : TiesAgree (fun e => e.pos.rightX) (fun e => Turned e ∨ HighSeparator st x e) es
  upper : TiesAgree (fun e => e.pos.upperY) (WideSeparator st x) es
  lower : TiesAgree (fun e => e.pos.lowerY) (WideSeparator st x) es
  upperRole : ∀ r ∈ [Role.title, .authorInfo, .marginal], TiesAgree (fun e => e.pos.upperY) (fun e => ∃ u p, e = .block u r p) es
  lowerRole : ∀ r ∈ [Role.title, .authorInfo, .marginal], TiesAgree (fun e => e.pos.lowerY) (fun e => ∃ u p, e = .block u r p) es

theorem TiesAlike.mono {st : Stats} {x : Extent} {es g : List RElem} (h : TiesAlike st x es) (hs : ∀ e ∈ g, e ∈ es) : TiesAlike st x g :=
  ⟨fun a ha b hb => h.left a (hs a ha) b (hs b hb), fun a ha b hb => h.right a (hs a ha) b (hs b hb),
   fun a ha b hb => h.upper a (hs a ha) b (hs b hb), fun a ha b hb => h.lower a (hs a ha) b (hs b hb),
   fun r hr a ha b hb => h.upperRole r hr a (hs a ha) b (hs b hb), fun r hr a ha b hb => h.lowerRole r hr a (hs a ha) b (hs b hb)⟩

theorem of_ne_nil {t : List α} {k : ℕ} {x : α} (h : t[k]? = some x) : t ≠ [] := by
  rintro rfl; simp at h

theorem of_primaryX {lib lib' : Lib RElem} (hl : LibContract RElem.pos lib) (hl' : LibContract RElem.pos lib') {n : ℕ} (hn : n ≤ 3)
    {es es' : List RElem} (hp : GoodElems RElem.pos n es) (he : es.Perm es') (st : Stats) (x : Extent) (ht : TiesAlike st x es) :
    ∀ i < (xCandidates RElem.pos lib 0 0 es).length,
      choosePrimaryXCuts st x (xCandidates RElem.pos lib 0 0 es) (lib.sortLeftX es) i =
      choosePrimaryXCuts st x (xCandidates RElem.pos lib' 0 0 es') (lib'.sortLeftX es') i := by
  intro i hi
  have hp' := hp.perm he.symm
  obtain ⟨h1, h2⟩ := pairwise_leftX hl hn hp.parsed
  obtain ⟨h1', h2'⟩ := pairwise_leftX hl' hn hp'.parsed
  have hC := of_xCands hl hn hp
  have hC' := of_xCands hl' hn hp'
  obtain ⟨c, c', hc, hc', m1, m2, m3, m4, e1, e2⟩ := of_neighbours (of_extX (hp.perm h1)) ((h1.trans he).trans h1'.symm) h2 h2' hC hC' i hi
  rw [Bool.eq_iff_iff, c57_primary_x_iff st x _ _ (of_ne_nil (hC.after c (List.mem_of_getElem? hc))) i c hc,
    c57_primary_x_iff st x _ _ (of_ne_nil (hC'.after c' (List.mem_of_getElem? hc'))) i c' hc']
  have q1 := ht.right _ (h1.mem_iff.mp m1) _ (h1.mem_iff.mp m3) e1
  have q2 := ht.left _ (h1.mem_iff.mp m2) _ (h1.mem_iff.mp m4) e2
  constructor
  · rintro (h | h | h | h)
    · rcases q1.mp (.inl h) with h | h <;> simp [h]
    · rcases q2.mp (.inl h) with h | h <;> simp [h]
    · rcases q1.mp (.inr h) with h | h <;> simp [h]
    · rcases q2.mp (.inr h) with h | h <;> simp [h]
  · rintro (h | h | h | h)
    · rcases q1.mpr (.inl h) with h | h <;> simp [h]
    · rcases q2.mpr (.inl h) with h | h <;> simp [h]
    · rcases q1.mpr (.inr h) with h | h <;> simp [h]
    · rcases q2.mpr (.inr h) with h | h <;> simp [h]

theorem of_primaryY {lib lib' : Lib RElem} (hl : LibContract RElem.pos lib) (hl' : LibContract RElem.pos lib') {n : ℕ} (hn : n ≤ 3)
    {es es' : List RElem} (hp : GoodElems RElem.pos n es) (he : es.Perm es') (st : Stats) (x : Extent) (ht : TiesAlike st x es) :
    ∀ i < (yCandidates RElem.pos lib 0 es).length,
      choosePrimaryYCuts st x (yCandidates RElem.pos lib 0 es) (lib.sortUpperY es) i =
      choosePrimaryYCuts st x (yCandidates RElem.pos lib' 0 es') (lib'.sortUpperY es') i := by
  intro i hi
  have hp' := hp.perm he.symm
  obtain ⟨h1, h2⟩ := pairwise_upperY hl hn hp.parsed
  obtain ⟨h1', h2'⟩ := pairwise_upperY hl' hn hp'.parsed
  have hC := of_yCands hl hn hp
  have hC' := of_yCands hl' hn hp'
  obtain ⟨c, c', hc, hc', m1, m2, m3, m4, e1, e2⟩ := of_neighbours (of_extY (hp.perm h1)) ((h1.trans he).trans h1'.symm) h2 h2' hC hC' i hi
  rw [Bool.eq_iff_iff, c57_primary_y_iff st x _ _ (of_ne_nil (hC.after c (List.mem_of_getElem? hc))) i c hc,
    c57_primary_y_iff st x _ _ (of_ne_nil (hC'.after c' (List.mem_of_getElem? hc'))) i c' hc']
  have r1 : ∀ r ∈ [Role.title, .authorInfo, .marginal], ((∃ u p, c.elementBefore = .block u r p) ↔ ∃ u p, c'.elementBefore = .block u r p) := fun r hr => ht.lowerRole r hr _ (h1.mem_iff.mp m1) _ (h1.mem_iff.mp m3) e1
  have r2 : ∀ r ∈ [Role.title, .authorInfo, .marginal], ((∃ u p, c.elementAfter = .block u r p) ↔ ∃ u p, c'.elementAfter = .block u r p) := fun r hr => ht.upperRole r hr _ (h1.mem_iff.mp m2) _ (h1.mem_iff.mp m4) e2
  rw [ht.lower _ (h1.mem_iff.mp m1) _ (h1.mem_iff.mp m3) e1, ht.upper _ (h1.mem_iff.mp m2) _ (h1.mem_iff.mp m4) e2]
  refine or_congr ?_ Iff.rfl
  constructor
  · rintro ⟨r, hr, h⟩
    refine ⟨r, hr, ?_⟩
    rwa [← r1 r hr, ← r2 r hr]
  · rintro ⟨r, hr, h⟩
    refine ⟨r, hr, ?_⟩
    rwa [r1 r hr, r2 r hr]

theorem of_flatMap {f f' : List RElem → List (List RElem)} :
    ∀ {gs gs' : List (List RElem)}, SameGroups gs gs' → (∀ g ∈ gs, ∀ g', g.Perm g' → SameGroups (f g) (f' g')) →
      SameGroups (gs.flatMap f) (gs'.flatMap f') := by
  intro gs gs' h
  induction h with
  | nil => intro _; exact List.Forall₂.nil
  | @cons g g' gs gs' hg _ ih =>
    intro hf
    rw [List.flatMap_cons, List.flatMap_cons]
    exact List.rel_append (hf g (by simp) g' hg) (ih fun x hx => hf x (by simp [hx]))

/-- The groups of a page do not depend on the order of its elements. -/
theorem of_pageGroups {lib lib' : Lib RElem} (hl : LibContract RElem.pos lib) (hl' : LibContract RElem.pos lib') {n : ℕ} (hn : n ≤ 3)
    {es es' : List RElem} (hp : GoodElems RElem.pos n es) (he : es.Perm es') (st : Stats)
    (hx : es.foldl Extent.add {} = es'.foldl Extent.add {}) (ht : TiesAlike st (es.foldl Extent.add {}) es) :
    SameGroups (pageGroups st lib es) (pageGroups st lib' es') := by
  unfold pageGroups
  simp only
  rw [← hx]
  generalize es.foldl Extent.add {} = x at *
  have hX := of_xCut hl hl' hn hp he _ _ (of_primaryX hl hl' hn hp he st x ht)
  refine of_flatMap hX.1 ?_
  intro g hg g' hgp
  have hs : ∀ e ∈ g, e ∈ es := by
    intro e hem
    by_cases hne : es = []
    · subst hne; simp [(c17_empty RElem.pos lib minXCutGapWidth 0 _).1] at hg
    exact (c17_xCut_partition RElem.pos lib 0 0 _ es (pairwise_leftX hl hn hp.parsed).1 hne).perm.mem_iff.mp (List.mem_flatten.mpr ⟨g, hg, hem⟩)
  have hgood := (good_of_xGroup hl hn hp _ g hg).1
  unfold divideXGroup
  have hY := of_yCut hl hl' hn hgood hgp _ _ (of_primaryY hl hl' hn hgood hgp st x (ht.mono hs))
  refine of_flatMap hY.1 ?_
  intro g2 hg2 g2' hgp2
  exact of_xyCut hl hl' hn (good_of_yGroup hl hn hgood _ g2 hg2).1 hgp2

/-! ## The printed order -/

section swaps
variable {key : α → ℚ}

theorem of_swaps_trans {a b c : List α} (h1 : TieSwaps key a b) (h2 : TieSwaps key b c) : TieSwaps key a c := by
  induction h2 with
  | refl => exact h1
  | swap xs x y ys hk _ ih => exact .swap xs x y ys hk ih

theorem of_swaps_append {l l' : List α} (p q : List α) (h : TieSwaps key l l') : TieSwaps key (p ++ l ++ q) (p ++ l' ++ q) := by
  induction h with
  | refl => exact .refl
  | swap xs x y ys hk _ ih =>
    have e : ∀ x y : α, p ++ (xs ++ x :: y :: ys) ++ q = (p ++ xs) ++ x :: y :: (ys ++ q) := by intro x y; simp
    rw [e] at ih ⊢
    exact .swap _ x y _ hk ih

theorem of_swaps_front (a : α) (v : List α) : ∀ u : List α, (∀ x ∈ u, key x = key a) → TieSwaps key (a :: (u ++ v)) (u ++ a :: v) := by
  intro u
  induction u with
  | nil => intro _; exact .refl
  | cons y u ih =>
    intro h
    have h1 : TieSwaps key (a :: y :: (u ++ v)) (y :: a :: (u ++ v)) :=
      .swap [] a y (u ++ v) (h y (by simp)).symm .refl
    have h2 := of_swaps_append [y] [] (ih fun x hx => h x (by simp [hx]))
    simp only [List.append_nil, List.singleton_append] at h2
    exact of_swaps_trans h1 h2

theorem of_swaps_sorted : ∀ {l l' : List α}, l.Perm l' → l.Pairwise (fun a b => key a ≤ key b) → l'.Pairwise (fun a b => key a ≤ key b) →
    TieSwaps key l l' := by
  intro l
  induction l with
  | nil => intro l' hp _ _; rw [List.nil_perm.mp hp]; exact .refl
  | cons a t ih =>
    intro l' hp hs hs'
    obtain ⟨u, v, rfl⟩ := List.append_of_mem (hp.mem_iff.mp (List.mem_cons_self))
    have hp2 : t.Perm (u ++ v) := (List.perm_cons a).mp (hp.trans List.perm_middle)
    have hs1 := List.pairwise_cons.mp hs
    have hsa := List.pairwise_append.mp hs'
    have hk : ∀ x ∈ u, key x = key a := by
      intro x hx
      exact le_antisymm (hsa.2.2 x hx a (by simp)) (hs1.1 x (hp2.mem_iff.mpr (by simp [hx])))
    have h1 := of_swaps_append [a] [] (ih hp2 hs1.2 (hs'.sublist ((List.Sublist.refl u).append (List.sublist_cons_self a v))))
    simp only [List.append_nil, List.singleton_append] at h1
    exact of_swaps_trans h1 (of_swaps_front a v u hk)

theorem of_swaps_eq {l l' : List α} (h : TieSwaps key l l') (hd : ∀ xs a b ys, l = xs ++ a :: b :: ys → key a ≠ key b) : l' = l := by
  induction h with
  | refl => rfl
  | swap xs a b ys hk _ ih => exact absurd hk (hd xs a b ys ih.symm)

end swaps

/-- **C79 (general form).** The blocks of a page are printed in the same order, whatever the order in which the page elements were found and
whatever the sorting routines do with ties, except that neighbouring blocks with the same upper edge may be exchanged. -/
theorem of_pageOrder (st : Stats) {lib lib' : Lib RElem} (hl : LibContract RElem.pos lib) (hl' : LibContract RElem.pos lib') {n : ℕ}
    (hn : n ≤ 3) {sort sort' : List RElem → List RElem} (hs : SortContract topFirst sort) (hs' : SortContract topFirst sort')
    {blocks figures shapes blocks' figures' shapes' : List RElem} (he : (blocks ++ figures ++ shapes).Perm (blocks' ++ figures' ++ shapes'))
    (hp : GoodElems RElem.pos n (blocks ++ figures ++ shapes))
    (hx : (blocks ++ figures ++ shapes).foldl Extent.add {} = (blocks' ++ figures' ++ shapes').foldl Extent.add {})
    (ht : TiesAlike st ((blocks ++ figures ++ shapes).foldl Extent.add {}) (blocks ++ figures ++ shapes)) :
    TieSwaps (fun e => e.pos.upperY) (pageOrder st lib sort blocks figures shapes) (pageOrder st lib' sort' blocks' figures' shapes') := by
  have hG := of_pageGroups hl hl' hn hp he st hx ht
  unfold pageOrder
  generalize pageGroups st lib (blocks ++ figures ++ shapes) = gs at hG
  generalize pageGroups st lib' (blocks' ++ figures' ++ shapes') = gs' at hG
  induction hG with
  | nil => exact .refl
  | @cons g g' gs gs' hg _ ih =>
    rw [List.flatMap_cons, List.flatMap_cons]
    obtain ⟨a1, a2⟩ := hs g (swo_topFirst g)
    obtain ⟨b1, b2⟩ := hs' g' (swo_topFirst g')
    have hsrt : ∀ {l : List RElem}, l.Pairwise (fun a b => topFirst b a = false) → (l.filter (·.isBlock)).Pairwise (fun a b => a.pos.upperY ≤ b.pos.upperY) :=
      fun h => (h.imp fun h => by simpa [topFirst] using h).filter _
    have h1 : TieSwaps (fun e : RElem => e.pos.upperY) ((sort g).filter (·.isBlock)) ((sort' g').filter (·.isBlock)) :=
      of_swaps_sorted (((a1.trans hg).trans b1.symm).filter _) (hsrt a2) (hsrt b2)
    have h2 := of_swaps_append [] (gs.flatMap fun g => (sort g).filter (·.isBlock)) h1
    have h3 := of_swaps_append ((sort' g').filter (·.isBlock)) [] ih
    simp only [List.nil_append, List.append_nil] at h2 h3
    exact of_swaps_trans h2 h3

/-- A page element that forces a vertical cut next to it: a turned text block, or a figure or shape that is high and crosses the middle between `top` and `bottom`. -/
def ForcesVertical (st : Stats) (top bottom : ℚ) (e : RElem) : Prop := Turned e ∨ CrossesMiddle st top bottom e

/-- The page elements that share the left or the right edge agree on whether they force a vertical cut, and those that share the upper or the lower
edge agree on whether they are wide separators, titles, author information and marginals. -/
structure EdgesAgree (st : Stats) (left top right bottom : ℚ) (es : List RElem) : Prop where
  vertical : ∀ edge ∈ [fun e : RElem => e.pos.leftX, fun e => e.pos.rightX], TiesAgree edge (ForcesVertical st top bottom) es
  horizontal : ∀ edge ∈ [fun e : RElem => e.pos.upperY, fun e => e.pos.lowerY], TiesAgree edge (CrossesMiddleX st left right) es ∧
    ∀ r ∈ [Role.title, .authorInfo, .marginal], TiesAgree edge (fun e => ∃ u p, e = .block u r p) es

theorem of_least_perm {es es' : List RElem} (he : es.Perm es') {f : RElem → ℚ} {v : ℚ} (h : IsLeastOf es f v) : IsLeastOf es' f v := by
  obtain ⟨⟨x, hx, hv⟩, h2⟩ := h
  exact ⟨⟨x, he.mem_iff.mp hx, hv⟩, fun y hy => h2 y (he.mem_iff.mpr hy)⟩

theorem of_greatest_perm {es es' : List RElem} (he : es.Perm es') {f : RElem → ℚ} {v : ℚ} (h : IsGreatestOf es f v) : IsGreatestOf es' f v := by
  obtain ⟨⟨x, hx, hv⟩, h2⟩ := h
  exact ⟨⟨x, he.mem_iff.mp hx, hv⟩, fun y hy => h2 y (he.mem_iff.mpr hy)⟩

/-- **C79 (order independence).** Take the same blocks, figures and shapes in two orders, and two sets of sorting routines that treat ties in any way.
If elements with a common edge agree on what makes a primary cut, both runs print the blocks in the same order, except that neighbouring blocks with the same upper edge may be exchanged. -/
theorem c79_order_independent (st : Stats) {lib lib' : Lib RElem} (hl : LibContract RElem.pos lib) (hl' : LibContract RElem.pos lib') {n : ℕ}
    (hn : n ≤ 3) {sort sort' : List RElem → List RElem} (hs : SortContract topFirst sort) (hs' : SortContract topFirst sort')
    {blocks figures shapes blocks' figures' shapes' : List RElem} (hb : blocks.Perm blocks') (hf : figures.Perm figures') (hsh : shapes.Perm shapes')
    {es : List RElem} (hes : es = blocks ++ figures ++ shapes) (hp : GoodElems RElem.pos n es)
    (hbound : ∀ e ∈ es, e.pos.leftX ≤ dblMax ∧ e.pos.upperY ≤ dblMax ∧ dblMin ≤ e.pos.rightX ∧ dblMin ≤ e.pos.lowerY)
    {left top right bottom : ℚ} (h1 : IsLeastOf es (·.pos.leftX) left) (h2 : IsLeastOf es (·.pos.upperY) top)
    (h3 : IsGreatestOf es (·.pos.rightX) right) (h4 : IsGreatestOf es (·.pos.lowerY) bottom) (ht : EdgesAgree st left top right bottom es) :
    TieSwaps (fun e => e.pos.upperY) (pageOrder st lib sort blocks figures shapes) (pageOrder st lib' sort' blocks' figures' shapes') := by
  have he : (blocks ++ figures ++ shapes).Perm (blocks' ++ figures' ++ shapes') := (hb.append hf).append hsh
  subst hes
  have e1 := pr_extent _ hbound h1 h2 h3 h4
  have e2 := pr_extent (blocks' ++ figures' ++ shapes') (fun e hm => hbound e (he.mem_iff.mpr hm)) (of_least_perm he h1) (of_least_perm he h2)
    (of_greatest_perm he h3) (of_greatest_perm he h4)
  refine of_pageOrder st hl hl' hn hs hs' he hp (e1.trans e2.symm) ?_
  rw [e1]
  exact ⟨ht.vertical _ (by simp), ht.vertical _ (by simp), (ht.horizontal _ (by simp)).1, (ht.horizontal _ (by simp)).1,
    (ht.horizontal _ (by simp)).2, (ht.horizontal _ (by simp)).2⟩

/-- **C79 (same order).** If, in addition, no two blocks printed one after the other have the same upper edge, both runs print exactly the same sequence of blocks. -/
theorem c79_same_order (st : Stats) {lib lib' : Lib RElem} (hl : LibContract RElem.pos lib) (hl' : LibContract RElem.pos lib') {n : ℕ}
    (hn : n ≤ 3) {sort sort' : List RElem → List RElem} (hs : SortContract topFirst sort) (hs' : SortContract topFirst sort')
    {blocks figures shapes blocks' figures' shapes' : List RElem} (hb : blocks.Perm blocks') (hf : figures.Perm figures') (hsh : shapes.Perm shapes')
    {es : List RElem} (hes : es = blocks ++ figures ++ shapes) (hp : GoodElems RElem.pos n es)
    (hbound : ∀ e ∈ es, e.pos.leftX ≤ dblMax ∧ e.pos.upperY ≤ dblMax ∧ dblMin ≤ e.pos.rightX ∧ dblMin ≤ e.pos.lowerY)
    {left top right bottom : ℚ} (h1 : IsLeastOf es (·.pos.leftX) left) (h2 : IsLeastOf es (·.pos.upperY) top)
    (h3 : IsGreatestOf es (·.pos.rightX) right) (h4 : IsGreatestOf es (·.pos.lowerY) bottom) (ht : EdgesAgree st left top right bottom es)
    (hd : ∀ xs a b ys, pageOrder st lib sort blocks figures shapes = xs ++ a :: b :: ys → a.pos.upperY ≠ b.pos.upperY) :
    pageOrder st lib' sort' blocks' figures' shapes' = pageOrder st lib sort blocks figures shapes :=
  of_swaps_eq (c79_order_independent st hl hl' hn hs hs' hb hf hsh hes hp hbound h1 h2 h3 h4 ht) hd

/-! ### Examples -/

/-- A page with a block at the left, a title and a block at the right, and two figures at the right that begin at the same left edge, one of them high. -/
def exTied : List RElem × List RElem × List RElem :=
  ([.block 0 .paragraph (boxAt 1 20 80 200), .block 1 .title (boxAt 120 1 180 10), .block 2 .paragraph (boxAt 120 155 180 200)],
   [.figure 3 (boxAt 100 20 130 150), .figure 4 (boxAt 100 160 105 170)], [])

/-- **C79 (refuted without the agreement; finding).** The figures of `exTied` share their left edge, but only one of them forces a vertical cut: with one and the same
sorting routine, whether the title or the left block is printed first depends on which of the two figures was drawn first. -/
theorem c79_ties_matter_refuted : ∃ (st : Stats) (lib : Lib RElem) (sort : List RElem → List RElem) (blocks figures figures' : List RElem),
    LibContract RElem.pos lib ∧ SortContract topFirst sort ∧ figures.Perm figures' ∧ GoodElems RElem.pos 1 (blocks ++ figures) ∧
    (pageOrder st lib sort blocks figures []).map (fun e => e.pos.upperY) = [20, 1, 155] ∧
    (pageOrder st lib sort blocks figures' []).map (fun e => e.pos.upperY) = [1, 20, 155] := by
  refine ⟨{ avgCharWidth := 5, avgCharHeight := 10 }, refLib RElem.pos, Spec.insSort topFirst, exTied.1, exTied.2.1, exTied.2.1.reverse,
    refLib_contract _, insSort_contract _, (List.reverse_perm _).symm, ⟨?_, ?_⟩, ?_, ?_⟩
  · intro e he
    simp only [exTied, List.cons_append, List.nil_append, List.mem_cons, List.not_mem_nil, or_false] at he
    rcases he with rfl | rfl | rfl | rfl | rfl <;> exact boxAt_parsed _ _ _ _ (by norm_num) (by norm_num)
  · norm_num [exTied, Clear, RElem.pos, boxAt]
  · decide +kernel
  · decide +kernel

/-- Title, two columns and a turned note in the margin. -/
def exUntied : List RElem :=
  [ .block 0 .paragraph (boxAt 70 80 110 100), .block 1 .paragraph (boxAt 20 30 60 100), .block 2 .title (boxAt 20 10 110 20),
    .block 3 .paragraph (boxAt 70 30 110 70), .block 4 .marginal { boxAt 1 12 8 90 with rotation := 1 } ]

/-- Non-vacuity: the page `exUntied` satisfies the hypotheses of `c79_order_independent`. -/
theorem of_exUntied : GoodElems RElem.pos 1 exUntied ∧
    (∀ e ∈ exUntied, e.pos.leftX ≤ dblMax ∧ e.pos.upperY ≤ dblMax ∧ dblMin ≤ e.pos.rightX ∧ dblMin ≤ e.pos.lowerY) ∧
    IsLeastOf exUntied (·.pos.leftX) 1 ∧ IsLeastOf exUntied (·.pos.upperY) 10 ∧ IsGreatestOf exUntied (·.pos.rightX) 110 ∧
    IsGreatestOf exUntied (·.pos.lowerY) 100 ∧ EdgesAgree { avgCharWidth := 1, avgCharHeight := 1 } 1 10 110 100 exUntied := by
  refine ⟨⟨?_, ?_⟩, ?_, ?_, ?_, ?_, ?_, ?_⟩
  · intro e he
    simp only [exUntied, List.mem_cons, List.not_mem_nil, or_false] at he
    rcases he with rfl | rfl | rfl | rfl | rfl
    · exact boxAt_parsed _ _ _ _ (by norm_num) (by norm_num)
    · exact boxAt_parsed _ _ _ _ (by norm_num) (by norm_num)
    · exact boxAt_parsed _ _ _ _ (by norm_num) (by norm_num)
    · exact boxAt_parsed _ _ _ _ (by norm_num) (by norm_num)
    · have h := boxAt_parsed 1 12 8 90 (by norm_num) (by norm_num)
      exact ⟨h.rounded, ⟨by simp [RElem.pos], by simp [RElem.pos]⟩, h.wide, h.tall⟩
  · norm_num [exUntied, Clear, RElem.pos, boxAt]
  · decide +kernel
  · exact ⟨⟨exUntied[4], by simp [exUntied], by decide +kernel⟩, by decide +kernel⟩
  · exact ⟨⟨exUntied[2], by simp [exUntied], by decide +kernel⟩, by decide +kernel⟩
  · exact ⟨⟨exUntied[0], by simp [exUntied], by decide +kernel⟩, by decide +kernel⟩
  · exact ⟨⟨exUntied[0], by simp [exUntied], by decide +kernel⟩, by decide +kernel⟩
  · constructor
    · norm_num [exUntied, TiesAgree, ForcesVertical, Turned, CrossesMiddle, RElem.pos, RElem.isBlock, boxAt]
    · norm_num [exUntied, TiesAgree, CrossesMiddleX, RElem.pos, RElem.isBlock, boxAt]

example : (pageOrder { avgCharWidth := 1, avgCharHeight := 1 } (refLib RElem.pos) (Spec.insSort topFirst) exUntied [] []).map (fun e => e.pos.upperY) =
      [12, 10, 30, 30, 80] := by decide +kernel

/-- Non-vacuity of `c79_same_order`: the same page without the right column, in two orders. -/
example : ∃ es es' : List RElem, es.Perm es' ∧ es ≠ es' ∧
    (∀ xs a b ys, pageOrder { avgCharWidth := 1, avgCharHeight := 1 } (refLib RElem.pos) (Spec.insSort topFirst) es [] [] = xs ++ a :: b :: ys →
      a.pos.upperY ≠ b.pos.upperY) ∧
    pageOrder { avgCharWidth := 1, avgCharHeight := 1 } (refLib RElem.pos) (Spec.insSort topFirst) es' [] [] =
      pageOrder { avgCharWidth := 1, avgCharHeight := 1 } (refLib RElem.pos) (Spec.insSort topFirst) es [] [] := by
  refine ⟨exUntied.take 3, (exUntied.take 3).reverse, (List.reverse_perm _).symm, by decide +kernel, ?_, by decide +kernel⟩
  intro xs a b ys h
  have h0 : pageOrder { avgCharWidth := 1, avgCharHeight := 1 } (refLib RElem.pos) (Spec.insSort topFirst) (exUntied.take 3) [] [] =
      [exUntied[2], exUntied[1], exUntied[0]] := by decide +kernel
  rw [h0] at h
  have hk : ([10, 30, 80] : List ℚ) = (xs ++ a :: b :: ys).map (·.pos.upperY) := by rw [← h]; decide +kernel
  rw [List.map_append, List.map_cons, List.map_cons] at hk
  have hsub : List.Sublist [a.pos.upperY, b.pos.upperY] ([10, 30, 80] : List ℚ) := by
    rw [hk]
    exact (((List.nil_sublist _).cons_cons _).cons_cons _).trans (List.sublist_append_right _ _)
  have hlt : ([10, 30, 80] : List ℚ).Pairwise (· < ·) := by decide +kernel
  have := hlt.sublist hsub
  exact ne_of_lt ((List.pairwise_cons.mp this).1 _ (by simp))

end Verif.Props

import Verif.Model.Counter
import Verif.Model.PriorityQueue
import Verif.Spec.Order
import Verif.Props.Geometry
import Mathlib.Data.List.Perm.Basic
import Mathlib.Data.List.Count
import Mathlib.Data.List.Nodup

/-!
# Property theorems C07 - C09 (counters, bounded priority queue)
-/

namespace Verif.Props

open Verif Verif.Math Verif.Counter Verif.Spec

/-! ## C07 -/

theorem foldl_mostFreq_ge {κ : Type} (entries : Entries κ) (b : κ × ℕ) :
    b.2 ≤ (entries.foldl mostFreqStep b).2 ∧
    (∀ e ∈ entries, e.2 ≤ (entries.foldl mostFreqStep b).2) ∧
    (entries.foldl mostFreqStep b = b ∨ entries.foldl mostFreqStep b ∈ entries) := by
  induction entries generalizing b with
  | nil => simp
  | cons e es ih =>
    obtain ⟨h1, h2, h3⟩ := ih (mostFreqStep b e)
    have hb : b.2 ≤ (mostFreqStep b e).2 ∧ e.2 ≤ (mostFreqStep b e).2 := by
      unfold mostFreqStep; split <;> omega
    refine ⟨?_, ?_, ?_⟩
    · exact hb.1.trans h1
    · intro x hx
      rcases List.mem_cons.mp hx with rfl | hx
      · exact hb.2.trans h1
      · exact h2 x hx
    · rcases h3 with h3 | h3
      · simp only [List.foldl_cons]
        rw [h3]
        unfold mostFreqStep
        split
        · right; simp
        · left; rfl
      · right; exact List.mem_cons_of_mem _ h3

/-- C07: an error is raised exactly when no key has a positive count. -/
theorem c07_throws_iff {κ : Type} (d : κ) (entries : Entries κ) :
    (mostFreqAndCount d entries).isThrow = true ↔ ∀ e ∈ entries, e.2 = 0 := by
  obtain ⟨_, h2, h3⟩ := foldl_mostFreq_ge entries (d, 0)
  unfold mostFreqAndCount
  simp only
  split
  · next h =>
    refine ⟨fun _ e he => ?_, fun _ => rfl⟩
    have := h2 e he; omega
  · next h =>
    refine ⟨fun hf => by simp [Outcome.isThrow] at hf, fun hf => ?_⟩
    rcases h3 with h3 | h3
    · rw [h3] at h; exact absurd rfl h
    · exact absurd (hf _ h3) h

/-- C07: whatever the iteration order, a returned pair is an entry of the counter with a positive
count and no entry has a larger count. -/
theorem c07_is_maximum {κ : Type} (d : κ) (entries : Entries κ) (k : κ) (c : ℕ)
    (h : mostFreqAndCount d entries = .ok (k, c)) :
    (k, c) ∈ entries ∧ 0 < c ∧ ∀ e ∈ entries, e.2 ≤ c := by
  obtain ⟨_, h2, h3⟩ := foldl_mostFreq_ge entries (d, 0)
  unfold mostFreqAndCount at h
  simp only at h
  split at h
  · cases h
  · next h0 =>
    have e := Outcome.ok.inj h
    rw [e] at h2 h3 h0
    refine ⟨?_, Nat.pos_of_ne_zero h0, h2⟩
    rcases h3 with h3 | h3
    · rw [h3] at h0; exact absurd rfl h0
    · exact h3

/-- C07: when one key strictly dominates, the result does not depend on the iteration order. -/
theorem c07_order_independent {κ : Type} (d : κ) (entries entries' : Entries κ)
    (hp : entries.Perm entries') (k : κ) (c : ℕ) (hk : (k, c) ∈ entries) (hc : 0 < c)
    (hdom : ∀ e ∈ entries, e ≠ (k, c) → e.2 < c) :
    mostFreqAndCount d entries' = .ok (k, c) := by
  have hk' : (k, c) ∈ entries' := hp.subset hk
  cases hm : mostFreqAndCount d entries' with
  | ok p =>
    obtain ⟨k', c'⟩ := p
    obtain ⟨g1, _, g3⟩ := c07_is_maximum d entries' k' c' hm
    by_contra hne
    have hne' : (k', c') ≠ (k, c) := fun h => hne (by rw [h])
    have := hdom _ (hp.symm.subset g1) hne'
    have := g3 _ hk'
    simp at *
    omega
  | throw m =>
    have : (mostFreqAndCount d entries').isThrow = true := by rw [hm]; rfl
    have := (c07_throws_iff d entries').mp this _ hk'
    simp at this; omega
  | ub w =>
    unfold mostFreqAndCount at hm
    simp only at hm
    split at hm <;> cases hm

/-- The entries list the distinct elements of `xs` with their number of occurrences (in any
order). -/
def IsCounterOf {κ : Type} [DecidableEq κ] (xs : List κ) (entries : Entries κ) : Prop :=
  (entries.map Prod.fst).Nodup ∧ (∀ k c, (k, c) ∈ entries ↔ k ∈ xs ∧ c = xs.count k)

/-- C07: `mostFreq` and `mostFreqCount` are the two components of one and the same entry. -/
theorem c07_components {κ : Type} (d : κ) (entries : Entries κ) (k : κ) (c : ℕ) :
    mostFreqAndCount d entries = .ok (k, c) →
      mostFreq d entries = .ok k ∧ mostFreqCount d entries = .ok c := by
  intro h
  simp [mostFreq, mostFreqCount, h, Outcome.bind]

theorem mem_increment {κ : Type} [DecidableEq κ] (entries : Entries κ) (key : κ)
    (hn : (entries.map Prod.fst).Nodup) :
    ((increment entries key).map Prod.fst).Nodup ∧
    ∀ k c, (k, c) ∈ increment entries key ↔
      if k = key then (∃ c', (k, c') ∈ entries ∧ c = c' + 1) ∨ (k ∉ entries.map Prod.fst ∧ c = 1)
      else (k, c) ∈ entries := by
  induction entries with
  | nil =>
    refine ⟨by simp [increment], fun k c => ?_⟩
    by_cases hk : k = key <;> simp [increment, hk]
  | cons e es ih =>
    obtain ⟨ek, ec⟩ := e
    simp only [List.map_cons, List.nodup_cons] at hn
    obtain ⟨hi1, hi2⟩ := ih hn.2
    simp only [increment]
    by_cases hek : ek = key
    · subst hek
      simp only [if_true]
      refine ⟨by simpa using hn, fun k c => ?_⟩
      by_cases hk : k = ek
      · subst hk
        simp only [List.mem_cons, Prod.mk.injEq, true_and, if_true, List.map_cons, true_or,
          not_true_eq_false, false_and, or_false]
        constructor
        · rintro (h | h)
          · exact ⟨ec, Or.inl rfl, h⟩
          · exact absurd (List.mem_map_of_mem (f := Prod.fst) h) hn.1
        · rintro ⟨c', h | h, hc⟩
          · left; omega
          · exact absurd (List.mem_map_of_mem (f := Prod.fst) h) hn.1
      · simp [hk]
    · simp only [if_neg hek]
      refine ⟨?_, fun k c => ?_⟩
      · simp only [List.map_cons, List.nodup_cons]
        refine ⟨fun hmem => ?_, hi1⟩
        obtain ⟨⟨k, c⟩, hkc, hke⟩ := List.mem_map.mp hmem
        simp only at hke
        subst hke
        have := (hi2 k c).mp hkc
        rw [if_neg hek] at this
        exact hn.1 (List.mem_map_of_mem (f := Prod.fst) this)
      · rw [List.mem_cons, hi2 k c]
        by_cases hk : k = key
        · subst hk
          have : ek ≠ k := hek
          simp only [if_true, Prod.mk.injEq, List.mem_cons, List.map_cons]
          have hne : k ≠ ek := fun h => hek h.symm
          simp [hne]
        · simp [hk]

theorem countAll_snoc {κ : Type} [DecidableEq κ] (xs : List κ) (x : κ) :
    countAll (xs ++ [x]) = increment (countAll xs) x := by
  simp [countAll, List.foldl_append]

theorem isCounterOf_countAll {κ : Type} [DecidableEq κ] (xs : List κ) :
    IsCounterOf xs (countAll xs) := by
  induction xs using List.reverseRecOn with
  | nil => simp [IsCounterOf, countAll]
  | append_singleton xs x ih =>
    rw [countAll_snoc]
    obtain ⟨h1, h2⟩ := ih
    obtain ⟨g1, g2⟩ := mem_increment (countAll xs) x h1
    refine ⟨g1, fun k c => ?_⟩
    rw [g2 k c]
    have hkeys : ∀ k, k ∈ (countAll xs).map Prod.fst ↔ k ∈ xs := by
      intro k
      constructor
      · intro h
        obtain ⟨⟨k', c'⟩, hm, rfl⟩ := List.mem_map.mp h
        exact ((h2 _ _).mp hm).1
      · intro h
        exact List.mem_map_of_mem (f := Prod.fst) ((h2 k (xs.count k)).mpr ⟨h, rfl⟩)
    by_cases hk : k = x
    · subst hk
      simp only [if_true, List.mem_append, List.mem_singleton, or_true, true_and,
        List.count_append, List.count_singleton_self, hkeys]
      constructor
      · rintro (⟨c', hm, hc⟩ | ⟨hn, hc⟩)
        · have := ((h2 _ _).mp hm).2; omega
        · rw [List.count_eq_zero_of_not_mem hn]; omega
      · intro hc
        by_cases hm : k ∈ xs
        · left; exact ⟨xs.count k, (h2 _ _).mpr ⟨hm, rfl⟩, hc⟩
        · right; rw [List.count_eq_zero_of_not_mem hm] at hc; exact ⟨hm, by omega⟩
    · simp only [h2, List.mem_append, List.mem_singleton, hk, or_false,
        List.count_append, List.count_singleton]
      have : (x == k) = false := by simpa using fun h => hk h.symm
      simp [this]

/-- C07: a counter filled by counting the elements of a list returns, for every iteration order of
its hash table, an element that occurs most often, with its number of occurrences, and fails
exactly for the empty list. -/
theorem c07_most_frequent_element {κ : Type} [DecidableEq κ] (d : κ) (xs : List κ)
    (entries : Entries κ) (hp : entries.Perm (countAll xs)) :
    ((mostFreqAndCount d entries).isThrow = true ↔ xs = []) ∧
    ∀ k c, mostFreqAndCount d entries = .ok (k, c) →
      k ∈ xs ∧ c = xs.count k ∧ ∀ y ∈ xs, xs.count y ≤ xs.count k := by
  obtain ⟨_, h2⟩ := isCounterOf_countAll xs
  refine ⟨?_, ?_⟩
  · rw [c07_throws_iff]
    constructor
    · intro h
      by_contra hne
      obtain ⟨x, hx⟩ := List.exists_mem_of_ne_nil xs hne
      have hm := hp.symm.subset ((h2 x (xs.count x)).mpr ⟨hx, rfl⟩)
      have := h _ hm
      exact absurd this (List.count_pos_iff.mpr hx).ne'
    · rintro rfl e he
      have := hp.subset he
      simp [countAll] at this
  · intro k c h
    obtain ⟨g1, _, g3⟩ := c07_is_maximum d entries k c h
    obtain ⟨hk, hc⟩ := (h2 k c).mp (hp.subset g1)
    refine ⟨hk, hc, fun y hy => ?_⟩
    have := g3 _ (hp.symm.subset ((h2 y (xs.count y)).mpr ⟨hy, rfl⟩))
    rw [hc] at this; exact this

/-- C07: `mostFreq` and `mostFreqCount` are the two components, and `sumCounts` is the total number
of counted elements modulo 2^32, in any order. -/
theorem c07_sumCounts {κ : Type} [DecidableEq κ] (xs : List κ) (entries : Entries κ)
    (hp : entries.Perm (countAll xs)) : sumCounts entries = xs.length % 2 ^ 32 := by
  have hfold : ∀ (l : Entries κ) (s : ℕ),
      l.foldl (fun sum e => (sum + e.2) % 2 ^ 32) (s % 2 ^ 32) = (s + (l.map Prod.snd).sum) % 2 ^ 32 := by
    intro l
    induction l with
    | nil => intro s; simp
    | cons e es ih =>
      intro s
      simp only [List.foldl_cons, List.map_cons, List.sum_cons]
      have := ih (s + e.2)
      rw [Nat.add_mod, Nat.mod_mod, ← Nat.add_mod, this, Nat.add_assoc]
  have hinc : ∀ (l : Entries κ) (x : κ),
      ((increment l x).map Prod.snd).sum = (l.map Prod.snd).sum + 1 := by
    intro l x
    induction l with
    | nil => simp [increment]
    | cons e es ih =>
      simp only [increment]
      split
      · simp; omega
      · simp only [List.map_cons, List.sum_cons, ih]; omega
  have hsum : ((countAll xs).map Prod.snd).sum = xs.length := by
    induction xs using List.reverseRecOn with
    | nil => simp [countAll]
    | append_singleton xs x ih =>
      rw [countAll_snoc, hinc]
      have hx : ((countAll xs).map Prod.snd).sum = xs.length := by
        have : ∀ ys : List κ, ((countAll ys).map Prod.snd).sum = ys.length := by
          intro ys
          induction ys using List.reverseRecOn with
          | nil => simp [countAll]
          | append_singleton ys y ih' => rw [countAll_snoc, hinc, ih']; simp
        exact this xs
      rw [hx]; simp
  have := hfold entries 0
  simp only [Nat.zero_mod, Nat.zero_add] at this
  unfold sumCounts
  rw [this, (hp.map Prod.snd).sum_eq, hsum]

/-- Non-vacuity for C07: in the list "a b b" the most frequent element is "b". -/
example : mostFreqAndCount "" (countAll ["a", "b", "b"]) = .ok ("b", 2) := by decide

/-! ## C08 -/

theorem foldl_max_spec (entries : Entries ℚ) (st : ℚ × Bool) :
    let r := entries.foldl maxStep st
    (st.1 ≤ r.1) ∧ (∀ e ∈ entries, 0 < e.2 → e.1 ≤ r.1 + tol) ∧
    ((r = st ∧ ∀ e ∈ entries, 0 < e.2 → e.1 ≤ st.1 + tol) ∨
      (r.2 = true ∧ ∃ e ∈ entries, e.1 = r.1 ∧ 0 < e.2 ∧ st.1 + tol < e.1)) := by
  induction entries generalizing st with
  | nil => simp
  | cons e es ih =>
    have ht := tol_pos
    simp only [List.foldl_cons]
    obtain ⟨h1, h2, h3⟩ := ih (maxStep st e)
    by_cases hc : e.2 > 0 ∧ larger e.1 st.1 tol = true
    · have hs : maxStep st e = (e.1, true) := by unfold maxStep; rw [if_pos hc]
      rw [hs] at h1 h2 h3 ⊢
      have hgt := larger_iff.mp hc.2
      refine ⟨by simp only at h1; linarith, ?_, ?_⟩
      · intro x hx hx0
        rcases List.mem_cons.mp hx with rfl | hx
        · simp only at h1; linarith
        · exact h2 x hx hx0
      · right
        rcases h3 with ⟨h3, _⟩ | ⟨h3, y, hy, hy1, hy2, hy3⟩
        · rw [h3]; exact ⟨rfl, e, by simp, rfl, hc.1, hgt⟩
        · exact ⟨h3, y, by simp [hy], hy1, hy2, by simp only at hy3; linarith⟩
    · have hs : maxStep st e = st := by unfold maxStep; rw [if_neg hc]
      rw [hs] at h1 h2 h3 ⊢
      have he : 0 < e.2 → e.1 ≤ st.1 + tol := by
        intro h0
        have : ¬ larger e.1 st.1 tol = true := fun g => hc ⟨h0, g⟩
        rw [larger_iff] at this; linarith
      refine ⟨h1, ?_, ?_⟩
      · intro x hx hx0
        rcases List.mem_cons.mp hx with rfl | hx
        · have := he hx0; linarith
        · exact h2 x hx hx0
      · rcases h3 with ⟨h3, h3'⟩ | ⟨h3, y, hy, hy1, hy2, hy3⟩
        · left
          refine ⟨h3, fun x hx hx0 => ?_⟩
          rcases List.mem_cons.mp hx with rfl | hx
          · exact he hx0
          · exact h3' x hx hx0
        · right; exact ⟨h3, y, by simp [hy], hy1, hy2, hy3⟩

/-- C08: exact characterisation of the failure - `max` raises an error exactly when every key with a
positive count is at most `DBL_MIN + 1e-4` (not only when there is none, as documented). -/
theorem c08_throws_iff (entries : Entries ℚ) :
    (Counter.max entries).isThrow = true ↔ ∀ e ∈ entries, 0 < e.2 → e.1 ≤ dblMin + tol := by
  obtain ⟨_, _, h3⟩ := foldl_max_spec entries (dblMin, false)
  unfold Counter.max
  simp only at h3 ⊢
  rcases h3 with ⟨h, h'⟩ | ⟨h, e, he, _, he2, he3⟩
  · rw [h]; simp only [Bool.false_eq_true, if_false]
    exact ⟨fun _ => h', fun _ => rfl⟩
  · rw [h]; simp only [if_true]
    refine ⟨fun hf => by simp [Outcome.isThrow] at hf, fun hf => ?_⟩
    have := hf e he he2; linarith

/-- C08 (partial): if at least one counted key is at least 0.001 and all keys are decimals with at
most three places (font sizes are rounded to one), the result is the largest counted key, for
every iteration order.
Missing: counters whose counted keys are all below 0.0001 (zero, negative), see
`c08_nonpositive_keys_throw`, and keys closer than 0.0001, see `c08_close_keys_order_dependent`. -/
theorem c08_max_partial (n : ℕ) (hn : n ≤ 3) (entries : Entries ℚ)
    (hdec : ∀ e ∈ entries, IsDecimal n e.1) (k : ℚ) (c : ℕ) (hk : (k, c) ∈ entries)
    (hc : 0 < c) (hpos : 0 < k) (hmax : ∀ e ∈ entries, 0 < e.2 → e.1 ≤ k) :
    Counter.max entries = .ok k := by
  have hsmall : dblMin + tol < k := by
    have hlt : smaller 0 k tol = true :=
      (smaller_exact_of_decimal hn ⟨0, by simp⟩ (hdec _ hk)).mpr hpos
    obtain ⟨z, hz⟩ := hdec _ hk
    simp only at hz
    have h10 : (0 : ℚ) < 10 ^ n := by positivity
    have hz1 : 1 ≤ z := by
      have : (0 : ℚ) < z := by
        have := mul_pos hpos h10
        rw [hz, div_mul_cancel₀ _ h10.ne'] at this; exact this
      exact_mod_cast this
    have h3 : (10 : ℚ) ^ n ≤ 1000 := by
      calc (10 : ℚ) ^ n ≤ 10 ^ 3 := pow_le_pow_right₀ (by norm_num) hn
        _ = 1000 := by norm_num
    have h4 : (1 : ℚ) / 1000 ≤ k := by
      rw [hz]
      calc (1 : ℚ) / 1000 ≤ 1 / 10 ^ n := one_div_le_one_div_of_le h10 h3
        _ ≤ z / 10 ^ n := by
          apply (div_le_div_iff_of_pos_right h10).mpr; exact_mod_cast hz1
    have h5 : dblMin ≤ 1 / 10000 := by
      unfold dblMin
      apply one_div_le_one_div_of_le (by norm_num)
      calc (10000 : ℚ) ≤ 2 ^ 14 := by norm_num
        _ ≤ 2 ^ 1022 := pow_le_pow_right₀ (by norm_num) (by norm_num)
    have h6 : tol = 1 / 10000 := rfl
    linarith
  obtain ⟨_, h2, h3⟩ := foldl_max_spec entries (dblMin, false)
  unfold Counter.max
  simp only at h2 h3 ⊢
  rcases h3 with ⟨_, h'⟩ | ⟨h, e, he, he1, he2, _⟩
  · have := h' _ hk hc; simp only at this; linarith
  · rw [h]; simp only [if_true]
    congr 1
    have hle := hmax e he he2
    have hge := h2 _ hk hc
    simp only at hge
    rw [← he1] at hge ⊢
    have hnl : ¬ smaller e.1 k tol = true := by rw [smaller_iff]; linarith
    rw [smaller_exact_of_decimal hn (hdec _ he) (hdec _ hk)] at hnl
    linarith

/-- Non-vacuity for the hypotheses of `c08_max_partial`: font sizes 8.5 and 10. -/
example : IsDecimal 1 (17/2) ∧ IsDecimal 1 10 := ⟨⟨85, by norm_num⟩, ⟨100, by norm_num⟩⟩

/-- C08 (violated): a counter whose only key is 0, or negative, is non-empty with a positive count,
yet `max` raises "The counter is empty or all counts are == 0". -/
theorem c08_nonpositive_keys_throw (k : ℚ) (hk : k ≤ 0) (c : ℕ) :
    (Counter.max [(k, c + 1)]).isThrow = true := by
  rw [c08_throws_iff]
  intro e he _
  simp only [List.mem_singleton] at he
  subst he
  have : (0 : ℚ) ≤ dblMin := by unfold dblMin; positivity
  have := tol_pos
  simp only; linarith

/-- C08 (violated): for keys closer than the tolerance the result depends on the hash order and need
not be the largest key. -/
theorem c08_close_keys_order_dependent :
    Counter.max [(1, 1), (1 + 1/20000, 1)] = .ok 1 ∧
    Counter.max [(1 + 1/20000, 1), (1, 1)] = .ok (1 + 1/20000) := by
  have h : dblMin ≤ 1/2 := by
    unfold dblMin
    exact one_div_le_one_div_of_le (by norm_num) (by
      calc (2:ℚ) = 2 ^ 1 := by norm_num
        _ ≤ 2 ^ 1022 := pow_le_pow_right₀ (by norm_num) (by norm_num))
  have a1 : larger 1 dblMin tol = true := by rw [larger_iff]; norm_num [tol]; linarith
  have a2 : larger (1 + 1/20000) 1 tol = false := by rw [larger_false]; norm_num [tol]
  have b1 : larger (1 + 1/20000) dblMin tol = true := by rw [larger_iff]; norm_num [tol]; linarith
  have b2 : larger 1 (1 + 1/20000) tol = false := by rw [larger_false]; norm_num [tol]
  constructor
  · have s1 : maxStep (dblMin, false) (1, 1) = (1, true) := by simp [maxStep, a1]
    have s2 : maxStep (1, true) (1 + 1/20000, 1) = (1, true) := by
      unfold maxStep; rw [a2]; simp
    simp only [Counter.max, List.foldl_cons, List.foldl_nil, s1, s2, if_true]
  · have s1 : maxStep (dblMin, false) (1 + 1/20000, 1) = (1 + 1/20000, true) := by
      unfold maxStep; rw [b1]; simp
    have s2 : maxStep (1 + 1/20000, true) (1, 1) = (1 + 1/20000, true) := by
      unfold maxStep; rw [b2]; simp
    simp only [Counter.max, List.foldl_cons, List.foldl_nil, s1, s2, if_true]

/-! ## C09 -/

open Verif.PQ

/-- C09: pushing onto a queue that is not full adds the value and removes nothing; pushing onto a
full queue (capacity at least 1) removes exactly one top element (one that no other element is
after) and adds the value. -/
theorem c09_push {α : Type} (lt : α → α → Bool) (popTop : PopTop α) (hh : HeapContract lt popTop)
    (capacity : ℕ) (hc : 1 ≤ capacity) (q : List α) (hq : q.length ≤ capacity) (v : α) :
    ∃ q', push popTop capacity q v = .ok q' ∧ q'.length ≤ capacity ∧
      ((q.length < capacity ∧ q'.Perm (v :: q)) ∨
       (q.length = capacity ∧ ∃ t ∈ q, (∀ x ∈ q, lt t x = false) ∧ (t :: q').Perm (v :: q))) := by
  unfold push
  by_cases hlen : q.length = capacity
  · rw [if_pos hlen]
    have hne : q ≠ [] := by intro h; subst h; simp at hlen; omega
    obtain ⟨t, rest, h1, h2, h3⟩ := hh.2 q hne
    rw [h1]
    refine ⟨rest ++ [v], rfl, ?_, Or.inr ⟨hlen, t, h2.symm.subset (by simp), h3, ?_⟩⟩
    · have := h2.length_eq; simp at this ⊢; omega
    · have p1 : (rest ++ [v]).Perm (v :: rest) := List.perm_append_comm
      exact ((p1.cons t).trans (List.Perm.swap v t rest)).trans (h2.symm.cons v)
  · rw [if_neg hlen]
    refine ⟨q ++ [v], rfl, ?_, Or.inl ⟨by omega, List.perm_append_comm⟩⟩
    simp; omega

theorem pushes_spec {α : Type} (lt : α → α → Bool) (popTop : PopTop α)
    (hh : HeapContract lt popTop) (capacity : ℕ) (hc : 1 ≤ capacity) (vs q : List α)
    (hq : q.length ≤ capacity) :
    ∃ q', pushes popTop capacity q vs = .ok q' ∧
      q'.length = min capacity (q.length + vs.length) ∧
      (∃ evicted, (q' ++ evicted).Perm (q ++ vs)) ∧
      (∀ v, vs.getLast? = some v → v ∈ q') := by
  induction vs generalizing q with
  | nil => exact ⟨q, rfl, by simp; omega, ⟨[], by simp⟩, by simp⟩
  | cons v vs ih =>
    obtain ⟨q1, h1, h2, h3⟩ := c09_push lt popTop hh capacity hc q hq v
    obtain ⟨q', g1, g2, ⟨ev, g3⟩, g4⟩ := ih q1 h2
    refine ⟨q', by simp [pushes, h1, Outcome.bind, g1], ?_, ?_, ?_⟩
    · rcases h3 with ⟨ha, hb⟩ | ⟨ha, t, _, _, hb⟩
      · have := hb.length_eq; simp at this ⊢; omega
      · have := hb.length_eq; simp at this ⊢; omega
    · rcases h3 with ⟨_, hb⟩ | ⟨_, t, _, _, hb⟩
      · refine ⟨ev, g3.trans ((hb.append_right vs).trans ?_)⟩
        simpa using (List.perm_middle (a := v) (l₁ := q) (l₂ := vs)).symm
      · refine ⟨t :: ev, ?_⟩
        have p1 : (q' ++ t :: ev).Perm (t :: (q' ++ ev)) := List.perm_middle
        have p2 : (t :: (q' ++ ev)).Perm (t :: (q1 ++ vs)) := g3.cons t
        have p3 : (t :: (q1 ++ vs)).Perm ((v :: q) ++ vs) := by
          simpa using hb.append_right vs
        refine (p1.trans (p2.trans p3)).trans ?_
        simpa using (List.perm_middle (a := v) (l₁ := q) (l₂ := vs)).symm
    · intro w hw
      cases vs with
      | nil =>
        simp at hw; subst hw
        have hq' : q' = q1 := by simp [pushes] at g1; exact g1.symm
        rw [hq']
        unfold push at h1
        split at h1
        · split at h1
          · cases h1
          · have := Outcome.ok.inj h1; rw [← this]; simp
        · have := Outcome.ok.inj h1; rw [← this]; simp
      | cons x xs =>
        apply g4
        simpa using hw

/-- C09: after any sequence of pushes onto an empty queue of capacity `c >= 1`, there was no undefined
behaviour, the queue holds `min c (number of pushes)` of the pushed values (each at most as often
as it was pushed), and the value pushed last is among them. -/
theorem c09_history {α : Type} (lt : α → α → Bool) (popTop : PopTop α)
    (hh : HeapContract lt popTop) (capacity : ℕ) (hc : 1 ≤ capacity) (vs : List α) :
    ∃ q, pushes popTop capacity [] vs = .ok q ∧ q.length = min capacity vs.length ∧
      (∃ evicted, (q ++ evicted).Perm vs) ∧ (∀ v, vs.getLast? = some v → v ∈ q) := by
  obtain ⟨q, h1, h2, h3, h4⟩ := pushes_spec lt popTop hh capacity hc vs [] (by simp)
  exact ⟨q, h1, by simpa using h2, by simpa using h3, h4⟩

/-- C09: with capacity 0 the very first push is undefined behaviour. -/
theorem c09_capacity_zero {α : Type} (lt : α → α → Bool) (popTop : PopTop α)
    (hh : HeapContract lt popTop) (v : α) : (push popTop 0 [] v).isUb = true := by
  unfold push; simp [hh.1, Outcome.isUb]

/-- C09: `sort` returns all elements of the queue, in comparator order, if the comparator is a strict
weak order on them. -/
theorem c09_sort {α : Type} (lt : α → α → Bool) (sortFn : List α → List α)
    (hs : SortContract lt sortFn) (q : List α) (hw : StrictWeakOrderOn lt q) :
    (PQ.sort sortFn q).Perm q ∧ (PQ.sort sortFn q).Pairwise (fun a b => lt b a = false) :=
  hs q hw

/-- A heap routine that keeps the contract for `<` on numbers (non-vacuity of `HeapContract`). -/
def popTopNat : PopTop ℕ := fun q =>
  match q.max? with
  | none => none
  | some m => some (m, q.erase m)

theorem popTopNat_contract : HeapContract (fun a b : ℕ => decide (a < b)) popTopNat := by
  refine ⟨rfl, fun q hq => ?_⟩
  obtain ⟨m, hm⟩ : ∃ m, q.max? = some m := by
    cases h : q.max? with
    | none => rw [List.max?_eq_none_iff] at h; exact absurd h hq
    | some m => exact ⟨m, rfl⟩
  refine ⟨m, q.erase m, by simp [popTopNat, hm], ?_, ?_⟩
  · exact List.perm_cons_erase (List.max?_mem hm)
  · intro x hx
    have := (List.max?_eq_some_iff.mp hm).2 x hx
    simpa using this

/-- The sequence 5, 1, 4, 2 pushed into a queue of capacity 2: the top (largest) is evicted. -/
example : pushes popTopNat 2 [] [5, 1, 4, 2] = .ok [1, 2] := by decide

end Verif.Props

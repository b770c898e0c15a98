import Verif.Props.Words

/-!
# Stacked mathematical symbols: C25
-/

namespace Verif.Props

open Verif.Math Verif.Elements Verif.Spec Verif.Words Verif.Counter

/-- The UTF-8 bytes of a string, as the model represents byte strings. -/
def utf8 (s : String) : Verif.Text.Str := s.toUTF8.toList.map fun b => Char.ofNat b.toNat

/-- Specification: the word is an operator - it contains one of the characters ∑ ∏ ∫ ⊗ (or a
character with the name of such a display symbol), or it is "sup" or "lim". -/
def IsOperator (w : Word) : Prop :=
  (∃ c ∈ w.chars, c.text ∈ [utf8 "∑", utf8 "∏", utf8 "∫", utf8 "⊗"] ∨
    c.name ∈ [utf8 "summationdisplay", utf8 "productdisplay", utf8 "integraldisplay",
      utf8 "circlemultiplydisplay"]) ∨
  w.text ∈ [utf8 "sup", utf8 "lim"]

/-- Specification: `o` may be stacked on the operator `w`: it covers at least half of the width of one
of both words (up to the tolerance) and its font is smaller by more than one point. -/
def Stackable (w o : Word) : Prop :=
  1 / 2 - tol ≤ computeMaxXOverlapRatio w.pos o.pos ∧ o.fontSize < w.fontSize - 1

/-- Specification: the operator with index `i` claims the word with index `j`: all words from the
operator (exclusive) to `j` (inclusive) may be stacked on it. -/
def Claims (ws : List Word) (i j : ℕ) : Prop :=
  ∃ w, ws[i]? = some w ∧ IsOperator w ∧ i ≠ j ∧
    ∀ k, (i < k ∧ k ≤ j) ∨ (j ≤ k ∧ k < i) → ∃ o, ws[k]? = some o ∧ Stackable w o

theorem isBase_iff (w : Word) : isBase w = true ↔ IsOperator w := by
  have e1 : stackedMathCharTexts = [utf8 "∑", utf8 "∏", utf8 "∫", utf8 "⊗"] := by decide +kernel
  have e2 : stackedMathCharNames = [utf8 "summationdisplay", utf8 "productdisplay",
    utf8 "integraldisplay", utf8 "circlemultiplydisplay"] := by decide +kernel
  have e3 : stackedMathWords = [utf8 "sup", utf8 "lim"] := by decide +kernel
  unfold isBase IsOperator
  rw [e1, e2, e3]
  simp only [Bool.or_eq_true, List.any_eq_true, List.contains_iff_mem]

theorem attachable_iff (w o : Word) : attachable w o = true ↔ Stackable w o := by
  simp [attachable, Stackable, smaller_iff, smaller_false]

/-! ### Scanning forwards and backwards -/

theorem mem_takeWhile_range' (p : ℕ → Bool) (n : ℕ) : ∀ s j,
    j ∈ (List.range' s n).takeWhile p ↔ s ≤ j ∧ j < s + n ∧ ∀ k, s ≤ k → k ≤ j → p k = true := by
  induction n with
  | zero => intro s j; simp; omega
  | succ n ih =>
    intro s j
    rw [List.range'_succ, List.takeWhile_cons]
    split
    · next hp =>
      rw [List.mem_cons, ih]
      constructor
      · rintro (rfl | ⟨h1, h2, h3⟩)
        · refine ⟨le_refl _, by omega, fun k hk1 hk2 => ?_⟩
          rw [show k = j by omega]; exact hp
        · refine ⟨by omega, by omega, fun k hk1 hk2 => ?_⟩
          rcases Nat.eq_or_lt_of_le hk1 with rfl | hlt
          · exact hp
          · exact h3 k hlt hk2
      · rintro ⟨h1, h2, h3⟩
        rcases Nat.eq_or_lt_of_le h1 with rfl | hlt
        · exact .inl rfl
        · exact .inr ⟨hlt, by omega, fun k hk1 hk2 => h3 k (by omega) hk2⟩
    · next hp =>
      constructor
      · intro h; simp at h
      · rintro ⟨h1, _, h3⟩; exact absurd (h3 s (le_refl _) h1) hp

theorem mem_takeWhile_range_reverse (p : ℕ → Bool) (n : ℕ) : ∀ j,
    j ∈ (List.range n).reverse.takeWhile p ↔ j < n ∧ ∀ k, j ≤ k → k < n → p k = true := by
  induction n with
  | zero => intro j; simp
  | succ n ih =>
    intro j
    rw [List.range_succ, List.reverse_append, List.reverse_singleton, List.singleton_append,
      List.takeWhile_cons]
    split
    · next hp =>
      rw [List.mem_cons, ih]
      constructor
      · rintro (rfl | ⟨h1, h3⟩)
        · refine ⟨by omega, fun k hk1 hk2 => ?_⟩
          rw [show k = j by omega]; exact hp
        · refine ⟨by omega, fun k hk1 hk2 => ?_⟩
          rcases Nat.eq_or_lt_of_le (Nat.lt_succ_iff.mp hk2) with rfl | hlt
          · exact hp
          · exact h3 k hk1 hlt
      · rintro ⟨h1, h3⟩
        rcases Nat.eq_or_lt_of_le (Nat.lt_succ_iff.mp h1) with rfl | hlt
        · exact .inl rfl
        · exact .inr ⟨hlt, fun k hk1 hk2 => h3 k hk1 (by omega)⟩
    · next hp =>
      constructor
      · intro h; simp at h
      · rintro ⟨h1, h3⟩; exact absurd (h3 n (by omega) (by omega)) hp

theorem mem_partsOf (ws : List Word) (i : ℕ) (w : Word) (hi : i < ws.length) (j : ℕ) :
    j ∈ partsOf ws i w ↔ i ≠ j ∧
      ∀ k, (i < k ∧ k ≤ j) ∨ (j ≤ k ∧ k < i) → ∃ o, ws[k]? = some o ∧ Stackable w o := by
  have hok : ∀ k : ℕ, attachableAt ws w k = true ↔
      ∃ o, ws[k]? = some o ∧ Stackable w o := by
    intro k
    unfold attachableAt
    cases hk : ws[k]? with
    | none => simp
    | some o => simp [attachable_iff]
  unfold partsOf
  simp only [List.mem_append, mem_takeWhile_range', mem_takeWhile_range_reverse, hok]
  constructor
  · rintro (⟨h1, h2⟩ | ⟨h1, h2, h3⟩)
    · refine ⟨by omega, ?_⟩
      rintro k (⟨a, b⟩ | ⟨a, b⟩)
      · omega
      · exact h2 k a b
    · refine ⟨by omega, ?_⟩
      rintro k (⟨a, b⟩ | ⟨a, b⟩)
      · exact h3 k a b
      · omega
  · rintro ⟨h1, h2⟩
    rcases Nat.lt_or_gt_of_ne h1 with h | h
    · right
      obtain ⟨o, ho, _⟩ := h2 j (.inl ⟨h, le_refl _⟩)
      have := (List.getElem?_eq_some_iff.mp ho).1
      exact ⟨by omega, by omega, fun k a b => h2 k (.inl ⟨a, b⟩)⟩
    · left
      exact ⟨h, fun k a b => h2 k (.inr ⟨a, b⟩)⟩

theorem nodup_partsOf (ws : List Word) (i : ℕ) (w : Word) : (partsOf ws i w).Nodup := by
  unfold partsOf
  rw [List.nodup_append]
  refine ⟨?_, ?_, ?_⟩
  · exact (List.nodup_reverse.mpr List.nodup_range).sublist (List.takeWhile_sublist _)
  · exact (List.nodup_range').sublist (List.takeWhile_sublist _)
  · intro a ha b hb
    have h1 := (List.takeWhile_sublist _).subset ha
    have h2 := (List.takeWhile_sublist _).subset hb
    simp only [List.mem_reverse, List.mem_range] at h1
    rw [List.mem_range'_1] at h2
    omega

/-! ### The loop -/

/-- A word without its links. -/
def core (w : Word) : Word := { w with partOf := none, parts := [] }

theorem isBase_core (w : Word) : isBase (core w) = isBase w := rfl
theorem attachable_core (w o : Word) : attachable (core w) (core o) = attachable w o := rfl

theorem core_getElem? {ws ws' : List Word} (h : ws.map core = ws'.map core) (k : ℕ) :
    (ws[k]?).map core = (ws'[k]?).map core := by
  rw [← List.getElem?_map, ← List.getElem?_map, h]

theorem partsOf_congr {ws ws' : List Word} (h : ws.map core = ws'.map core) {w w' : Word}
    (hw : core w = core w') (i : ℕ) : partsOf ws i w = partsOf ws' i w' := by
  have hl : ws.length = ws'.length := by simpa using congrArg List.length h
  have hok : attachableAt ws w = attachableAt ws' w' := by
    funext k
    unfold attachableAt
    have hk := core_getElem? h k
    cases h1 : ws[k]? <;> cases h2 : ws'[k]? <;> rw [h1, h2] at hk <;> simp at hk ⊢
    rw [← attachable_core, hw, hk, attachable_core]
  unfold partsOf
  rw [hl, hok]

/-- The last index below `n` that claims `j`. -/
def lastClaim (ws : List Word) (j : ℕ) : ℕ → Option ℕ
  | 0 => none
  | n + 1 =>
    match ws[n]? with
    | some w => if isBase w && (partsOf ws n w).contains j then some n else lastClaim ws j n
    | none => lastClaim ws j n

theorem merge_invariant (ws : List Word) (hfresh : ∀ w ∈ ws, w.partOf = none ∧ w.parts = []) : ∀ n, n ≤ ws.length →
    ∀ (j : ℕ) (w : Word), ws[j]? = some w →
      ((List.range n).foldl mergeStep ws)[j]? = some { w with
        parts := if j < n ∧ isBase w = true then partsOf ws j w else []
        partOf := lastClaim ws j n } := by
  intro n
  induction n with
  | zero =>
    intro _ j w hj
    obtain ⟨h1, h2⟩ := hfresh w (List.mem_of_getElem? hj)
    simp only [List.range_zero, List.foldl_nil, hj, lastClaim, Nat.not_lt_zero, false_and, if_false]
    rw [← h1, ← h2]
  | succ n ih =>
    intro hn j w hj
    have ih := ih (by omega)
    rw [List.range_succ, List.foldl_append]
    set cur := (List.range n).foldl mergeStep ws with hcur
    have hlen : cur.length = ws.length := by
      have : ∀ (l : List ℕ) (v : List Word), (l.foldl mergeStep v).length = v.length := by
        intro l
        induction l with
        | nil => intro v; rfl
        | cons a l ih' =>
          intro v
          rw [List.foldl_cons, ih']
          unfold mergeStep
          cases v[a]? with
          | none => rfl
          | some w => simp only; split <;> simp
      exact this _ _
    have hcore : cur.map core = ws.map core := by
      apply List.ext_getElem?
      intro k
      rw [List.getElem?_map, List.getElem?_map]
      cases hk : ws[k]? with
      | none =>
        rw [List.getElem?_eq_none_iff] at hk
        rw [List.getElem?_eq_none (by omega)]
      | some o => rw [ih k o hk]; rfl
    obtain ⟨b, hb⟩ : ∃ b, ws[n]? = some b := ⟨ws[n], List.getElem?_eq_getElem (by omega)⟩
    obtain ⟨b', hbc, hbase, hparts⟩ : ∃ b', cur[n]? = some b' ∧ isBase b' = isBase b ∧
        partsOf cur n b' = partsOf ws n b := by
      refine ⟨_, ih n b hb, rfl, partsOf_congr hcore rfl n⟩
    simp only [List.foldl_cons, List.foldl_nil]
    rw [mergeStep, hbc]
    simp only [hbase, hparts]
    rw [lastClaim, hb]
    simp only
    cases hB : isBase b with
    | false =>
      simp only [Bool.false_eq_true, if_false, Bool.false_and]
      rw [ih j w hj]
      congr 2
      by_cases hjn : j = n
      · subst hjn
        rw [hb] at hj
        obtain rfl : b = w := by simpa using hj
        simp [hB]
      · have : (j < n + 1) ↔ j < n := by omega
        simp only [this]
    | true =>
      simp only [if_true, Bool.true_and]
      rw [List.getElem?_mapIdx, ih j w hj]
      simp only [Option.map_some]
      by_cases hjn : j = n
      · subst hjn
        rw [hb] at hj
        obtain rfl : b = w := by simpa using hj
        have hnot : (partsOf ws j b).contains j = false := by
          have := mem_partsOf ws j b (by omega) j
          simpa using this
        rw [hnot]
        simp only [Bool.false_eq_true, if_false, if_true, hB, and_true, lt_irrefl, List.nil_append,
          Nat.lt_succ_self]
      · have hlt : (j < n + 1) = (j < n) := by
          apply propext; omega
        simp only [hlt, if_neg hjn]
        cases (partsOf ws n b).contains j <;> simp

theorem claims_iff_partsOf (ws : List Word) (i j : ℕ) : Claims ws i j ↔
    ∃ w, ws[i]? = some w ∧ isBase w = true ∧ j ∈ partsOf ws i w := by
  constructor
  · rintro ⟨w, h1, h2, h3⟩
    exact ⟨w, h1, (isBase_iff w).mpr h2, (mem_partsOf ws i w (List.getElem?_eq_some_iff.mp h1).1 j).mpr h3⟩
  · rintro ⟨w, h1, h2, h3⟩
    exact ⟨w, h1, (isBase_iff w).mp h2, (mem_partsOf ws i w (List.getElem?_eq_some_iff.mp h1).1 j).mp h3⟩

theorem Claims.lt {ws : List Word} {i j : ℕ} (h : Claims ws i j) : i < ws.length ∧ j < ws.length := by
  obtain ⟨w, h1, _, h3, h4⟩ := h
  refine ⟨(List.getElem?_eq_some_iff.mp h1).1, ?_⟩
  have : ∃ o, ws[j]? = some o ∧ Stackable w o := by
    apply h4; omega
  obtain ⟨o, ho, _⟩ := this
  exact (List.getElem?_eq_some_iff.mp ho).1

theorem lastClaim_spec (ws : List Word) (j : ℕ) : ∀ n,
    (∀ i, lastClaim ws j n = some i → i < n ∧ Claims ws i j ∧ ∀ i' < n, Claims ws i' j → i' ≤ i) ∧
    (lastClaim ws j n = none → ∀ i < n, ¬ Claims ws i j) := by
  intro n
  induction n with
  | zero => simp [lastClaim]
  | succ n ih =>
    rw [lastClaim]
    cases hw : ws[n]? with
    | none =>
      have hno : ¬ Claims ws n j := by rintro ⟨w, h1, _⟩; rw [hw] at h1; cases h1
      simp only
      refine ⟨fun i hi => ?_, fun hnone i hi => ?_⟩
      · obtain ⟨g1, g2, g3⟩ := ih.1 i hi
        refine ⟨by omega, g2, fun i' hi' hc => ?_⟩
        rcases Nat.lt_succ_iff_lt_or_eq.mp hi' with h | rfl
        · exact g3 i' h hc
        · exact absurd hc hno
      · rcases Nat.lt_succ_iff_lt_or_eq.mp hi with h | rfl
        · exact ih.2 hnone i h
        · exact hno
    | some w =>
      simp only
      have hiff : (isBase w && (partsOf ws n w).contains j) = true ↔ Claims ws n j := by
        rw [claims_iff_partsOf, hw]
        simp
      split
      · next hc =>
        refine ⟨fun i hi => ?_, fun hnone => by cases hnone⟩
        obtain rfl : n = i := by simpa using hi
        exact ⟨by omega, hiff.mp hc, fun i' hi' _ => by omega⟩
      · next hcl =>
        have hno : ¬ Claims ws n j := fun h => hcl (hiff.mpr h)
        refine ⟨fun i hi => ?_, fun hnone i hi => ?_⟩
        · obtain ⟨g1, g2, g3⟩ := ih.1 i hi
          refine ⟨by omega, g2, fun i' hi' hc => ?_⟩
          rcases Nat.lt_succ_iff_lt_or_eq.mp hi' with h | rfl
          · exact g3 i' h hc
          · exact absurd hc hno
        · rcases Nat.lt_succ_iff_lt_or_eq.mp hi with h | rfl
          · exact ih.2 hnone i h
          · exact hno

/-- The words are as word detection leaves them: not yet linked. -/
def Fresh (ws : List Word) : Prop := ∀ w ∈ ws, w.partOf = none ∧ w.parts = []

theorem merged_getElem? (ws : List Word) (hf : Fresh ws) (j : ℕ) (w : Word) (hj : ws[j]? = some w) :
    (mergeStackedMathSymbols ws)[j]? = some { w with
      parts := if isBase w = true then partsOf ws j w else []
      partOf := lastClaim ws j ws.length } := by
  have := merge_invariant ws hf ws.length (le_refl _) j w hj
  have hlt := (List.getElem?_eq_some_iff.mp hj).1
  simpa [mergeStackedMathSymbols, hlt] using this

/-! ### C25 -/

/-- C25: after merging, the list of words attached to a word contains exactly the words it claims,
each once; nothing else of the words is changed. -/
theorem c25_attached (ws : List Word) (hf : Fresh ws) (i : ℕ) (w : Word) (hi : ws[i]? = some w) :
    ∃ w', (mergeStackedMathSymbols ws)[i]? = some w' ∧
      (∀ j, j ∈ w'.parts ↔ Claims ws i j) ∧ w'.parts.Nodup ∧
      w' = { w with parts := w'.parts, partOf := w'.partOf } := by
  refine ⟨_, merged_getElem? ws hf i w hi, ?_, ?_, rfl⟩
  · intro j
    rw [claims_iff_partsOf]
    simp only [hi, Option.some.injEq, exists_eq_left']
    split
    · next h => simp [h]
    · next h => simp [h]
  · simp only
    split
    · exact nodup_partsOf _ _ _
    · exact List.nodup_nil

/-- C25: a word refers to the last operator that claims it, and to none exactly if no operator claims
it. -/
theorem c25_owner (ws : List Word) (hf : Fresh ws) (j : ℕ) (w : Word) (hj : ws[j]? = some w) :
    ∃ w', (mergeStackedMathSymbols ws)[j]? = some w' ∧
      (w'.partOf = none ↔ ∀ i, ¬ Claims ws i j) ∧
      ∀ i, w'.partOf = some i → Claims ws i j ∧ ∀ i', Claims ws i' j → i' ≤ i := by
  obtain ⟨h1, h2⟩ := lastClaim_spec ws j ws.length
  refine ⟨_, merged_getElem? ws hf j w hj, ⟨fun hn i hc => h2 hn i hc.lt.1 hc, fun hn => ?_⟩, ?_⟩
  · simp only
    cases hl : lastClaim ws j ws.length with
    | none => rfl
    | some i => exact absurd (h1 i hl).2.1 (hn i)
  · intro i hi
    obtain ⟨_, g2, g3⟩ := h1 i hi
    exact ⟨g2, fun i' hc => g3 i' hc.lt.1 hc⟩

/-- The order in which text line detection visits the words of a page
(`/repo/src/TextLinesDetection.cpp:104-128`): every word that is not attached to an operator, followed by the words attached
to it. -/
def visited (ws : List Word) : List ℕ :=
  (List.range ws.length).flatMap fun j =>
    match ws[j]? with
    | some w => if w.partOf.isSome then [] else j :: w.parts
    | none => []

/-- C25 (partial): if no word is claimed by two operators and no operator is itself claimed by
another one, every word is visited exactly once, attached words together with their operator.
Missing: the two exceptions, in which words are visited twice (`c25_claimed_twice`) or never
(`c25_lost`). -/
theorem c25_visited_once_partial (ws : List Word) (hf : Fresh ws)
    (huniq : ∀ i i' j, Claims ws i j → Claims ws i' j → i = i')
    (hflat : ∀ i j k, Claims ws i j → ¬ Claims ws k i) :
    (visited (mergeStackedMathSymbols ws)).Perm (List.range ws.length) := by
  have hlen : (mergeStackedMathSymbols ws).length = ws.length := by
    apply Nat.le_antisymm
    · by_contra hlt
      have hlt : ws.length < (mergeStackedMathSymbols ws).length := by omega
      have : ∀ (l : List ℕ) (v : List Word), (l.foldl mergeStep v).length = v.length := by
        intro l
        induction l with
        | nil => intro v; rfl
        | cons a l ih' =>
          intro v
          rw [List.foldl_cons, ih']
          unfold mergeStep
          cases v[a]? with
          | none => rfl
          | some w => simp only; split <;> simp
      rw [mergeStackedMathSymbols, this] at hlt
      omega
    · by_contra hlt
      have hlt : (mergeStackedMathSymbols ws).length < ws.length := by omega
      obtain ⟨w, hw⟩ : ∃ w, ws[(mergeStackedMathSymbols ws).length]? = some w :=
        ⟨_, List.getElem?_eq_getElem hlt⟩
      have := merged_getElem? ws hf _ w hw
      have := (List.getElem?_eq_some_iff.mp this).1
      omega
  -- what is visited because of word j
  have hvis : ∀ j, j < ws.length → ∃ l, (match (mergeStackedMathSymbols ws)[j]? with
      | some w => if w.partOf.isSome then [] else j :: w.parts
      | none => []) = l ∧ l.Nodup ∧
      ∀ k, k ∈ l ↔ (∀ i, ¬ Claims ws i j) ∧ (k = j ∨ Claims ws j k) := by
    intro j hj
    obtain ⟨w, hw⟩ : ∃ w, ws[j]? = some w := ⟨_, List.getElem?_eq_getElem hj⟩
    obtain ⟨w', h1, h2, h3, _⟩ := c25_attached ws hf j w hw
    obtain ⟨w'', h1', h4, h5⟩ := c25_owner ws hf j w hw
    obtain rfl : w' = w'' := by rw [h1] at h1'; simpa using h1'
    refine ⟨_, rfl, ?_, ?_⟩
    · rw [h1]
      simp only
      split
      · exact List.nodup_nil
      · refine List.nodup_cons.mpr ⟨fun hm => ?_, h3⟩
        obtain ⟨_, _, _, hne, _⟩ := (h2 j).mp hm
        exact hne rfl
    · intro k
      rw [h1]
      simp only
      cases hp : w'.partOf with
      | none => simp [h2, h4.mp hp]
      | some i =>
        simp only [Option.isSome_some, if_true, List.not_mem_nil, false_iff, not_and]
        intro hall
        exact absurd (h5 i hp).1 (hall i)
  have hmem : ∀ k, k ∈ visited (mergeStackedMathSymbols ws) ↔
      ∃ j < ws.length, (∀ i, ¬ Claims ws i j) ∧ (k = j ∨ Claims ws j k) := by
    intro k
    unfold visited
    rw [List.mem_flatMap, hlen]
    constructor
    · rintro ⟨j, hj, hk⟩
      obtain ⟨l, hl, _, h3⟩ := hvis j (List.mem_range.mp hj)
      rw [hl] at hk
      exact ⟨j, List.mem_range.mp hj, (h3 k).mp hk⟩
    · rintro ⟨j, hj, hk⟩
      obtain ⟨l, hl, _, h3⟩ := hvis j hj
      refine ⟨j, List.mem_range.mpr hj, ?_⟩
      rw [hl]
      exact (h3 k).mpr hk
  refine (List.perm_ext_iff_of_nodup ?_ List.nodup_range).mpr ?_
  · unfold visited
    rw [hlen, List.nodup_flatMap]
    refine ⟨?_, ?_⟩
    · intro j hj
      obtain ⟨l, hl, h2, _⟩ := hvis j (List.mem_range.mp hj)
      rw [hl]; exact h2
    · refine List.Nodup.pairwise_of_forall_ne List.nodup_range ?_
      intro a ha b hb hab
      obtain ⟨l, hl, _, h3⟩ := hvis a (List.mem_range.mp ha)
      obtain ⟨l', hl', _, h3'⟩ := hvis b (List.mem_range.mp hb)
      simp only [Function.onFun]
      rw [hl, hl']
      intro k hk hk'
      obtain ⟨p1, p2⟩ := (h3 k).mp hk
      obtain ⟨q1, q2⟩ := (h3' k).mp hk'
      rcases p2 with rfl | p2 <;> rcases q2 with rfl | q2
      · exact hab rfl
      · exact p1 _ q2
      · exact q1 _ p2
      · exact hab (huniq _ _ _ p2 q2)
  · intro k
    rw [hmem, List.mem_range]
    constructor
    · rintro ⟨j, hj, _, rfl | hc⟩
      · exact hj
      · exact hc.lt.2
    · intro hk
      by_cases hc : ∃ i, Claims ws i k
      · obtain ⟨i, hi⟩ := hc
        exact ⟨i, hi.lt.1, fun k' => hflat i k k' hi, .inr hi⟩
      · exact ⟨k, hk, fun i hi => hc ⟨i, hi⟩, .inl rfl⟩

/-- C25 (partial): on a page with at most one operator every word is visited exactly once. -/
theorem c25_one_operator_partial (ws : List Word) (hf : Fresh ws) (i₀ : ℕ)
    (hone : ∀ (i : ℕ) (w : Word), ws[i]? = some w → IsOperator w → i = i₀) :
    (visited (mergeStackedMathSymbols ws)).Perm (List.range ws.length) := by
  have h : ∀ i j, Claims ws i j → i = i₀ := fun i j ⟨w, h1, h2, _⟩ => hone i w h1 h2
  refine c25_visited_once_partial ws hf (fun i i' j a b => (h _ _ a).trans (h _ _ b).symm) ?_
  intro i j k a b
  obtain ⟨_, _, _, hne, _⟩ := id b
  exact hne ((h _ _ b).trans (h _ _ a).symm)

/-! ### The exceptions, and non-vacuity -/

/-- A word for examples. -/
def sampleWord (x1 x2 : ℚ) (t : String) (fs : ℚ) : Word :=
  { chars := [{ uid := 0, pos := { pageNum := 1, leftX := x1, upperY := 10, rightX := x2, lowerY := 20 },
                text := utf8 t, fontSize := fs }]
    pos := { pageNum := 1, leftX := x1, upperY := 10, rightX := x2, lowerY := 20 }
    text := utf8 t, fontName := [], fontSize := fs }

/-- C25 (refuted part, finding): a word between two operators (for instance of a displayed double sum
set in two rows) is claimed by both and therefore visited, and printed, twice. -/
theorem c25_claimed_twice : ∃ ws : List Word, Fresh ws ∧
    visited (mergeStackedMathSymbols ws) = [0, 1, 2, 1] := by
  refine ⟨[sampleWord 10 20 "∑" 10, sampleWord 12 18 "n" 7, sampleWord 10 20 "∑" 10], ?_, ?_⟩
  · intro w hw
    simp only [List.mem_cons, List.not_mem_nil, or_false] at hw
    rcases hw with rfl | rfl | rfl <;> exact ⟨rfl, rfl⟩
  · decide +kernel

/-- C25 (refuted part, finding): the words attached to an operator that is itself attached to another
operator are never visited, and therefore missing in the output. -/
theorem c25_lost : ∃ ws : List Word, Fresh ws ∧
    visited (mergeStackedMathSymbols ws) = [0, 1] ∧ ws.length = 3 := by
  refine ⟨[sampleWord 10 20 "∑" 20, sampleWord 16 24 "sup" 10, sampleWord 20 24 "n" 7], ?_, ?_, rfl⟩
  · intro w hw
    simp only [List.mem_cons, List.not_mem_nil, or_false] at hw
    rcases hw with rfl | rfl | rfl <;> exact ⟨rfl, rfl⟩
  · decide +kernel

/-- An operator with limits above and below, in the order in which they are drawn. -/
example : (mergeStackedMathSymbols
    [sampleWord 12 18 "n" 7, sampleWord 10 20 "∑" 10, sampleWord 11 19 "i=1" 7,
     sampleWord 25 30 "x" 10]).map (fun w => (w.parts, w.partOf)) =
    [([], some 1), ([0, 2], none), ([], some 1), ([], none)] := by
  decide +kernel

end Verif.Props

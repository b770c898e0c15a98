import Verif.Model.Bpe
import Verif.Spec.Bpe
import Verif.Props.Text

/-!
# C40: byte pair encoding
-/

namespace Verif.Props

open Verif.Bpe Verif.Spec Verif.Text

/-- Concatenations of neighbouring tokens. -/
def pairsOf (ts : List (List Char)) : List (List Char) := List.zipWith (· ++ ·) ts ts.tail

theorem leftmostPair_eq (P : List Char → Bool) (ts : List (List Char)) :
    leftmostPair P ts = (pairsOf ts).find? P := by
  induction ts with
  | nil => rfl
  | cons a ts ih =>
    cases ts with
    | nil => rfl
    | cons b rest =>
      have hp : pairsOf (a :: b :: rest) = (a ++ b) :: pairsOf (b :: rest) := rfl
      rw [hp, List.find?_cons, leftmostPair, ih]
      cases P (a ++ b) <;> simp

/-- What the table of positions contains after counting the pairs `ms`. -/
structure PosInv (ms : List (List Char)) (acc : List (List Char × List ℕ)) : Prop where
  nodup : (acc.map (·.1)).Nodup
  pos : ∀ e ∈ acc, ∀ p, p ∈ e.2 ↔ ms[p]? = some e.1
  keys : ∀ x, x ∈ acc.map (·.1) ↔ x ∈ ms
  find : ∀ P : List Char → Bool, (acc.map (·.1)).find? P = ms.find? P

theorem addPosition_keys (m : List Char) (i : ℕ) (acc : List (List Char × List ℕ)) :
    (addPosition m i acc).map (·.1) =
      if m ∈ acc.map (·.1) then acc.map (·.1) else acc.map (·.1) ++ [m] := by
  induction acc with
  | nil => simp [addPosition]
  | cons e es ih =>
    unfold addPosition
    by_cases h : e.1 = m
    · rw [if_pos h]
      simp [h]
    · rw [if_neg h, List.map_cons, ih]
      have h' : ¬ m = e.1 := fun g => h g.symm
      by_cases g : m ∈ es.map (·.1)
      · rw [if_pos g, if_pos (by simp only [List.map_cons, List.mem_cons]; exact Or.inr g)]; rfl
      · rw [if_neg g, if_neg (by simp only [List.map_cons, List.mem_cons]; exact not_or.mpr ⟨h', g⟩)]; rfl

theorem addPosition_entries (m : List Char) (i : ℕ) (acc : List (List Char × List ℕ))
    (hnd : (acc.map (·.1)).Nodup) :
    ∀ e ∈ addPosition m i acc, (e.1 ≠ m ∧ e ∈ acc) ∨
      (e.1 = m ∧ ((∃ l, (m, l) ∈ acc ∧ e.2 = l ++ [i]) ∨ (m ∉ acc.map (·.1) ∧ e.2 = [i]))) := by
  induction acc with
  | nil => intro e he; simp [addPosition] at he; subst he; simp
  | cons x xs ih =>
    intro e he
    unfold addPosition at he
    rw [List.map_cons, List.nodup_cons] at hnd
    by_cases h : x.1 = m
    · rw [if_pos h] at he
      rcases List.mem_cons.mp he with rfl | he
      · right
        refine ⟨h, Or.inl ⟨x.2, ?_, rfl⟩⟩
        rw [← h]; simp
      · left
        refine ⟨?_, by simp [he]⟩
        intro g
        apply hnd.1
        rw [h, ← g]
        exact List.mem_map.mpr ⟨e, he, rfl⟩
    · rw [if_neg h] at he
      rcases List.mem_cons.mp he with rfl | he
      · exact Or.inl ⟨h, by simp⟩
      · rcases ih hnd.2 e he with ⟨g1, g2⟩ | ⟨g1, ⟨l, g2, g3⟩ | ⟨g2, g3⟩⟩
        · exact Or.inl ⟨g1, by simp [g2]⟩
        · exact Or.inr ⟨g1, Or.inl ⟨l, by simp [g2], g3⟩⟩
        · refine Or.inr ⟨g1, Or.inr ⟨?_, g3⟩⟩
          simp only [List.map_cons, List.mem_cons, not_or]
          exact ⟨fun h' => h h'.symm, g2⟩

theorem addPosition_inv {ms : List (List Char)} {acc : List (List Char × List ℕ)} (h : PosInv ms acc)
    (m : List Char) : PosInv (ms ++ [m]) (addPosition m ms.length acc) := by
  have hget : ∀ (p : ℕ) (x : List Char), (ms ++ [m])[p]? = some x ↔
      ms[p]? = some x ∨ (p = ms.length ∧ x = m) := by
    intro p x
    rcases lt_trichotomy p ms.length with hp | hp | hp
    · rw [List.getElem?_append_left hp]
      constructor
      · exact Or.inl
      · rintro (g | ⟨g, _⟩)
        · exact g
        · omega
    · subst hp
      simp [eq_comm]
    · have h1 : (ms ++ [m])[p]? = none := by simp; omega
      have h2 : ms[p]? = none := by simp; omega
      rw [h1, h2]
      constructor
      · intro g; cases g
      · rintro (g | ⟨g, _⟩)
        · cases g
        · omega
  constructor
  · rw [addPosition_keys]
    split
    · exact h.nodup
    · next g => exact List.nodup_append.mpr ⟨h.nodup, by simp, by
        intro a ha b hb; rw [List.mem_singleton] at hb; rintro rfl; rw [hb] at ha; exact g ha⟩
  · intro e he p
    rw [hget]
    rcases addPosition_entries _ _ _ h.nodup e he with ⟨g1, g2⟩ | ⟨g1, ⟨l, g2, g3⟩ | ⟨g2, g3⟩⟩
    · rw [h.pos e g2]
      exact ⟨Or.inl, fun g => g.resolve_right fun g' => g1 g'.2⟩
    · rw [g3, List.mem_append, List.mem_singleton, show (p ∈ l ↔ ms[p]? = some m) from h.pos _ g2 p, g1]
      simp
    · rw [g3, List.mem_singleton, g1]
      have : ms[p]? ≠ some m := by
        intro g
        exact g2 ((h.keys m).mpr (List.mem_of_getElem? g))
      simp [this]
  · intro x
    rw [addPosition_keys]
    split
    · next g =>
      rw [h.keys, List.mem_append, List.mem_singleton]
      refine ⟨Or.inl, ?_⟩
      rintro (g' | rfl)
      · exact g'
      · exact (h.keys _).mp g
    · simp [h.keys]
  · intro P
    rw [addPosition_keys, List.find?_append, ← h.find P]
    split
    · next g =>
      by_cases hm : P m = true
      · have : ((acc.map (·.1)).find? P).isSome = true := by
          rw [List.find?_isSome]; exact ⟨m, g, hm⟩
        obtain ⟨y, hy⟩ := Option.isSome_iff_exists.mp this
        rw [hy]; rfl
      · simp [List.find?_cons, hm]
    · rw [List.find?_append]

theorem pairLoop_inv (ts : List (List Char)) : ∀ (prev : List Char) (ms : List (List Char))
    (acc : List (List Char × List ℕ)), PosInv ms acc →
    PosInv (ms ++ pairsOf (prev :: ts)) (pairLoop ms.length prev acc ts) := by
  induction ts with
  | nil => intro prev ms acc h; simpa [pairsOf, pairLoop] using h
  | cons t ts ih =>
    intro prev ms acc h
    have hp : pairsOf (prev :: t :: ts) = [prev ++ t] ++ pairsOf (t :: ts) := rfl
    have := ih t _ _ (addPosition_inv h (prev ++ t))
    rw [hp, ← List.append_assoc]
    simpa [pairLoop] using this

theorem tokenPairPositions_inv (ts : List (List Char)) : PosInv (pairsOf ts) (tokenPairPositions ts) := by
  have h0 : PosInv [] [] := ⟨by simp, by simp, by simp, by simp⟩
  cases ts with
  | nil => exact h0
  | cons t ts => simpa [tokenPairPositions] using pairLoop_inv ts t [] [] h0

/-- The test for membership in a vocabulary. -/
def inV (v : Vocab) (x : List Char) : Bool := (lookup v x).isSome

theorem firstMatching_spec (v : Vocab) (pp : List (List Char × List ℕ)) :
    (firstMatching v pp = none ↔ (pp.map (·.1)).find? (inV v) = none) ∧
    (∀ ps, firstMatching v pp = some ps →
      ∃ m, (m, ps) ∈ pp ∧ (pp.map (·.1)).find? (inV v) = some m) := by
  induction pp with
  | nil => exact ⟨by simp [firstMatching], by simp [firstMatching]⟩
  | cons e es ih =>
    unfold firstMatching
    by_cases h : (lookup v e.1).isSome = true
    · have hi : inV v e.1 = true := h
      rw [if_pos h]
      refine ⟨by simp [List.find?_cons, hi], ?_⟩
      intro ps hps
      simp only [Option.some.injEq] at hps
      subst hps
      exact ⟨e.1, by simp, by simp [List.find?_cons, hi]⟩
    · have hi : inV v e.1 = false := by simpa [inV] using h
      rw [if_neg h]
      refine ⟨by rw [ih.1]; simp [List.find?_cons, hi], ?_⟩
      intro ps hps
      obtain ⟨m, h1, h2⟩ := ih.2 ps hps
      exact ⟨m, by simp [h1], by rw [List.map_cons, List.find?_cons, hi]; exact h2⟩

theorem mergeAt_spec (m : List Char) (ps : List ℕ) : ∀ (n i : ℕ) (ts : List (List Char)), ts.length = n →
    (∀ j, i + j ∈ ps ↔ (pairsOf ts)[j]? = some m) → mergeAt ps i ts = .ok (mergeAll m ts) := by
  intro n
  induction n using Nat.strong_induction_on with
  | _ n ih =>
    intro i ts hn h
    match ts, hn with
    | [], _ => rfl
    | [t], _ =>
      have h0 := h 0
      simp only [Nat.add_zero] at h0
      unfold mergeAt
      rw [if_neg]
      · rfl
      · rw [h0]; simp [pairsOf]
    | t :: u :: rest, hn =>
      simp only [List.length_cons] at hn
      have hp : pairsOf (t :: u :: rest) = (t ++ u) :: pairsOf (u :: rest) := rfl
      have h0 := h 0
      rw [hp] at h
      rw [hp, Nat.add_zero, List.getElem?_cons_zero, Option.some.injEq] at h0
      unfold mergeAt mergeAll
      by_cases hi : i ∈ ps
      · rw [if_pos hi, if_pos (h0.mp hi), ih rest.length (by omega) (i + 2) rest rfl]
        · rfl
        · intro j
          have h2 := h (j + 2)
          have e : i + (j + 2) = i + 2 + j := by omega
          rw [e] at h2
          rw [h2, List.getElem?_cons_succ]
          cases rest with
          | nil => simp [pairsOf]
          | cons w rest => rfl
      · rw [if_neg hi, if_neg (fun g => hi (h0.mpr g)),
          ih (u :: rest).length (by simp only [List.length_cons]; omega) (i + 1) (u :: rest) rfl]
        · rfl
        · intro j
          have h1 := h (j + 1)
          have e : i + (j + 1) = i + 1 + j := by omega
          rw [e] at h1
          rw [h1, List.getElem?_cons_succ]

/-- The rounds of the program are rounds of the specification, until none is possible. -/
theorem rounds_spec (v : Vocab) : ∀ (n : ℕ) (ts : List (List Char)), ts.length = n →
    ∃ ts', rounds v ts = .ok ts' ∧ Relation.ReflTransGen (IsRound (inV v)) ts ts' ∧
      leftmostPair (inV v) ts' = none := by
  intro n
  induction n using Nat.strong_induction_on with
  | _ n ih =>
    intro ts hn
    have hinv := tokenPairPositions_inv ts
    obtain ⟨f1, f2⟩ := firstMatching_spec v (tokenPairPositions ts)
    rw [rounds]
    split
    · next h =>
      refine ⟨ts, rfl, Relation.ReflTransGen.refl, ?_⟩
      rw [leftmostPair_eq, ← hinv.find]
      exact f1.mp h
    · next ps h =>
      obtain ⟨m, h1, h2⟩ := f2 ps h
      have hm : mergeAt ps 0 ts = .ok (mergeAll m ts) := by
        apply mergeAt_spec m ps ts.length 0 ts rfl
        intro j
        rw [Nat.zero_add]
        exact hinv.pos (m, ps) h1 j
      have hlt : (mergeAll m ts).length < ts.length := by
        obtain ⟨g1, g2⟩ := tokenPairPositions_valid ts _ h1
        obtain ⟨p, hp⟩ := List.exists_mem_of_ne_nil _ g1
        exact (mergeAt_length _ _ 0 ts _ rfl hm).2 ⟨p, hp, by omega, by have := g2 p hp; omega⟩
      have hround : IsRound (inV v) ts (mergeAll m ts) := ⟨m, by rw [leftmostPair_eq, ← hinv.find]; exact h2, rfl⟩
      have hcont : ∃ ts', (if (mergeAll m ts).length = 1 then Outcome.ok (mergeAll m ts)
            else rounds v (mergeAll m ts)) = .ok ts' ∧
          Relation.ReflTransGen (IsRound (inV v)) ts ts' ∧ leftmostPair (inV v) ts' = none := by
        split
        · next h1 =>
          refine ⟨_, rfl, Relation.ReflTransGen.single hround, ?_⟩
          match hml : mergeAll m ts, h1 with
          | [x], _ => rfl
        · obtain ⟨ts', g1, g2, g3⟩ := ih _ (by omega) (mergeAll m ts) rfl
          exact ⟨ts', g1, Relation.ReflTransGen.head hround g2, g3⟩
      split
      · next tokens' h' =>
        rw [hm] at h'
        simp only [Outcome.ok.injEq] at h'
        subst h'
        exact hcont
      · next h' => rw [hm] at h'; cases h'
      · next h' => rw [hm] at h'; cases h'

/-! ### The encoding of a word is unique and faithful -/

theorem round_unique {P : List Char → Bool} {a b c : List (List Char)} (h1 : IsRound P a b)
    (h2 : IsRound P a c) : b = c := by
  obtain ⟨m, e1, rfl⟩ := h1
  obtain ⟨m', e2, rfl⟩ := h2
  rw [e1] at e2
  cases e2
  rfl

theorem stuck_unique {P : List Char → Bool} {a b c : List (List Char)}
    (h1 : Relation.ReflTransGen (IsRound P) a b) (h2 : Relation.ReflTransGen (IsRound P) a c)
    (s1 : leftmostPair P b = none) (s2 : leftmostPair P c = none) : b = c := by
  induction h1 using Relation.ReflTransGen.head_induction_on with
  | refl =>
    cases Relation.ReflTransGen.cases_head h2 with
    | inl h => exact h
    | inr h =>
      obtain ⟨d, ⟨m, hm, _⟩, _⟩ := h
      rw [s1] at hm; cases hm
  | head hr _ ih =>
    cases Relation.ReflTransGen.cases_head h2 with
    | inl h =>
      subst h
      obtain ⟨m, hm, _⟩ := hr
      rw [s2] at hm; cases hm
    | inr h =>
      obtain ⟨d, hd, hd'⟩ := h
      rw [round_unique hd hr] at hd'
      exact ih hd'

/-- C40: a word has exactly one encoding with respect to a vocabulary. -/
theorem c40_encoding_unique (P : List Char → Bool) (w : List Char) (ts ts' : List (List Char))
    (h : IsEncoding P w ts) (h' : IsEncoding P w ts') : ts = ts' :=
  stuck_unique h.1 h'.1 h.2 h'.2

theorem mergeAll_spec (P : List Char → Bool) (m : List Char) (hm : P m = true) : ∀ (n : ℕ) (ts : List (List Char)),
    ts.length = n → (mergeAll m ts).flatten = ts.flatten ∧
      ((∀ t ∈ ts, t.length = 1 ∨ P t = true) → ∀ t ∈ mergeAll m ts, t.length = 1 ∨ P t = true) := by
  intro n
  induction n using Nat.strong_induction_on with
  | _ n ih =>
    intro ts hn
    match ts, hn with
    | [], _ => exact ⟨rfl, fun h => h⟩
    | [t], _ => exact ⟨rfl, fun h => h⟩
    | a :: b :: rest, hn =>
      simp only [List.length_cons] at hn
      unfold mergeAll
      split
      · next h =>
        obtain ⟨g1, g2⟩ := ih rest.length (by omega) rest rfl
        refine ⟨by simp [g1], ?_⟩
        intro ha t ht
        rcases List.mem_cons.mp ht with rfl | ht
        · right; rw [h]; exact hm
        · exact g2 (fun t ht => ha t (by simp [ht])) t ht
      · obtain ⟨g1, g2⟩ := ih (b :: rest).length (by simp only [List.length_cons]; omega) (b :: rest) rfl
        refine ⟨by rw [List.flatten_cons, g1, ← List.flatten_cons], ?_⟩
        intro ha t ht
        rcases List.mem_cons.mp ht with rfl | ht
        · exact ha _ (by simp)
        · exact g2 (fun t ht => ha t (List.mem_cons_of_mem _ ht)) t ht

/-- C40: the tokens of a word concatenate to the word, and every token is a single character or an
entry of the vocabulary - so only single characters can be unknown. -/
theorem c40_tokens_concatenate (P : List Char → Bool) (w : List Char) (ts : List (List Char))
    (h : IsEncoding P w ts) :
    ts.flatten = w ∧ ∀ t ∈ ts, t.length = 1 ∨ P t = true := by
  have h1 : ∀ (a b : List (List Char)), Relation.ReflTransGen (IsRound P) a b →
      b.flatten = a.flatten ∧
      ((∀ t ∈ a, t.length = 1 ∨ P t = true) → ∀ t ∈ b, t.length = 1 ∨ P t = true) := by
    intro a b hab
    induction hab with
    | refl => exact ⟨rfl, fun h => h⟩
    | tail _ hr ih =>
      obtain ⟨m, hm, rfl⟩ := hr
      rw [leftmostPair_eq] at hm
      obtain ⟨g1, g2⟩ := mergeAll_spec P m (List.find?_some hm) _ _ rfl
      exact ⟨g1.trans ih.1, fun h => g2 (ih.2 h)⟩
  obtain ⟨g1, g2⟩ := h1 _ _ h.1
  refine ⟨?_, g2 ?_⟩
  · rw [g1]
    clear g1 g2 h h1
    induction w with
    | nil => rfl
    | cons c cs ih => rw [List.map_cons, List.flatten_cons, ih]; rfl
  · intro t ht
    obtain ⟨c, _, rfl⟩ := List.mem_map.mp ht
    exact Or.inl rfl

/-! ### Calls of `encode` -/

/-- The states of an encoder made from vocabulary `v`, after any history of calls of `encode`. -/
inductive Reachable (v : Vocab) : Encoder → Prop
  | new : Reachable v (construct v)
  | call {e e' : Encoder} {text : List Char} {n : ℕ} {res r : List ℤ} : Reachable v e →
      encode e text n res = .ok (e', r) → Reachable v e'

/-- The id of a token: its id in the vocabulary, or the id of the symbol for unknown characters. -/
def idOf (v : Vocab) (t : List Char) : ℤ :=
  (lookup (construct v).vocab t).getD ((lookup (construct v).vocab ['⌾']).getD 0)

/-- What is known about an encoder: the vocabulary is the one of the constructor and every cached
answer is the encoding of its word. -/
structure EncInv (v : Vocab) (e : Encoder) : Prop where
  vocab : e.vocab = (construct v).vocab
  cache : ∀ w ids, lookup e.cache w = some ids → ∃ ts, IsEncoding (inV (construct v).vocab) w ts ∧
    ids = ts.map (idOf v)

theorem lookup_assign {β : Type} (m : List (List Char × β)) (k : List Char) (x : β) (y : List Char) :
    lookup (assign m k x) y = if y = k then some x else lookup m y := by
  induction m with
  | nil =>
    by_cases h : y = k
    · subst h; simp [assign, lookup]
    · have : ¬ k = y := fun g => h g.symm
      simp [assign, lookup, h, this]
  | cons e es ih =>
    unfold assign
    by_cases h : e.1 = k
    · rw [if_pos h]
      by_cases g : y = k
      · subst g; simp [lookup, h]
      · have : ¬ k = y := fun g' => g g'.symm
        simp [lookup, h, g, this]
    · rw [if_neg h]
      by_cases g : e.1 = y
      · have : ¬ y = k := fun g' => h (g.trans g')
        simp [lookup, g, this]
      · simp only [lookup, g, if_false]
        exact ih

theorem pairsOf_length (w : List Char) (hw : 2 ≤ w.length) :
    (tokenPairPositions (w.map fun c => [c])).length ≠ 0 := by
  have hinv := tokenPairPositions_inv (w.map fun c => [c])
  match w, hw with
  | a :: b :: rest, _ =>
    intro h
    have hnil := List.eq_nil_of_length_eq_zero h
    have := (hinv.keys ([a] ++ [b])).mpr (by simp [pairsOf])
    rw [hnil] at this
    simp at this

theorem encodeWord_spec {v : Vocab} {e : Encoder} (he : EncInv v e) (w : List Char) (hw : 2 ≤ w.length) :
    ∃ e' ts, encodeWord e w = .ok (e', ts.map (idOf v)) ∧ EncInv v e' ∧
      IsEncoding (inV (construct v).vocab) w ts := by
  unfold encodeWord
  rw [if_neg (by omega)]
  cases hc : lookup e.cache w with
  | some ids =>
    obtain ⟨ts, h1, h2⟩ := he.cache w ids hc
    exact ⟨e, ts, by rw [h2], he, h1⟩
  | none =>
    simp only
    rw [if_neg (pairsOf_length w hw)]
    obtain ⟨ts, h1, h2, h3⟩ := rounds_spec e.vocab _ (w.map fun c => [c]) rfl
    rw [h1]
    have hid : ts.map (tokenId e.vocab) = ts.map (idOf v) := by
      apply List.map_congr_left
      intro t _
      unfold tokenId idOf
      rw [he.vocab]
      cases lookup (construct v).vocab t <;> rfl
    rw [he.vocab] at h2 h3
    refine ⟨{ e with cache := assign e.cache w (ts.map (idOf v)) }, ts, by simp only [Outcome.bind, hid],
      ⟨he.vocab, ?_⟩, h2, h3⟩
    intro w' ids hl
    simp only [lookup_assign] at hl
    split at hl
    · next hww =>
      subst hww
      exact ⟨ts, ⟨h2, h3⟩, by simpa using hl.symm⟩
    · exact he.cache w' ids hl

theorem encodeWords_spec {v : Vocab} (ws : List (List Char)) : ∀ (e : Encoder) (res : List ℤ), EncInv v e →
    (∀ w ∈ ws, w ≠ []) →
    ∃ e' tss, encodeWords e ws res = .ok (e', res ++ tss.flatten.map (idOf v)) ∧ EncInv v e' ∧
      List.Forall₂ (fun w ts => IsEncoding (inV (construct v).vocab) (w ++ ['✂']) ts) ws tss := by
  induction ws with
  | nil => intro e res he _; exact ⟨e, [], by simp [encodeWords], he, List.Forall₂.nil⟩
  | cons w ws ih =>
    intro e res he hne
    have hw := hne w (by simp)
    have hl : w.length ≠ 0 := by simpa using hw
    obtain ⟨e', ts, h1, h2, h3⟩ := encodeWord_spec he (w ++ wordDelim)
      (by rw [List.length_append]; simp [wordDelim]; omega)
    obtain ⟨e'', tss, g1, g2, g3⟩ := ih e' (res ++ ts.map (idOf v)) h2 (fun x hx => hne x (by simp [hx]))
    refine ⟨e'', ts :: tss, ?_, g2, List.Forall₂.cons h3 g3⟩
    unfold encodeWords
    rw [if_neg hl, h1]
    simp only [Outcome.bind]
    rw [g1]
    simp

theorem padTo_eq (pad : ℤ) (n : ℕ) : ∀ (k : ℕ) (res : List ℤ), n - res.length = k →
    padTo pad n res = res ++ List.replicate k pad := by
  intro k
  induction k with
  | zero => intro res h; rw [padTo, if_neg (by omega)]; simp
  | succ k ih =>
    intro res h
    rw [padTo, if_pos (by omega), ih (res ++ [pad]) (by simp; omega)]
    simp [List.replicate_succ]

theorem cutTo_eq (n : ℕ) : ∀ (k : ℕ) (res : List ℤ), res.length - n = k → cutTo n res = res.take n := by
  intro k
  induction k with
  | zero =>
    intro res h
    rw [cutTo, if_neg (by omega), List.take_of_length_le (by omega)]
  | succ k ih =>
    intro res h
    rw [cutTo, if_pos (by omega), ih res.dropLast (by simp; omega), List.dropLast_eq_take, List.take_take]
    congr 1
    omega

theorem fit_eq (pad : ℤ) (n : ℕ) (res : List ℤ) : cutTo n (padTo pad n res) = fit n pad res := by
  rw [padTo_eq pad n _ res rfl, cutTo_eq n _ _ rfl]
  unfold fit
  rw [List.take_append, List.take_append, List.take_replicate, List.take_replicate]
  congr 2
  omega

theorem construct_padding (v : Vocab) : ∃ p, lookup (construct v).vocab ['⊛'] = some p := by
  unfold construct
  simp only [lookup_assign]
  refine ⟨v.length, ?_⟩
  simp [wordDelim, unknown, padding]

theorem encode_spec {v : Vocab} {e : Encoder} (he : EncInv v e) (text : List Char) (n : ℕ) (res : List ℤ) :
    ∃ e' tss, encode e text n res = .ok (e', if n = 0 then res ++ tss.flatten.map (idOf v)
        else fit n (idOf v ['⊛']) (res ++ tss.flatten.map (idOf v))) ∧ EncInv v e' ∧
      List.Forall₂ (fun w ts => IsEncoding (inV (construct v).vocab) (w ++ ['✂']) ts)
        (splitIntoWords (fun c => wordDelimiters.contains c) text) tss := by
  obtain ⟨e', tss, h1, h2, h3⟩ := encodeWords_spec
    (splitIntoWords (fun c => wordDelimiters.contains c) text) e res he
    (fun w hw => (c10_words_clean _ text w hw).1)
  refine ⟨e', tss, ?_, h2, h3⟩
  unfold encode
  rw [h1]
  simp only [Outcome.bind]
  by_cases hn : n = 0
  · subst hn; simp
  · rw [if_pos (by omega), if_neg hn, fit_eq, h2.vocab]
    obtain ⟨p, hp⟩ := construct_padding v
    simp [idOf, padding, hp]

theorem reachable_inv {v : Vocab} {e : Encoder} (h : Reachable v e) : EncInv v e := by
  induction h with
  | new => exact ⟨rfl, by intro w ids h; simp [construct, lookup] at h⟩
  | @call e e' text n res r _ hc ih =>
    obtain ⟨e'', tss, h1, h2, _⟩ := encode_spec ih text n res
    rw [hc] at h1
    simp only [Outcome.ok.injEq, Prod.mk.injEq] at h1
    rw [h1.1]; exact h2

/-- The characters between words: space, tab, line feed, carriage return, vertical tab and form feed. -/
def betweenWords (c : Char) : Bool := [' ', '\t', '\n', '\r', '\x0B', '\x0C'].contains c

theorem betweenWords_eq : (fun c => wordDelimiters.contains c) = betweenWords := by
  funext c
  rw [Bool.eq_iff_iff]
  simp only [betweenWords, wordDelimiters, List.contains_iff_mem, List.mem_cons, List.not_mem_nil, or_false]
  constructor
  · rintro (h | h | h | h | h | h)
    · exact .inl h
    · exact .inr (.inl h)
    · exact .inr (.inr (.inr (.inl h)))
    · exact .inr (.inr (.inl h))
    · exact .inr (.inr (.inr (.inr (.inr h))))
    · exact .inr (.inr (.inr (.inr (.inl h))))
  · rintro (h | h | h | h | h | h)
    · exact .inl h
    · exact .inr (.inl h)
    · exact .inr (.inr (.inr (.inl h)))
    · exact .inr (.inr (.inl h))
    · exact .inr (.inr (.inr (.inr (.inr h))))
    · exact .inr (.inr (.inr (.inr (.inl h))))

/-- C40: at any time in the life of an encoder, `encode` ends normally and appends the ids of the
tokens of the words of the text (each word followed by the word delimiter), cut or padded to the
target length if one is given; the tokens of a word are the ones defined by byte pair encoding over
the vocabulary. -/
theorem c40_encode {v : Vocab} {e : Encoder} (h : Reachable v e) (text : List Char) (n : ℕ)
    (res : List ℤ) :
    ∃ e' tss, Reachable v e' ∧
      List.Forall₂ (fun w ts => IsEncoding (fun t => (lookup (construct v).vocab t).isSome) (w ++ ['✂']) ts)
        (splitIntoWords betweenWords text) tss ∧
      encode e text n res = .ok (e', if n = 0 then res ++ tss.flatten.map (idOf v)
        else fit n (idOf v ['⊛']) (res ++ tss.flatten.map (idOf v))) := by
  obtain ⟨e', tss, h1, _, h3⟩ := encode_spec (reachable_inv h) text n res
  rw [betweenWords_eq] at h3
  exact ⟨e', tss, Reachable.call h h1, h3, h1⟩

/-- C40: the answer does not depend on the history - two encoders made from the same vocabulary give
the same answer, whatever they were used for before (caching is transparent). -/
theorem c40_history_independent {v : Vocab} {e1 e2 : Encoder} (h1 : Reachable v e1) (h2 : Reachable v e2)
    (text : List Char) (n : ℕ) (res : List ℤ) :
    ∃ e1' e2' r, encode e1 text n res = .ok (e1', r) ∧ encode e2 text n res = .ok (e2', r) := by
  obtain ⟨e1', t1, _, f1, g1⟩ := c40_encode h1 text n res
  obtain ⟨e2', t2, _, f2, g2⟩ := c40_encode h2 text n res
  have : t1 = t2 := by
    clear g1 g2
    generalize splitIntoWords betweenWords text = ws at f1 f2
    revert t2
    induction f1 with
    | nil => intro t2 f2; cases f2; rfl
    | cons hr _ ih =>
      intro t2 f2
      cases f2 with
      | cons hr' hs => rw [c40_encoding_unique _ _ _ _ hr hr', ih _ hs]
  subst this
  exact ⟨e1', e2', _, g1, g2⟩

/-- C40: if a target length is given, the result vector has exactly that length afterwards. -/
theorem c40_length {v : Vocab} {e e' : Encoder} (h : Reachable v e) (text : List Char) (n : ℕ)
    (hn : 0 < n) (res r : List ℤ) (hr : encode e text n res = .ok (e', r)) : r.length = n := by
  obtain ⟨_, tss, _, _, h1⟩ := c40_encode h text n res
  rw [hr] at h1
  simp only [Outcome.ok.injEq, Prod.mk.injEq] at h1
  rw [h1.2, if_neg (by omega), fit, List.length_take, List.length_append, List.length_replicate]
  omega

/-- A limit of C40: the target length is applied to the whole result vector, not to the ids of this
call: if the vector already holds at least as many ids, nothing is appended, and ids of earlier calls
are removed. -/
theorem c40_nonempty_result_cut {v : Vocab} {e e' : Encoder} (h : Reachable v e) (text : List Char) (n : ℕ)
    (hn : 0 < n) (res r : List ℤ) (hlen : n ≤ res.length) (hr : encode e text n res = .ok (e', r)) :
    r = res.take n := by
  obtain ⟨_, tss, _, _, h1⟩ := c40_encode h text n res
  rw [hr] at h1
  simp only [Outcome.ok.injEq, Prod.mk.injEq] at h1
  rw [h1.2, if_neg (by omega), fit, List.append_assoc, List.take_append_of_le_length hlen]

/-- C40 (meta symbols): if the vocabulary has none of the three meta symbols, they get the three ids
after its size, all other tokens keep their ids - so the meta symbols' ids are unused if the ids of
the vocabulary are smaller than its size. -/
theorem c40_meta_symbols (v : Vocab) (h1 : lookup v ['⊛'] = none) (h2 : lookup v ['⌾'] = none)
    (h3 : lookup v ['✂'] = none) :
    idOf v ['⊛'] = v.length ∧ idOf v ['⌾'] = v.length + 1 ∧ idOf v ['✂'] = v.length + 2 ∧
    (∀ t, t ≠ ['⊛'] → t ≠ ['⌾'] → t ≠ ['✂'] → idOf v t = (lookup v t).getD (v.length + 1)) ∧
    (∀ t, inV (construct v).vocab t = true ↔
      t = ['⊛'] ∨ t = ['⌾'] ∨ t = ['✂'] ∨ (lookup v t).isSome = true) := by
  have hlen : ∀ (m : Vocab) (k : List Char) (x : ℤ), lookup m k = none → (assign m k x).length = m.length + 1 := by
    intro m k x
    induction m with
    | nil => intro _; rfl
    | cons e es ih =>
      intro h
      unfold lookup at h
      split at h
      · cases h
      · next hne => rw [assign, if_neg hne, List.length_cons, ih h, List.length_cons]
  have l1 : (assign v padding v.length).length = v.length + 1 := hlen _ _ _ h1
  have l2 : (assign (assign v padding v.length) unknown (assign v padding v.length).length).length =
      v.length + 2 := by
    rw [hlen _ _ _, l1]
    rw [lookup_assign]; simp [unknown, padding]; exact h2
  have hl : ∀ t, lookup (construct v).vocab t =
      if t = ['✂'] then some ((v.length : ℤ) + 2) else if t = ['⌾'] then some ((v.length : ℤ) + 1)
      else if t = ['⊛'] then some (v.length : ℤ) else lookup v t := by
    intro t
    unfold construct
    simp only [lookup_assign, l2]
    rw [l1]
    simp only [unknown, padding, wordDelim, Nat.cast_add, Nat.cast_one, Nat.cast_ofNat]
    rfl
  have hu : lookup (construct v).vocab ['⌾'] = some ((v.length : ℤ) + 1) := by rw [hl]; simp
  refine ⟨?_, ?_, ?_, ?_, ?_⟩
  · unfold idOf; rw [hl]; simp
  · unfold idOf; rw [hl]; simp
  · unfold idOf; rw [hl]; simp
  · intro t a b c
    unfold idOf
    rw [hu, hl, if_neg c, if_neg b, if_neg a]
    rfl
  · intro t
    unfold inV
    rw [hl]
    by_cases a : t = ['✂']
    · simp [a]
    · by_cases b : t = ['⌾']
      · simp [b]
      · by_cases c : t = ['⊛']
        · simp [c]
        · simp [a, b, c]

/-- A limit of C40: if the vocabulary already contains the padding symbol, padding and unknown characters get the same id. -/
theorem c40_padding_in_vocabulary_clash (v : Vocab) (p : ℤ) (h1 : lookup v ['⊛'] = some p) :
    idOf v ['⊛'] = idOf v ['⌾'] := by
  have hlen : ∀ (m : Vocab) (k : List Char) (x y : ℤ), lookup m k = some y → (assign m k x).length = m.length := by
    intro m k x y
    induction m with
    | nil => intro h; cases h
    | cons e es ih =>
      intro h
      unfold lookup at h
      split at h
      · next heq => rw [assign, if_pos heq]; rfl
      · next hne => rw [assign, if_neg hne, List.length_cons, ih h, List.length_cons]
  have l1 : (assign v padding v.length).length = v.length := hlen _ _ _ _ h1
  unfold idOf construct
  simp only [lookup_assign, l1]
  simp [unknown, padding, wordDelim]

/-! ### Examples -/

/-- A vocabulary for examples: "ab" and "abc" are tokens. -/
def sampleVocab : Vocab :=
  [(['a'], 0), (['b'], 1), (['c'], 2), (['a', 'b'], 3), (['a', 'b', 'c'], 4), (['c', '✂'], 5)]

/-- The sample vocabulary meets the hypotheses of `c40_meta_symbols`. -/
example : lookup sampleVocab ['⊛'] = none ∧ lookup sampleVocab ['⌾'] = none ∧
    lookup sampleVocab ['✂'] = none := by decide +kernel

/-- A vocabulary with the padding symbol meets the hypothesis of `c40_padding_in_vocabulary_clash`. -/
example : lookup (sampleVocab ++ [(['⊛'], 6)]) ['⊛'] = some 6 := by decide +kernel

/-- A second call with the same result vector (hypotheses of `c40_nonempty_result_cut`). -/
example : Reachable sampleVocab (construct sampleVocab) ∧ 2 ≤ ([3, 8, 1] : List ℤ).length :=
  ⟨Reachable.new, by decide⟩

/-- Two calls on one encoder: padding, cutting, an unknown character (7) and the delimiter (8). -/
example : ((encode (construct sampleVocab) "abxc ab".toList 9 []).bind fun r =>
    (encode r.1 "ab".toList 0 []).bind fun r' => .ok (r.2, r'.2)) =
    .ok ([3, 7, 5, 3, 8, 6, 6, 6, 6], [3, 8]) := by decide +kernel

end Verif.Props

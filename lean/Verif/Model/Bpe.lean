import Verif.Model.Text
import Verif.Model.Outcome
import Verif.Model.Math

/-!
# Model of `/repo/src/utils/BytePairEncoder.cpp`

A `wstring` is a list of characters (code points; a `wchar_t` that is no Unicode scalar value is not
modelled).  An `unordered_map` is an association list; its order is not observable here.
-/

namespace Verif.Bpe

open Verif.Text

/-- `unordered_map<wstring, int>`, `/repo/src/utils/BytePairEncoder.h` (`_vocabulary`). -/
abbrev Vocab := List (List Char × ℤ)

/-- `map.find(key)` for the two maps of `/repo/src/utils/BytePairEncoder.h`. -/
def lookup {β : Type} (m : List (List Char × β)) (key : List Char) : Option β :=
  match m with
  | [] => none
  | e :: es => if e.1 = key then some e.2 else lookup es key

/-- `map[key] = value`, e.g. `/repo/src/utils/BytePairEncoder.cpp:36`. -/
def assign {β : Type} (m : List (List Char × β)) (key : List Char) (value : β) : List (List Char × β) :=
  match m with
  | [] => [(key, value)]
  | e :: es => if e.1 = key then (e.1, value) :: es else e :: assign es key value

/-- `PADDING_SYMBOL`, `/repo/src/utils/BytePairEncoder.h` (U+229B). -/
def padding : List Char := ['⊛']

/-- `UNKNOWN_CHAR_SYMBOL`, `/repo/src/utils/BytePairEncoder.h` (U+233E). -/
def unknown : List Char := ['⌾']

/-- `WORD_DELIM_SYMBOL`, `/repo/src/utils/BytePairEncoder.h` (U+2702). -/
def wordDelim : List Char := ['✂']

/-- The object: vocabulary and cache, `/repo/src/utils/BytePairEncoder.h`. -/
structure Encoder where
  vocab : Vocab
  cache : List (List Char × List ℤ) := []

/-- The constructor, `/repo/src/utils/BytePairEncoder.cpp:32-39`.  In `v[s] = v.size()` the right side
is evaluated first (C++17 and later; the Makefile uses C++20). -/
def construct (vocabulary : Vocab) : Encoder :=
  let v1 := assign vocabulary padding vocabulary.length
  let v2 := assign v1 unknown v1.length
  let v3 := assign v2 wordDelim v2.length
  { vocab := v3 }

/-- Add position `i` to the entry of `merged`, or a new entry at the end,
`/repo/src/utils/BytePairEncoder.cpp:199-212`. -/
def addPosition (merged : List Char) (i : ℕ) :
    List (List Char × List ℕ) → List (List Char × List ℕ)
  | [] => [(merged, [i])]
  | e :: es => if e.1 = merged then (e.1, e.2 ++ [i]) :: es else e :: addPosition merged i es

/-- The loop of `computeTokenPairPositions`, `/repo/src/utils/BytePairEncoder.cpp:195-213`; `i` is the
position of `prev`. -/
def pairLoop (i : ℕ) (prev : List Char) (acc : List (List Char × List ℕ)) :
    List (List Char) → List (List Char × List ℕ)
  | [] => acc
  | t :: ts => pairLoop (i + 1) t (addPosition (prev ++ t) i acc) ts

/-- `computeTokenPairPositions`, `/repo/src/utils/BytePairEncoder.cpp:186-214`. -/
def tokenPairPositions (tokens : List (List Char)) : List (List Char × List ℕ) :=
  match tokens with
  | [] => []
  | t :: ts => pairLoop 0 t [] ts

/-- The positions of the first token pair in the vocabulary,
`/repo/src/utils/BytePairEncoder.cpp:123-130`. -/
def firstMatching (v : Vocab) : List (List Char × List ℕ) → Option (List ℕ)
  | [] => none
  | e :: es => if (lookup v e.1).isSome then some e.2 else firstMatching v es

/-- Merging at the given positions, `/repo/src/utils/BytePairEncoder.cpp:140-151`; the list is the part
of the tokens from index `i` on.  Reading behind the last token is undefined. -/
def mergeAt (positions : List ℕ) (i : ℕ) : List (List Char) → Outcome (List (List Char))
  | [] => .ok []
  | [t] => if i ∈ positions then .ub "wordTokens[i + 1] out of range" else .ok [t]
  | t :: u :: rest =>
    if i ∈ positions then (mergeAt positions (i + 2) rest).bind fun r => .ok ((t ++ u) :: r)
    else (mergeAt positions (i + 1) (u :: rest)).bind fun r => .ok (t :: r)

theorem mergeAt_length (positions : List ℕ) : ∀ (n i : ℕ) (ts r : List (List Char)), ts.length = n →
    mergeAt positions i ts = .ok r → r.length ≤ ts.length ∧
      ((∃ p ∈ positions, i ≤ p ∧ p < i + ts.length) → r.length < ts.length) := by
  intro n
  induction n using Nat.strong_induction_on with
  | _ n ih =>
    intro i ts r hn h
    match ts, hn with
    | [], _ =>
      simp only [mergeAt, Outcome.ok.injEq] at h
      subst h
      refine ⟨le_refl _, ?_⟩
      rintro ⟨p, _, h1, h2⟩
      simp only [List.length_nil] at h2
      omega
    | [t], _ =>
      unfold mergeAt at h
      split at h
      · cases h
      · next hi =>
        simp only [Outcome.ok.injEq] at h
        subst h
        refine ⟨le_refl _, ?_⟩
        rintro ⟨p, hp, h1, h2⟩
        simp only [List.length_singleton] at h2
        have : p = i := by omega
        subst this
        exact absurd hp hi
    | t :: u :: rest, hn =>
      unfold mergeAt at h
      simp only [List.length_cons] at hn
      split at h
      · cases hm : mergeAt positions (i + 2) rest with
        | ok r' =>
          rw [hm] at h
          simp only [Outcome.bind, Outcome.ok.injEq] at h
          subst h
          have := (ih rest.length (by omega) (i + 2) rest r' rfl hm).1
          simp only [List.length_cons]
          exact ⟨by omega, fun _ => by omega⟩
        | throw m => rw [hm] at h; cases h
        | ub m => rw [hm] at h; cases h
      · next hi =>
        cases hm : mergeAt positions (i + 1) (u :: rest) with
        | ok r' =>
          rw [hm] at h
          simp only [Outcome.bind, Outcome.ok.injEq] at h
          subst h
          obtain ⟨h1, h2⟩ := ih (u :: rest).length (by simp only [List.length_cons]; omega) (i + 1)
            (u :: rest) r' rfl hm
          simp only [List.length_cons] at h1 h2 ⊢
          refine ⟨by omega, ?_⟩
          rintro ⟨p, hp, g1, g2⟩
          have hne : p ≠ i := by rintro rfl; exact hi hp
          have := h2 ⟨p, hp, by omega, by omega⟩
          omega
        | throw m => rw [hm] at h; cases h
        | ub m => rw [hm] at h; cases h

theorem addPosition_valid (P : ℕ → Prop) (m : List Char) (i : ℕ) (acc : List (List Char × List ℕ))
    (hi : P i) (h : ∀ e ∈ acc, e.2 ≠ [] ∧ ∀ p ∈ e.2, P p) :
    ∀ e ∈ addPosition m i acc, e.2 ≠ [] ∧ ∀ p ∈ e.2, P p := by
  induction acc with
  | nil => intro e he; simp [addPosition] at he; subst he; simpa using hi
  | cons x xs ih =>
    intro e he
    unfold addPosition at he
    split at he
    · rcases List.mem_cons.mp he with rfl | he
      · refine ⟨by simp, ?_⟩
        intro p hp
        rcases List.mem_append.mp hp with hp | hp
        · exact (h x (by simp)).2 p hp
        · rw [List.mem_singleton] at hp; subst hp; exact hi
      · exact h e (by simp [he])
    · rcases List.mem_cons.mp he with rfl | he
      · exact h _ (by simp)
      · exact ih (fun e he => h e (by simp [he])) e he

theorem pairLoop_valid (n : ℕ) (ts : List (List Char)) : ∀ (i : ℕ) (prev : List Char)
    (acc : List (List Char × List ℕ)), i + ts.length < n →
    (∀ e ∈ acc, e.2 ≠ [] ∧ ∀ p ∈ e.2, p + 1 < n) →
    ∀ e ∈ pairLoop i prev acc ts, e.2 ≠ [] ∧ ∀ p ∈ e.2, p + 1 < n := by
  induction ts with
  | nil => intro i prev acc _ h; exact h
  | cons t ts ih =>
    intro i prev acc hlen h
    simp only [List.length_cons] at hlen
    exact ih (i + 1) t _ (by omega) (addPosition_valid (fun p => p + 1 < n) _ _ _ (by omega) h)

theorem tokenPairPositions_valid (tokens : List (List Char)) :
    ∀ e ∈ tokenPairPositions tokens, e.2 ≠ [] ∧ ∀ p ∈ e.2, p + 1 < tokens.length := by
  cases tokens with
  | nil => simp [tokenPairPositions]
  | cons t ts => exact pairLoop_valid _ ts 0 t [] (by simp) (by simp)

theorem firstMatching_mem (v : Vocab) (pp : List (List Char × List ℕ)) (ps : List ℕ)
    (h : firstMatching v pp = some ps) : ∃ e ∈ pp, e.2 = ps := by
  induction pp with
  | nil => simp [firstMatching] at h
  | cons e es ih =>
    unfold firstMatching at h
    split at h
    · exact ⟨e, by simp, by simpa using h⟩
    · obtain ⟨x, hx, h'⟩ := ih h
      exact ⟨x, by simp [hx], h'⟩

/-- The rounds, `/repo/src/utils/BytePairEncoder.cpp:118-165`: the tokens after the last round. -/
def rounds (v : Vocab) (tokens : List (List Char)) : Outcome (List (List Char)) :=
  match h : firstMatching v (tokenPairPositions tokens) with
  | none => .ok tokens
  | some ps =>
    match h' : mergeAt ps 0 tokens with
    | .ok tokens' => if tokens'.length = 1 then .ok tokens' else rounds v tokens'
    | .throw m => .throw m
    | .ub m => .ub m
termination_by tokens.length
decreasing_by
  obtain ⟨e, he, rfl⟩ := firstMatching_mem _ _ _ h
  obtain ⟨h1, h2⟩ := tokenPairPositions_valid tokens e he
  obtain ⟨p, hp⟩ := List.exists_mem_of_ne_nil _ h1
  exact (mergeAt_length _ _ 0 tokens tokens' rfl h').2 ⟨p, hp, by omega, by have := h2 p hp; omega⟩

/-- The id of a token, `/repo/src/utils/BytePairEncoder.cpp:174-181` (`_vocabulary[UNKNOWN_CHAR_SYMBOL]`
is 0 for a missing entry, which cannot happen after construction). -/
def tokenId (v : Vocab) (token : List Char) : ℤ :=
  match lookup v token with
  | some id => id
  | none => (lookup v unknown).getD 0

/-- `encodeWord`, `/repo/src/utils/BytePairEncoder.cpp:88-183`: the new state of the object and the ids
that are appended to the result.  For a word of one character `_vocabulary[word]` inserts the word
with id 0 if it is missing (lines 114-117). -/
def encodeWord (e : Encoder) (word : List Char) : Outcome (Encoder × List ℤ) :=
  if word.length = 0 then .ok (e, [])
  else match lookup e.cache word with
    | some ids => .ok (e, ids)
    | none =>
      let tokens := word.map fun c => [c]
      if (tokenPairPositions tokens).length = 0 then
        match lookup e.vocab word with
        | some id => .ok (e, [id])
        | none => .ok ({ e with vocab := assign e.vocab word 0 }, [0])
      else (rounds e.vocab tokens).bind fun ts =>
        let ids := ts.map (tokenId e.vocab)
        .ok ({ e with cache := assign e.cache word ids }, ids)

/-- The loop over the words, `/repo/src/utils/BytePairEncoder.cpp:52-67`. -/
def encodeWords (e : Encoder) : List (List Char) → List ℤ → Outcome (Encoder × List ℤ)
  | [], res => .ok (e, res)
  | w :: ws, res =>
    if w.length = 0 then encodeWords e ws res
    else (encodeWord e (w ++ wordDelim)).bind fun r => encodeWords r.1 ws (res ++ r.2)

/-- `res->push_back` until the target length is reached, `/repo/src/utils/BytePairEncoder.cpp:77-79`. -/
def padTo (pad : ℤ) (n : ℕ) (res : List ℤ) : List ℤ :=
  if res.length < n then padTo pad n (res ++ [pad]) else res
termination_by n - res.length

/-- `res->pop_back` until the target length is reached, `/repo/src/utils/BytePairEncoder.cpp:81-83`. -/
def cutTo (n : ℕ) (res : List ℤ) : List ℤ :=
  if res.length > n then cutTo n res.dropLast else res
termination_by res.length

/-- `encode`, `/repo/src/utils/BytePairEncoder.cpp:43-85`, with the default delimiters
(`/repo/src/Config.h:49`): new state and new content of the result vector. -/
def encode (e : Encoder) (text : List Char) (targetLength : ℕ) (res : List ℤ) :
    Outcome (Encoder × List ℤ) :=
  (encodeWords e (splitIntoWords (fun c => wordDelimiters.contains c) text) res).bind fun r =>
    if targetLength > 0 then
      .ok (r.1, cutTo targetLength (padTo ((lookup r.1.vocab padding).getD 0) targetLength r.2))
    else .ok r

end Verif.Bpe

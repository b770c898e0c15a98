import Verif.Model.Text
import Verif.Spec.Text
import Mathlib.Tactic.IntervalCases
import Mathlib.Tactic.SplitIfs
import Mathlib.Tactic.Tauto

/-!
# Text utilities: C10-C16
-/

namespace Verif.Props

open Verif.Text Verif.Spec

/-! ## C10: splitIntoWords -/

theorem isSplit_cons_delim {α : Type} {d : α → Bool} {c : α} {t : List α} {ws : List (List α)}
    (hc : d c = true) (h : IsSplit d t ws) : IsSplit d (c :: t) ws := by
  cases h with
  | done pre hpre => exact .done _ (by simpa using ⟨hc, hpre⟩)
  | word pre w rest ws hpre hne hw hmax hrest =>
    exact IsSplit.word (c :: pre) w rest ws (by simpa using ⟨hc, hpre⟩) hne hw hmax hrest

theorem isSplit_prepend {α : Type} {d : α → Bool} {t : List α} {ws : List (List α)}
    (h : IsSplit d t ws) : ∀ pre : List α, (∀ c ∈ pre, d c = true) → IsSplit d (pre ++ t) ws
  | [], _ => h
  | c :: pre, hp => isSplit_cons_delim (hp c (by simp))
      (isSplit_prepend h pre fun x hx => hp x (by simp [hx]))

theorem findFirstOf_some {α : Type} {p : α → Bool} {text : List α} {pos i : Nat}
    (h : findFirstOf p text pos = some i) :
    pos ≤ i ∧ (∃ hi : i < text.length, p text[i] = true) ∧
      (∀ c ∈ (text.drop pos).take (i - pos), p c = false) := by
  unfold findFirstOf at h
  cases hf : (text.drop pos).findIdx? p with
  | none => rw [hf] at h; cases h
  | some j =>
    rw [hf] at h
    have hj : j + pos = i := by simpa using h
    obtain ⟨h1, h2, h3⟩ := List.findIdx?_eq_some_iff_getElem.mp hf
    simp only [List.length_drop] at h1
    refine ⟨by omega, ⟨by omega, ?_⟩, ?_⟩
    · simp only [List.getElem_drop] at h2
      have : pos + j = i := by omega
      simpa [this] using h2
    · intro c hc
      obtain ⟨k, hk, rfl⟩ := List.mem_iff_getElem.mp hc
      simp only [List.length_take, List.length_drop] at hk
      have := h3 k (by omega)
      simpa using this

theorem findFirstOf_none {α : Type} {p : α → Bool} {text : List α} {pos : Nat}
    (h : findFirstOf p text pos = none) : ∀ c ∈ text.drop pos, p c = false := by
  unfold findFirstOf at h
  simpa using h

theorem isSplit_splitLoop {α : Type} (d : α → Bool) (text : List α) :
    ∀ n pos, text.length + 1 - pos ≤ n →
      IsSplit d (text.drop pos) (splitLoop d text (findFirstOf (fun c => !d c) text pos)) := by
  intro n
  induction n with
  | zero =>
    intro pos hpos
    have : text.drop pos = [] := by simp; omega
    have h0 : findFirstOf (fun c => !d c) text pos = none := by simp [findFirstOf, this]
    rw [h0, this, splitLoop]
    exact .done [] (by simp)
  | succ n ih =>
    intro pos hpos
    cases hf : findFirstOf (fun c => !d c) text pos with
    | none =>
      rw [splitLoop]
      exact .done _ fun c hc => by simpa using findFirstOf_none hf c hc
    | some s =>
      obtain ⟨hle, ⟨hlt, hs⟩, hpre⟩ := findFirstOf_some hf
      have hsd : d text[s] = false := by simpa using hs
      rw [splitLoop, dif_pos hlt]
      have hsplit : text.drop pos = (text.drop pos).take (s - pos) ++ text.drop s := by
        conv_lhs => rw [← List.take_append_drop (s - pos) (text.drop pos)]
        rw [List.drop_drop]
        congr 2; omega
      rw [hsplit]
      refine isSplit_prepend ?_ _ (fun c hc => by simpa using hpre c hc)
      cases hst : findFirstOf d text s with
      | none =>
        have hall := findFirstOf_none hst
        have hnext : findFirstOf (fun c => !d c) text (text.length + 1) = none := by
          simp [findFirstOf, List.drop_eq_nil_of_le (show text.length ≤ text.length + 1 by omega)]
        simp only [Option.getD_none, hnext]
        have hw : (text.drop s).take (text.length - s) = text.drop s := by
          rw [List.take_of_length_le]; simp
        rw [hw, splitLoop]
        have := IsSplit.word (d := d) [] (text.drop s) [] [] (by simp)
          (by simp; omega) hall (by simp) (.done [] (by simp))
        simpa using this
      | some stop =>
        obtain ⟨hle2, ⟨hlt2, hsd2⟩, hw⟩ := findFirstOf_some hst
        simp only [Option.getD_some]
        have hne : s ≠ stop := by
          rintro rfl; rw [hsd] at hsd2; cases hsd2
        have hrec := ih (stop + 1) (by omega)
        have hdrop : text.drop stop = text[stop] :: text.drop (stop + 1) :=
          List.drop_eq_getElem_cons hlt2
        have hrec2 := isSplit_cons_delim hsd2 hrec
        rw [← hdrop] at hrec2
        have hdecomp : text.drop s = [] ++ (text.drop s).take (stop - s) ++ text.drop stop := by
          conv_lhs => rw [← List.take_append_drop (stop - s) (text.drop s)]
          rw [List.drop_drop]
          simp only [List.nil_append]
          congr 2; omega
        conv => arg 2; rw [hdecomp]
        refine IsSplit.word [] _ _ _ (by simp) ?_ hw ?_ hrec2
        · intro h0
          have := congrArg List.length h0
          simp at this; omega
        · intro c hc
          rw [hdrop, List.head?_cons] at hc
          rw [← Option.some.inj hc]; exact hsd2

/-- C10 (specification): `splitIntoWords` returns the maximal runs of non-delimiters, in order. -/
theorem c10_split_isSplit {α : Type} (d : α → Bool) (text : List α) :
    IsSplit d text (splitIntoWords d text) := by
  have := isSplit_splitLoop d text _ 0 (Nat.le_refl _)
  simpa [splitIntoWords] using this

theorem isSplit_unique {α : Type} {d : α → Bool} {text : List α} {ws ws' : List (List α)}
    (h : IsSplit d text ws) (h' : IsSplit d text ws') : ws = ws' := by
  induction h generalizing ws' with
  | done pre hpre =>
    cases h' with
    | done _ _ => rfl
    | word pre' w rest ws hpre' hne hw hmax hrest =>
      exfalso
      cases w with
      | nil => exact hne rfl
      | cons c w =>
        have h1 := hpre c (by simp)
        have h2 := hw c (by simp)
        rw [h1] at h2; cases h2
  | word pre w rest ws hpre hne hw hmax hrest ih =>
    generalize ht : pre ++ w ++ rest = t at h'
    cases h' with
    | done _ hpre' =>
      exfalso
      cases w with
      | nil => exact hne rfl
      | cons c w =>
        have h1 := hpre' c (by simp [← ht])
        have h2 := hw c (by simp)
        rw [h1] at h2; cases h2
    | word pre' w' rest' ws' hpre' hne' hw' hmax' hrest' =>
      -- the delimiter prefixes agree
      have hpp : pre = pre' ∧ w ++ rest = w' ++ rest' := by
        have key : ∀ (p q : List α) (x y : List α), (∀ c ∈ p, d c = true) → (∀ c ∈ q, d c = true) →
            (∀ c, x.head? = some c → d c = false) → (∀ c, y.head? = some c → d c = false) →
            x ≠ [] → y ≠ [] → p ++ x = q ++ y → p = q ∧ x = y := by
          intro p
          induction p with
          | nil =>
            intro q x y _ hq hx _ hxn _ he
            cases q with
            | nil => exact ⟨rfl, by simpa using he⟩
            | cons c q =>
              have h1 := hx c (by simp at he; rw [he]; simp)
              have h2 := hq c (by simp)
              rw [h1] at h2; cases h2
          | cons a p ihp =>
            intro q x y hp hq hx hy hxn hyn he
            cases q with
            | nil =>
              have h1 := hy a (by simp at he; rw [← he]; simp)
              have h2 := hp a (by simp)
              rw [h1] at h2; cases h2
            | cons c q =>
              simp at he
              obtain ⟨rfl, he⟩ := he
              obtain ⟨rfl, rfl⟩ := ihp q x y (fun c hc => hp c (by simp [hc]))
                (fun c hc => hq c (by simp [hc])) hx hy hxn hyn he
              exact ⟨rfl, rfl⟩
        refine key pre pre' (w ++ rest) (w' ++ rest') hpre hpre' ?_ ?_ (by simp [hne])
          (by simp [hne']) (by simpa [List.append_assoc] using ht)
        · intro c hc
          cases w with
          | nil => exact absurd rfl hne
          | cons b w => simp at hc; exact hw c (by simp [hc])
        · intro c hc
          cases w' with
          | nil => exact absurd rfl hne'
          | cons b w => simp at hc; exact hw' c (by simp [hc])
      have hww : w = w' ∧ rest = rest' := by
        have key : ∀ (p q : List α) (x y : List α), (∀ c ∈ p, d c = false) →
            (∀ c ∈ q, d c = false) → (∀ c, x.head? = some c → d c = true) →
            (∀ c, y.head? = some c → d c = true) → p ++ x = q ++ y → p = q ∧ x = y := by
          intro p
          induction p with
          | nil =>
            intro q x y _ hq hx _ he
            cases q with
            | nil => exact ⟨rfl, by simpa using he⟩
            | cons c q =>
              have h1 := hx c (by simp at he; rw [he]; simp)
              have h2 := hq c (by simp)
              rw [h1] at h2; cases h2
          | cons a p ihp =>
            intro q x y hp hq hx hy he
            cases q with
            | nil =>
              have h1 := hy a (by simp at he; rw [← he]; simp)
              have h2 := hp a (by simp)
              rw [h1] at h2; cases h2
            | cons c q =>
              simp at he
              obtain ⟨rfl, he⟩ := he
              obtain ⟨rfl, rfl⟩ := ihp q x y (fun c hc => hp c (by simp [hc]))
                (fun c hc => hq c (by simp [hc])) hx hy he
              exact ⟨rfl, rfl⟩
        exact key w w' rest rest' hw hw' hmax hmax' hpp.2
      obtain ⟨rfl, rfl⟩ := hww
      rw [ih hrest']

/-- C10: the specification determines the result, so `splitIntoWords` is the one function that
returns the maximal runs. -/
theorem c10_split_unique {α : Type} (d : α → Bool) (text : List α) (ws : List (List α)) :
    IsSplit d text ws ↔ ws = splitIntoWords d text :=
  ⟨fun h => isSplit_unique h (c10_split_isSplit d text), fun h => h ▸ c10_split_isSplit d text⟩

/-- C10: no returned word is empty or contains a delimiter. -/
theorem c10_words_clean {α : Type} (d : α → Bool) (text : List α) :
    ∀ w ∈ splitIntoWords d text, w ≠ [] ∧ ∀ c ∈ w, d c = false := by
  have h := c10_split_isSplit d text
  revert h
  generalize splitIntoWords d text = ws
  intro h
  induction h with
  | done => simp
  | word pre w rest ws hpre hne hw hmax hrest ih =>
    intro x hx
    rcases List.mem_cons.mp hx with rfl | hx
    · exact ⟨hne, hw⟩
    · exact ih x hx

/-- C10: the concatenation of the words is the text without its delimiters. -/
theorem c10_words_flatten {α : Type} (d : α → Bool) (text : List α) :
    (splitIntoWords d text).flatten = text.filter fun c => !d c := by
  have h := c10_split_isSplit d text
  revert h
  generalize splitIntoWords d text = ws
  intro h
  induction h with
  | done pre hpre =>
    symm
    simpa using hpre
  | word pre w rest ws hpre hne hw hmax hrest ih =>
    have h1 : pre.filter (fun c => !d c) = [] := by simpa using hpre
    have h2 : w.filter (fun c => !d c) = w := by simpa using hw
    simp [List.filter_append, h1, h2, ih]

example : splitIntoWords (fun c => wordDelimiters.contains c) " ab  c\n".toList
    = [['a', 'b'], ['c']] := by
  refine ((c10_split_unique _ _ _).mp ?_).symm
  exact IsSplit.word [' '] ['a', 'b'] [' ', ' ', 'c', '\n'] [['c']] (by decide) (by decide)
    (by decide) (by decide)
    (IsSplit.word [' ', ' '] ['c'] ['\n'] [] (by decide) (by decide) (by decide) (by decide)
      (.done ['\n'] (by decide)))

/-! ## C11: escapeJson -/

theorem decodeJson_escapeChar (c : Char) (rest r : List Char) (hr : decodeJson rest = some r) :
    decodeJson (escapeChar c ++ rest) = some (c :: r) := by
  by_cases hlow : c.toNat ≤ 31
  · have hc : c = Char.ofNat c.toNat := (Char.ofNat_toNat c).symm
    generalize hn : c.toNat = n at *
    subst hc
    interval_cases n <;> simp [escapeChar, decodeJson, simpleEscape, hexDigit, hexValue, utf8, hr]
  · unfold escapeChar
    by_cases h1 : c = '"'
    · subst h1; simp [decodeJson, simpleEscape, hr]
    by_cases h2 : c = '\\'
    · subst h2; simp [decodeJson, simpleEscape, hr]
    have hx : ∀ n, n ≤ 31 → c ≠ Char.ofNat n := by
      rintro n hn rfl
      apply hlow
      interval_cases n <;> decide
    have h3 := hx 8 (by omega)
    have h4 := hx 12 (by omega)
    have h5 : c ≠ '\n' := hx 10 (by omega)
    have h6 : c ≠ '\r' := hx 13 (by omega)
    have h7 : c ≠ '\t' := hx 9 (by omega)
    simp only [h1, h2, h3, h4, h5, h6, h7, hlow, if_false, List.singleton_append]
    rw [decodeJson]
    · have : ¬ (c.toNat < 32) := by omega
      simp [h1, this, hr]
    all_goals (intros; simp_all)

/-- C11: the escaped text is accepted by a JSON string decoder (which rejects raw control
characters, unescaped quotes and bad escapes), and decodes to exactly the original bytes. -/
theorem c11_decode_escape (s : List Char) : decodeJson (escapeJson s) = some s := by
  induction s with
  | nil => rfl
  | cons c s ih =>
    show decodeJson (escapeChar c ++ escapeJson s) = _
    exact decodeJson_escapeChar c _ _ ih

/-- C11: different texts have different encodings. -/
theorem c11_escape_injective (s t : List Char) (h : escapeJson s = escapeJson t) : s = t := by
  have := c11_decode_escape s
  rw [h, c11_decode_escape t] at this
  exact (Option.some.inj this).symm

/-- C11: the escaped text contains no raw control character, so a record stays on one line. -/
theorem c11_escape_no_control (s : List Char) : ∀ c ∈ escapeJson s, 32 ≤ c.toNat := by
  intro x hx
  obtain ⟨c, _, hx⟩ := List.mem_flatMap.mp hx
  by_cases hlow : c.toNat ≤ 31
  · have hc : c = Char.ofNat c.toNat := (Char.ofNat_toNat c).symm
    generalize hn : c.toNat = n at *
    subst hc
    interval_cases n <;> simp [escapeChar, hexDigit] at hx <;>
      (rcases hx with rfl | rfl | rfl | rfl | rfl | rfl) <;> decide
  · unfold escapeChar at hx
    split_ifs at hx <;> simp at hx <;> (try rcases hx with rfl | rfl) <;> first | decide | omega

example : escapeJson ['"', Char.ofNat 1, 'a'] = ['\\', '"', '\\', 'u', '0', '0', '0', '1', 'a'] := by
  decide

/-! ## C12: wrap -/

theorem isSplit_append_delim {α : Type} {d : α → Bool} {a b : List α} {c : α}
    {ws ws' : List (List α)} (hc : d c = true) (h : IsSplit d a ws) (h' : IsSplit d b ws') :
    IsSplit d (a ++ c :: b) (ws ++ ws') := by
  induction h with
  | done pre hpre => exact isSplit_prepend (isSplit_cons_delim hc h') _ hpre
  | word pre w rest ws hpre hne hw hmax hrest ih =>
    have := IsSplit.word pre w (rest ++ c :: b) (ws ++ ws') hpre hne hw ?_ ih
    · simpa [List.append_assoc] using this
    · intro x hx
      cases rest with
      | nil => simp at hx; rw [← hx]; exact hc
      | cons r rest => simp at hx; exact hmax x (by simp [hx])

theorem split_append_delim {α : Type} (d : α → Bool) (a b : List α) (c : α) (hc : d c = true) :
    splitIntoWords d (a ++ c :: b) = splitIntoWords d a ++ splitIntoWords d b :=
  ((c10_split_unique d _ _).mp
    (isSplit_append_delim hc (c10_split_isSplit d a) (c10_split_isSplit d b))).symm

theorem split_prepend {α : Type} (d : α → Bool) (pre t : List α) (h : ∀ c ∈ pre, d c = true) :
    splitIntoWords d (pre ++ t) = splitIntoWords d t :=
  ((c10_split_unique d _ _).mp (isSplit_prepend (c10_split_isSplit d t) pre h)).symm

theorem find_reverse_range {p : Nat → Bool} : ∀ {n i : Nat},
    (List.range n).reverse.find? p = some i → ∀ j, i < j → j < n → p j = false := by
  intro n
  induction n with
  | zero => simp
  | succ n ih =>
    intro i h j hij hj
    rw [List.range_succ, List.reverse_append] at h
    simp only [List.reverse_cons, List.reverse_nil, List.nil_append, List.singleton_append,
      List.find?_cons] at h
    cases hp : p n with
    | true => rw [hp] at h; simp at h; omega
    | false =>
      rw [hp] at h
      rcases Nat.lt_or_ge j n with hjn | hjn
      · exact ih h j hij hjn
      · have : j = n := by omega
        rw [this]; exact hp

theorem rfind_filter_none {c : Char} {s : Str} {pos ls : Nat}
    (h : (rfind c s pos).filter (ls ≤ ·) = none) :
    ∀ j, ls ≤ j → j ≤ pos → s[j]? ≠ some c := by
  intro j h1 h2 h3
  have hj : j < s.length := (List.getElem?_eq_some_iff.mp h3).1
  cases hr : rfind c s pos with
  | none =>
    unfold rfind at hr
    simp only [List.find?_eq_none] at hr
    have := hr j (by simp; omega)
    simp [h3] at this
  | some i =>
    rw [hr] at h
    simp at h
    unfold rfind at hr
    have := find_reverse_range hr j (by omega) (by omega)
    simp [h3] at this

theorem wrapLimit_eq {ls width indent : Nat} (hi : indent ≤ width) (hw : ls + width < 2 ^ 32) :
    wrapLimit ls width indent = ls + (width - indent) := by
  unfold wrapLimit
  have h1 : ls + width + (2 ^ 32 - indent) = (ls + (width - indent)) + 2 ^ 32 := by omega
  rw [h1, Nat.add_mod_right, Nat.mod_eq_of_lt (by omega)]

/-- What `wrap` does to a text: it is cut at blanks and newlines into pieces, the cut characters are
dropped, and every piece is put on a line of its own behind the indent. -/
structure IsWrapping (s : Str) (width indent : Nat) (out : Str) (pieces : List Str)
    (seps : Str) : Prop where
  count : pieces.length = seps.length + 1
  isSep : ∀ c ∈ seps, c = ' ' ∨ c = '\n'
  source : s = interleave pieces seps
  result : out = List.intercalate ['\n'] (pieces.map (spaces indent ++ ·))
  fits : indent ≤ width → ∀ p ∈ pieces.dropLast, p.length + indent ≤ width
  last : ∀ p, pieces.getLast? = some p → p.length ≤ width ∨
    (∀ c ∈ p.take (width - indent + 1), c ≠ ' ' ∧ c ≠ '\n')

theorem isWrapping_last {s : Str} {width indent : Nat}
    (h : s.length ≤ width ∨ ∀ c ∈ s.take (width - indent + 1), c ≠ ' ' ∧ c ≠ '\n') :
    IsWrapping s width indent (spaces indent ++ s) [s] [] where
  count := rfl
  isSep := by simp
  source := rfl
  result := by simp [List.intercalate]
  fits := by simp
  last := by
    intro p hp
    simp at hp; subst hp; exact h

theorem isWrapping_cons {s rest : Str} {width indent : Nat} {out p : Str} {c : Char}
    {pieces : List Str} {seps : Str} (hc : c = ' ' ∨ c = '\n') (hs : s = p ++ c :: rest)
    (hp : indent ≤ width → p.length + indent ≤ width)
    (h : IsWrapping rest width indent out pieces seps) :
    IsWrapping s width indent (spaces indent ++ p ++ ['\n'] ++ out) (p :: pieces) (c :: seps) := by
  have hne : pieces ≠ [] := by
    intro h0; have := h.count; rw [h0] at this; simp at this
  refine ⟨by simp [h.count], ?_, ?_, ?_, ?_, ?_⟩
  · intro x hx
    rcases List.mem_cons.mp hx with rfl | hx
    · exact hc
    · exact h.isSep x hx
  · rw [hs, interleave, ← h.source]
  · rw [h.result]
    cases pieces with
    | nil => exact absurd rfl hne
    | cons q pieces => simp [List.intercalate]
  · intro hi q hq
    rw [List.dropLast_cons_of_ne_nil hne] at hq
    rcases List.mem_cons.mp hq with rfl | hq
    · exact hp hi
    · exact h.fits hi q hq
  · intro q hq
    rw [List.getLast?_cons_of_ne_nil hne] at hq
    exact h.last q hq

theorem drop_split {s : Str} {a b : Nat} {c : Char} (hab : a ≤ b) (hb : s[b]? = some c) :
    s.drop a = (s.drop a).take (b - a) ++ c :: s.drop (b + 1) := by
  obtain ⟨hlt, hget⟩ := List.getElem?_eq_some_iff.mp hb
  conv_lhs => rw [← List.take_append_drop (b - a) (s.drop a)]
  rw [List.drop_drop, show a + (b - a) = b by omega, List.drop_eq_getElem_cons hlt, hget]

theorem wrapLoop_spec (s : Str) (width indent : Nat) (hi : indent ≤ width)
    (hw : s.length + width < 2 ^ 32) :
    ∀ n lineStart, s.length - lineStart ≤ n → lineStart ≤ s.length →
      ∃ pieces seps, IsWrapping (s.drop lineStart) width indent
        (wrapLoop s width indent lineStart) pieces seps := by
  intro n
  induction n with
  | zero =>
    intro ls hn hls
    have h0 : ls = s.length := by omega
    have hnil : s.drop ls = [] := by simp; omega
    have hf : ∀ c pos, (rfind c s pos).filter (ls ≤ ·) = none := by
      intro c pos
      cases hr : rfind c s pos with
      | none => rfl
      | some i =>
        have := rfind_lt hr
        simp; omega
    rw [wrapLoop]
    simp only [hnil]
    split
    · next h => rw [hf] at h; cases h
    · split
      · next h => rw [hf] at h; cases h
      · exact ⟨_, _, isWrapping_last (by simp)⟩
  | succ n ih =>
    intro ls hn hls
    have hlim : wrapLimit ls width indent = ls + (width - indent) := wrapLimit_eq hi (by omega)
    rw [wrapLoop]
    split
    · next e he =>
      obtain ⟨h1, h2⟩ := Option.filter_eq_some_iff.mp he
      simp at h2
      obtain ⟨hlt, hle, hget⟩ := rfind_lt h1
      obtain ⟨ps, ss, hW⟩ := ih (e + 1) (by omega) (by omega)
      refine ⟨_, _, isWrapping_cons (.inr rfl) (drop_split h2 hget) ?_ hW⟩
      intro _
      simp only [List.length_take, List.length_drop]
      omega
    · next he =>
      have hnl := rfind_filter_none he
      split
      · next e hb =>
        obtain ⟨h1, h2⟩ := Option.filter_eq_some_iff.mp hb
        simp at h2
        obtain ⟨hlt, hle, hget⟩ := rfind_lt h1
        split_ifs with hfit
        · exact ⟨_, _, isWrapping_last (.inl (by simp; omega))⟩
        · obtain ⟨ps, ss, hW⟩ := ih (e + 1) (by omega) (by omega)
          refine ⟨_, _, isWrapping_cons (.inl rfl) (drop_split h2 hget) ?_ hW⟩
          intro _
          simp only [List.length_take, List.length_drop]
          omega
      · next hb =>
        have hsp := rfind_filter_none hb
        refine ⟨_, _, isWrapping_last (.inr ?_)⟩
        intro c hc
        obtain ⟨k, hk, rfl⟩ := List.mem_iff_getElem.mp hc
        simp only [List.length_take, List.length_drop] at hk
        have hk' : ls + k < s.length := by omega
        have e1 := hnl (ls + k) (by omega) (by omega)
        have e2 := hsp (ls + k) (by omega) (by omega)
        rw [List.getElem?_eq_getElem hk'] at e1 e2
        simp only [List.getElem_take, List.getElem_drop]
        exact ⟨fun h => e2 (by rw [h]), fun h => e1 (by rw [h])⟩

/-- C12 (content and width, partial): for an indent not larger than the width, `wrap` cuts the text
at blanks and newlines into pieces and prints each on its own indented line; every line but the last
fits into the width including the indent; the last line fits without its indent unless it *starts*
with more than `width - indent` characters without a blank.  Missing for the full claim: the last
line ignores the indent, and everything behind a too long word stays on one line, see
`c12_indent_ignored` and `c12_long_word_disables_wrapping`. -/
theorem c12_wrap_partial (s : Str) (width indent : Nat) (hi : indent ≤ width)
    (hw : s.length + width < 2 ^ 32) :
    ∃ pieces seps, IsWrapping s width indent (wrap s width indent) pieces seps := by
  simpa [wrap] using wrapLoop_spec s width indent hi hw _ 0 (Nat.le_refl _) (Nat.zero_le _)

theorem split_interleave (d : Char → Bool) (hd : d ' ' = true) (hn : d '\n' = true) (indent : Nat) :
    ∀ (pieces : List Str) (seps : Str), pieces.length = seps.length + 1 →
      (∀ c ∈ seps, c = ' ' ∨ c = '\n') →
      splitIntoWords d (List.intercalate ['\n'] (pieces.map (spaces indent ++ ·))) =
        splitIntoWords d (interleave pieces seps) := by
  have hsp : ∀ c ∈ spaces indent, d c = true := by
    intro c hc
    have := List.eq_of_mem_replicate hc
    rw [this]; exact hd
  intro pieces
  induction pieces with
  | nil => intro seps h; simp at h
  | cons p ps ih =>
    intro seps hlen hs
    cases seps with
    | nil =>
      cases ps with
      | cons _ _ => simp at hlen
      | nil =>
        simp only [List.intercalate, List.map_cons, List.map_nil, List.intersperse, interleave]
        simpa using split_prepend d _ p hsp
    | cons c seps =>
      cases ps with
      | nil => simp at hlen
      | cons q ps =>
        have hrec := ih seps (by simpa using hlen) (fun x hx => hs x (by simp [hx]))
        have hc : d c = true := by
          rcases hs c (by simp) with rfl | rfl
          · exact hd
          · exact hn
        rw [interleave, split_append_delim d p _ c hc, ← hrec]
        rw [← split_prepend d (spaces indent) p hsp, ← split_append_delim d _ _ '\n' hn]
        simp [List.intercalate]

/-- C12 (nothing lost): the words of the wrapped text are the words of the text, in order. -/
theorem c12_words_kept (d : Char → Bool) (hd : d ' ' = true) (hn : d '\n' = true) (s : Str)
    (width indent : Nat) (hi : indent ≤ width) (hw : s.length + width < 2 ^ 32) :
    splitIntoWords d (wrap s width indent) = splitIntoWords d s := by
  obtain ⟨ps, ss, h⟩ := c12_wrap_partial s width indent hi hw
  rw [h.result]
  conv_rhs => rw [h.source]
  exact split_interleave d hd hn indent ps ss h.count h.isSep

/-- C12 (no indent): without an indent the text keeps its length and the only change is that some
blanks have become newlines. -/
theorem c12_only_blanks_change (s : Str) (width : Nat) (hw : s.length + width < 2 ^ 32) :
    List.Forall₂ (fun a b => a = b ∨ (a = ' ' ∧ b = '\n')) s (wrap s width 0) := by
  obtain ⟨ps, ss, h⟩ := c12_wrap_partial s width 0 (Nat.zero_le _) hw
  rw [h.result]
  conv => arg 2; rw [h.source]
  have hrefl : ∀ p : Str, List.Forall₂ (fun a b => a = b ∨ (a = ' ' ∧ b = '\n')) p p := by
    intro p
    induction p with
    | nil => exact .nil
    | cons a p ih => exact .cons (.inl rfl) ih
  have happ : ∀ (p : Str) (x y : Str),
      List.Forall₂ (fun a b => a = b ∨ (a = ' ' ∧ b = '\n')) x y →
      List.Forall₂ (fun a b => a = b ∨ (a = ' ' ∧ b = '\n')) (p ++ x) (p ++ y) := by
    intro p x y hxy
    induction p with
    | nil => exact hxy
    | cons a p ih => exact .cons (.inl rfl) ih
  have key : ∀ (ps : List Str) (ss : Str), ps.length = ss.length + 1 →
      (∀ c ∈ ss, c = ' ' ∨ c = '\n') →
      List.Forall₂ (fun a b => a = b ∨ (a = ' ' ∧ b = '\n')) (interleave ps ss)
        (List.intercalate ['\n'] (ps.map (spaces 0 ++ ·))) := by
    intro ps
    induction ps with
    | nil => intro ss h; simp at h
    | cons p ps ih =>
      intro ss hlen hs
      cases ss with
      | nil =>
        cases ps with
        | cons _ _ => simp at hlen
        | nil => simpa [List.intercalate, interleave, spaces] using hrefl p
      | cons c ss =>
        cases ps with
        | nil => simp at hlen
        | cons q ps =>
          have hrec := ih ss (by simpa using hlen) (fun x hx => hs x (by simp [hx]))
          have hc := hs c (by simp)
          have := happ p _ _ (List.Forall₂.cons (a := c) (b := '\n') (by tauto) hrec)
          simpa [List.intercalate, List.intersperse, interleave, spaces] using this
  exact key ps ss h.count h.isSep

example : ("aaa bbb ccc ddd".toList).length + 8 < 2 ^ 32 ∧ 2 ≤ 8 := by decide

/-- C12 (refuted part, finding): once a word is longer than the available width, the rest of the
text is never wrapped although it could be. -/
theorem c12_long_word_disables_wrapping :
    wrap "aaaaaa bb cc dd ee ff".toList 5 0 = "aaaaaa bb cc dd ee ff".toList := by
  decide +kernel

/-- C12 (refuted part, finding): the indent is not counted for the last line, so a line longer than
the width is printed although it could be broken at a blank. -/
theorem c12_indent_ignored :
    wrap "aa bb cc".toList 8 4 = "    aa bb cc".toList := by
  decide +kernel

/-- C12 (refuted part, finding): an explicit newline that is not the last one within the width does
not start an indented line. -/
theorem c12_inner_newline_not_indented :
    wrap "a\nb\nc".toList 20 2 = "  a\nb\n  c".toList := by
  decide +kernel

/-! ## C13: join -/

theorem joinLoop_ne {sep acc : Str} (h : acc ≠ []) : ∀ ss : List Str,
    joinLoop sep acc ss = acc ++ ss.flatMap (sep ++ ·)
  | [] => by simp [joinLoop]
  | s :: ss => by
    have h0 : 0 < acc.length := List.length_pos_iff.mpr h
    rw [joinLoop, if_pos h0, joinLoop_ne (by simp [h]) ss]
    simp

theorem intercalate_cons_flatMap (sep a : Str) : ∀ ss : List Str,
    List.intercalate sep (a :: ss) = a ++ ss.flatMap (sep ++ ·)
  | [] => by simp [List.intercalate]
  | s :: ss => by
    have := intercalate_cons_flatMap sep s ss
    simp only [List.intercalate, List.intersperse, List.flatten_cons, List.flatMap_cons] at this ⊢
    rw [this]; simp

/-- C13 (general behaviour): `join` puts one separator between consecutive strings, after dropping
all leading empty strings. -/
theorem c13_join_eq (strings : List Str) (sep : Str) :
    join strings sep = List.intercalate sep (strings.dropWhile fun s => decide (s = [])) := by
  unfold join
  induction strings with
  | nil => simp [joinLoop, List.intercalate]
  | cons s ss ih =>
    by_cases hs : s = []
    · subst hs
      rw [joinLoop]
      simpa using ih
    · rw [joinLoop]
      simp only [List.length_nil, Nat.lt_irrefl, if_false, List.nil_append]
      rw [joinLoop_ne hs, List.dropWhile_cons_of_neg (by simpa using hs),
        intercalate_cons_flatMap]

/-- C13 (separators, partial): if the first string is not empty, `join` puts exactly one separator
between consecutive strings.  Missing for the full claim: lists starting with an empty string, see
`c13_leading_empty_lost`. -/
theorem c13_join_partial (s : Str) (ss : List Str) (sep : Str) (hs : s ≠ []) :
    join (s :: ss) sep = List.intercalate sep (s :: ss) := by
  rw [c13_join_eq, List.dropWhile_cons_of_neg (by simpa using hs)]

/-- C13 (round trip, partial): splitting the joined text at the separator gives back the strings,
if none contains the separator and the first one is not empty. -/
theorem c13_round_trip_partial (s : Str) (ss : List Str) (sep : Char) (hs : s ≠ [])
    (hsep : ∀ t ∈ s :: ss, sep ∉ t) :
    (join (s :: ss) [sep]).splitOn sep = s :: ss := by
  rw [c13_join_partial s ss _ hs]
  exact List.splitOn_intercalate sep hsep (by simp)

example : join [['a'], [], ['b']] [','] = ['a', ',', ',', 'b'] := by decide

/-- C13 (refuted part, finding): leading empty strings disappear, so two different lists without
separators give the same text. -/
theorem c13_leading_empty_lost : join [[], ['a']] [','] = join [['a']] [','] := by decide

/-! ## C14: shorten, endsWithSentenceDelimiter, startsWithUpper -/

/-- C14: `shorten` returns short texts unchanged, otherwise the first `len` characters and three
dots; never more than `len + 3` characters. -/
theorem c14_shorten (s : Str) (len : Nat) :
    (shorten s len).length ≤ len + 3 ∧ (s.length ≤ len → shorten s len = s) ∧
      (len < s.length → ∃ p rest, s = p ++ rest ∧ p.length = len ∧
        shorten s len = p ++ ['.', '.', '.']) := by
  unfold shorten
  refine ⟨?_, ?_, ?_⟩
  · split_ifs <;> (try simp) <;> omega
  · intro h; rw [if_pos h]
  · intro h
    rw [if_neg (by omega)]
    exact ⟨s.take len, s.drop len, by simp, by simp; omega, rfl⟩

/-- C14: `endsWithSentenceDelimiter` answers true exactly for texts whose last character is one of
`? ! . ) ;`. -/
theorem c14_sentence_delimiter (s : Str) :
    endsWithSentenceDelimiter s = true ↔
      ∃ p c, s = p ++ [c] ∧ (c = '?' ∨ c = '!' ∨ c = '.' ∨ c = ')' ∨ c = ';') := by
  unfold endsWithSentenceDelimiter
  cases h : s.getLast? with
  | none =>
    have : s = [] := List.getLast?_eq_none_iff.mp h
    subst this
    simp
  | some c =>
    obtain ⟨p, rfl⟩ := List.getLast?_eq_some_iff.mp h
    constructor
    · intro hc
      exact ⟨p, c, rfl, by simpa [sentenceDelimiters] using hc⟩
    · rintro ⟨p', c', he, hc⟩
      have := (List.append_inj' he rfl).2
      simp at this
      subst this
      simpa [sentenceDelimiters] using hc

/-- C14: `startsWithUpper` answers true exactly for texts that start with `A` … `Z`. -/
theorem c14_starts_with_upper (s : Str) :
    startsWithUpper s = true ↔ ∃ c t, s = c :: t ∧ 'A' ≤ c ∧ c ≤ 'Z' := by
  have hc : ∀ c : Char, isUpperC c = true ↔ 'A' ≤ c ∧ c ≤ 'Z' := by
    intro c
    simp only [isUpperC, Bool.and_eq_true, decide_eq_true_eq]
    exact Iff.rfl
  cases s with
  | nil => simp [startsWithUpper]
  | cons c t => simp [startsWithUpper, hc]

example : endsWithSentenceDelimiter "end.".toList = true := by decide

/-! ## C15: strip -/

/-- C15: the whitespace meant below is blank, tab, newline, vertical tab, form feed, return. -/
theorem c15_whitespace (c : Char) :
    isSpaceC c = true ↔ c ∈ [' ', '\t', '\n', Char.ofNat 11, Char.ofNat 12, '\r'] := by
  have hc : c = Char.ofNat c.toNat := (Char.ofNat_toNat c).symm
  by_cases h : c.toNat ≤ 32
  · generalize hn : c.toNat = n at *
    subst hc
    interval_cases n <;> simp [isSpaceC]
  · have hx : ∀ n, n ≤ 32 → c ≠ Char.ofNat n := by
      rintro n hn rfl
      apply h
      interval_cases n <;> decide
    have h1 : isSpaceC c = false := by
      simp only [isSpaceC, Bool.or_eq_false_iff, Bool.and_eq_false_iff, beq_eq_false_iff_ne,
        decide_eq_false_iff_not]
      omega
    simp only [h1, Bool.false_eq_true, List.mem_cons, List.not_mem_nil, or_false, false_iff, not_or]
    exact ⟨hx 32 (by omega), hx 9 (by omega), hx 10 (by omega), hx 11 (by omega),
      hx 12 (by omega), hx 13 (by omega)⟩

/-- C15: for a text with at least one non-blank character, `strip` returns the text without leading
and trailing whitespace. -/
theorem c15_strip_trims (s : Str) (h : ∃ c ∈ s, isSpaceC c = false) :
    ∃ t, strip s = .ok t ∧ t ≠ [] ∧ IsTrim isSpaceC s t := by
  unfold strip
  cases hf : s.findIdx? (fun c => !isSpaceC c) with
  | none =>
    obtain ⟨c, hc, hsp⟩ := h
    have := List.findIdx?_eq_none_iff.mp hf c hc
    simp [hsp] at this
  | some i =>
    cases hr : s.reverse.findIdx? (fun c => !isSpaceC c) with
    | none =>
      obtain ⟨c, hc, hsp⟩ := h
      have := List.findIdx?_eq_none_iff.mp hr c (by simpa using hc)
      simp [hsp] at this
    | some j =>
      obtain ⟨hi, hip, hil⟩ := List.findIdx?_eq_some_iff_getElem.mp hf
      obtain ⟨hj, hjp, hjl⟩ := List.findIdx?_eq_some_iff_getElem.mp hr
      simp only [List.length_reverse] at hj
      have hij : i < s.length - j := by
        apply Nat.lt_of_not_le
        intro hle
        have h2 := hil (s.length - 1 - j) (by omega)
        simp only [List.getElem_reverse] at hjp
        rw [hjp] at h2
        exact absurd rfl h2
      have hlen : ((s.take (s.length - j)).drop i).length = s.length - j - i := by
        simp only [List.length_drop, List.length_take]; omega
      refine ⟨_, rfl, ?_, s.take i, s.drop (s.length - j), ?_, ?_, ?_, ?_, ?_⟩
      · intro h0; rw [h0] at hlen; simp at hlen; omega
      · have : s.take i = (s.take (s.length - j)).take i := by
          rw [List.take_take]; congr 1; omega
        rw [this, List.take_append_drop, List.take_append_drop]
      · intro c hc
        obtain ⟨k, hk, rfl⟩ := List.mem_iff_getElem.mp hc
        simp only [List.length_take] at hk
        have := hil k (by omega)
        simpa using this
      · intro c hc
        obtain ⟨k, hk, rfl⟩ := List.mem_iff_getElem.mp hc
        simp only [List.length_drop] at hk
        have := hjl (s.length - 1 - (s.length - j + k)) (by omega)
        simp only [List.getElem_reverse] at this
        have he : s.length - 1 - (s.length - 1 - (s.length - j + k)) = s.length - j + k := by omega
        simp only [he] at this
        simpa using this
      · intro c hc
        rw [List.head?_eq_getElem?, List.getElem?_eq_getElem (by omega)] at hc
        simp only [List.getElem_drop, List.getElem_take, Option.some.injEq] at hc
        rw [← hc]
        simpa using hip
      · intro c hc
        rw [List.getLast?_eq_getElem?, List.getElem?_eq_getElem (by omega)] at hc
        simp only [List.getElem_drop, List.getElem_take, Option.some.injEq, hlen] at hc
        have he : i + (s.length - j - i - 1) = s.length - 1 - j := by omega
        simp only [he] at hc
        rw [← hc]
        simpa [List.getElem_reverse] using hjp

theorem isTrim_of_clean {s t : Str} (hs0 : ∀ c, s.head? = some c → isSpaceC c = false)
    (hs1 : ∀ c, s.getLast? = some c → isSpaceC c = false)
    (h : IsTrim isSpaceC s t) : s = t := by
  obtain ⟨a, b, rfl, ha, hb, _, _⟩ := h
  have ha' : a = [] := by
    cases a with
    | nil => rfl
    | cons x a =>
      have h1 := hs0 x (by simp)
      have h2 := ha x (by simp)
      rw [h1] at h2; cases h2
  have hb' : b = [] := by
    rcases List.eq_nil_or_concat b with rfl | ⟨b', x, rfl⟩
    · rfl
    · have h1 := hs1 x (by simp [List.getLast?_append])
      have h2 := hb x (by simp)
      rw [h1] at h2; cases h2
  subst ha' hb'
  simp

/-- C15: `strip` is idempotent. -/
theorem c15_strip_idempotent (s t : Str) (h : strip s = .ok t) : strip t = .ok t := by
  have hex : ∃ c ∈ s, isSpaceC c = false := by
    apply Classical.byContradiction
    intro hno
    have hall : ∀ c ∈ s, isSpaceC c = true := by
      intro c hc
      cases hsp : isSpaceC c with
      | true => rfl
      | false => exact absurd ⟨c, hc, hsp⟩ hno
    have : s.findIdx? (fun c => !isSpaceC c) = none := by
      rw [List.findIdx?_eq_none_iff]
      intro c hc; simp [hall c hc]
    simp [strip, this] at h
  obtain ⟨t', ht', hne, htrim⟩ := c15_strip_trims s hex
  rw [ht'] at h
  have : t' = t := by injection h
  subst this
  obtain ⟨a, b, hs, ha, hb, h0, h1⟩ := htrim
  have hex' : ∃ c ∈ t', isSpaceC c = false := by
    cases t' with
    | nil => exact absurd rfl hne
    | cons c t => exact ⟨c, by simp, h0 c (by simp)⟩
  obtain ⟨t'', h2, _, htrim2⟩ := c15_strip_trims t' hex'
  rw [h2, isTrim_of_clean h0 h1 htrim2]

/-- C15 (refuted part, finding): `strip` reads outside the text exactly for texts consisting of
whitespace only, including the empty text. -/
theorem c15_strip_ub_iff (s : Str) :
    (strip s).isUb = true ↔ ∀ c ∈ s, isSpaceC c = true := by
  constructor
  · intro h c hc
    cases hsp : isSpaceC c with
    | true => rfl
    | false =>
      obtain ⟨t, ht, _⟩ := c15_strip_trims s ⟨c, hc, hsp⟩
      rw [ht] at h; cases h
  · intro h
    have : s.findIdx? (fun c => !isSpaceC c) = none := by
      rw [List.findIdx?_eq_none_iff]
      intro c hc; simp [h c hc]
    simp [strip, this, Outcome.isUb]

example : strip " a b\n".toList = .ok "a b".toList := by decide

/-! ## C16: createRandomString -/

/-- C16 (shape): for every state of the random generator, the identifier is the prefix followed by
`len` characters of the alphabet - if the alphabet has at least two letters. -/
theorem c16_random_shape (rand : Nat → Nat) (len : Nat) (pre alphabet : Str)
    (ha : 2 ≤ alphabet.length) :
    ∃ r, createRandomString rand len pre alphabet = .ok (pre ++ r) ∧ r.length = len ∧
      ∀ c ∈ r, c ∈ alphabet.dropLast := by
  unfold createRandomString
  rw [if_neg (by omega)]
  refine ⟨_, rfl, by simp, ?_⟩
  intro c hc
  obtain ⟨i, _, rfl⟩ := List.mem_map.mp hc
  have hlt : rand i % (alphabet.length - 1) < alphabet.length - 1 := Nat.mod_lt _ (by omega)
  have hlt2 : rand i % (alphabet.length - 1) < alphabet.length := by omega
  have hdl : rand i % (alphabet.length - 1) < alphabet.dropLast.length := by
    simpa using hlt
  have : alphabet.getD (rand i % (alphabet.length - 1)) (Char.ofNat 0)
      = alphabet.dropLast[rand i % (alphabet.length - 1)] := by
    rw [List.getElem_dropLast, List.getD_eq_getElem?_getD, List.getElem?_eq_getElem hlt2]
    rfl
  rw [this]
  exact List.getElem_mem _

/-- C16 (shape for the alphabet used for all identifiers). -/
theorem c16_random_alphanumeric (rand : Nat → Nat) (len : Nat) (pre : Str) :
    ∃ r, createRandomString rand len pre alphaNum = .ok (pre ++ r) ∧ r.length = len ∧
      ∀ c ∈ r, c.isAlphanum = true := by
  obtain ⟨r, h1, h2, h3⟩ := c16_random_shape rand len pre alphaNum (by decide)
  refine ⟨r, h1, h2, fun c hc => ?_⟩
  have : ∀ c ∈ alphaNum.dropLast, c.isAlphanum = true := by decide
  exact this c (h3 c hc)

/-- C16 (the alphabet of all identifiers is exactly the digits and the letters of ASCII, each once). -/
theorem c16_alphabet : (∀ c : Char, c ∈ alphaNum ↔ c.isAlphanum = true) ∧ alphaNum.Nodup := by
  refine ⟨fun c => ⟨fun h => ?_, fun h => ?_⟩, by decide +kernel⟩
  · have : ∀ c ∈ alphaNum, c.isAlphanum = true := by decide +kernel
    exact this c h
  · have hb : c.toNat < 128 := by
      simp only [Char.isAlphanum, Char.isAlpha, Char.isUpper, Char.isLower, Char.isDigit, Bool.or_eq_true,
        decide_eq_true_eq, Bool.and_eq_true, ge_iff_le, UInt32.le_iff_toNat_le] at h
      have e : c.toNat = c.val.toNat := rfl
      rcases h with (⟨-, h⟩ | ⟨-, h⟩) | ⟨-, h⟩ <;> rw [e] <;> exact Nat.lt_of_le_of_lt h (by decide)
    have hall : ∀ n < 128, (Char.ofNat n).isAlphanum = true → Char.ofNat n ∈ alphaNum := by decide +kernel
    have := hall c.toNat hb
    rw [Char.ofNat_toNat] at this
    exact this h

/-- C16 (every character but the last of the alphabet can occur, at every position). -/
theorem c16_random_reachable_partial (len : Nat) (pre alphabet : Str)
    (ha : 2 ≤ alphabet.length) (c : Char) (hc : c ∈ alphabet.dropLast) :
    ∃ rand, createRandomString rand len pre alphabet = .ok (pre ++ List.replicate len c) := by
  obtain ⟨k, hk, rfl⟩ := List.mem_iff_getElem.mp hc
  simp only [List.length_dropLast] at hk
  refine ⟨fun _ => k, ?_⟩
  unfold createRandomString
  rw [if_neg (by omega)]
  simp only [Nat.mod_eq_of_lt hk]
  have : alphabet.getD k (Char.ofNat 0) = alphabet.dropLast[k]'(by simpa using hk) := by
    rw [List.getElem_dropLast, List.getD_eq_getElem?_getD, List.getElem?_eq_getElem (by omega)]
    rfl
  rw [this]
  congr 2
  rw [List.eq_replicate_iff]
  simp

/-- C16 (refuted part, finding): the last character `z` of the alphabet never occurs, whatever the
random generator returns. -/
theorem c16_last_letter_never (rand : Nat → Nat) (len : Nat) :
    ∀ s, createRandomString rand len [] alphaNum = .ok s → 'z' ∉ s := by
  intro s hs hz
  obtain ⟨r, h1, _, h3⟩ := c16_random_shape rand len [] alphaNum (by decide)
  rw [h1] at hs
  have : [] ++ r = s := by injection hs
  simp at this
  subst this
  exact absurd (h3 _ hz) (by decide)

/-- C16 (refuted part, finding): with a one-letter alphabet the function divides by zero. -/
theorem c16_one_letter_ub (rand : Nat → Nat) (len : Nat) (pre : Str) (c : Char) (h : 0 < len) :
    (createRandomString rand len pre [c]).isUb = true := by
  simp [createRandomString, h, Outcome.isUb]

example : createRandomString (fun i => i * 37) 3 ['t'] alphaNum = .ok ['t', '0', 'b', 'D'] := by
  decide

end Verif.Props

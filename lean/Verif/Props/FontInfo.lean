import Verif.Model.FontInfo
import Verif.Spec.FontInfo
import Verif.Props.Type1
import Mathlib.Tactic.Linarith

/-! # C54, C62: font names, weight, slant and font matrix -/

namespace Verif.Props

open Verif Verif.FontInfo Verif.Spec
open Verif.Text (Str)

/-! ## `find` -/

theorem fi_find_some (n : Str) : ∀ (h : Str) (k : ℕ), find n h = some k →
    ∃ pre post, h = pre ++ n ++ post ∧ pre.length = k ∧
      ∀ p q, h = p ++ n ++ q → k ≤ p.length
  | [], k, hk => by
    unfold find at hk
    by_cases hp : n.isPrefixOf [] = true
    · rw [if_pos hp] at hk
      have hn : n = [] := by simpa using List.isPrefixOf_iff_prefix.mp hp
      subst hn
      have : k = 0 := by simpa using hk.symm
      subst this
      exact ⟨[], [], rfl, rfl, fun p q _ => Nat.zero_le _⟩
    · rw [if_neg hp] at hk; cases hk
  | c :: t, k, hk => by
    unfold find at hk
    by_cases hp : n.isPrefixOf (c :: t) = true
    · rw [if_pos hp] at hk
      obtain ⟨post, hpost⟩ := List.isPrefixOf_iff_prefix.mp hp
      have : k = 0 := by simpa using hk.symm
      subst this
      exact ⟨[], post, by simp [hpost], rfl, fun p q _ => Nat.zero_le _⟩
    · rw [if_neg hp] at hk
      cases hf : find n t with
      | none => rw [hf] at hk; cases hk
      | some k' =>
        rw [hf] at hk
        have hk' : k = k' + 1 := by simpa using hk.symm
        obtain ⟨pre, post, e, hl, hfirst⟩ := fi_find_some n t k' hf
        refine ⟨c :: pre, post, by simp [e], by simp [hl, hk'], ?_⟩
        intro p q hpq
        cases p with
        | nil =>
          exact absurd (List.isPrefixOf_iff_prefix.mpr ⟨q, by simpa using hpq.symm⟩) hp
        | cons x p' =>
          have : t = p' ++ n ++ q := by simpa using congrArg List.tail hpq
          have := hfirst p' q this
          simp only [List.length_cons]; omega

theorem fi_find_none (n : Str) : ∀ (h : Str), find n h = none → ¬ n <:+: h
  | [], hk => by
    unfold find at hk
    by_cases hp : n.isPrefixOf [] = true
    · rw [if_pos hp] at hk; cases hk
    · intro hin
      have hn : n = [] := by simpa using hin
      subst hn; exact hp rfl
  | c :: t, hk => by
    unfold find at hk
    by_cases hp : n.isPrefixOf (c :: t) = true
    · rw [if_pos hp] at hk; cases hk
    · rw [if_neg hp] at hk
      have hf : find n t = none := by
        cases hf : find n t with
        | none => rfl
        | some k' => rw [hf] at hk; cases hk
      intro hin
      rcases List.infix_cons_iff.mp hin with h | h
      · exact hp (List.isPrefixOf_iff_prefix.mpr h)
      · exact fi_find_none n t hf h

theorem fi_find_isSome (n h : Str) : (find n h).isSome = true ↔ n <:+: h := by
  cases hf : find n h with
  | none => simp [fi_find_none n h hf]
  | some k =>
    obtain ⟨pre, post, e, _, _⟩ := fi_find_some n h k hf
    simp only [Option.isSome_some, true_iff]
    exact ⟨pre, post, e.symm⟩

/-- `find` returns the length of what stands before the first occurrence. -/
theorem fi_find_eq {n line before rest : Str} (h : FirstAt line before n rest) :
    find n line = some before.length := by
  obtain ⟨e, hf⟩ := h
  cases hk : find n line with
  | none => exact absurd ⟨before, rest, e.symm⟩ (fi_find_none n line hk)
  | some k =>
    obtain ⟨pre, post, e', hl, hf'⟩ := fi_find_some n line k hk
    have h1 := hf pre post e'
    have h2 := hf' before rest e
    rw [show k = before.length by omega]

/-- A single character is found behind the longest part without it. -/
theorem fi_find_char (c : Char) (a rest : Str) (h : c ∉ a) :
    find [c] (a ++ c :: rest) = some a.length := by
  apply fi_find_eq (rest := rest)
  refine ⟨by simp, ?_⟩
  intro p q e
  by_contra hlt
  have hlt : p.length < a.length := by omega
  have : (a ++ c :: rest)[p.length]? = some c := by rw [e]; simp
  rw [List.getElem?_append_left hlt] at this
  exact h (List.mem_of_getElem? this)

theorem fi_find_char_none (c : Char) (a : Str) (h : c ∉ a) : find [c] a = none := by
  cases hf : find [c] a with
  | none => rfl
  | some k =>
    obtain ⟨pre, post, e, _, _⟩ := fi_find_some _ _ _ hf
    exact absurd (by rw [e]; simp) h

/-! ## Lower case -/

theorem fi_toNat_ofNat (n : ℕ) (h : n < 55296) : (Char.ofNat n).toNat = n := by
  have hv : n.isValidChar := Or.inl h
  unfold Char.ofNat
  rw [dif_pos hv]
  rfl

theorem fi_lower_isLower (s : Str) : IsLower (lower s) s := by
  unfold lower IsLower
  induction s with
  | nil => exact List.Forall₂.nil
  | cons c t ih =>
    refine List.Forall₂.cons ?_ ih
    simp only
    by_cases h : 65 ≤ c.toNat ∧ c.toNat ≤ 90
    · left
      rw [if_pos h]
      refine ⟨h.1, h.2, ?_⟩
      exact fi_toNat_ofNat _ (by omega)
    · right
      rw [if_neg h]
      exact ⟨rfl, h⟩

theorem fi_lowered_unique {a b c : Char} (h1 : Lowered a c) (h2 : Lowered b c) : a = b := by
  unfold Lowered LowerOf at h1 h2
  rcases h1 with ⟨h1, h1', e1⟩ | ⟨e1, n1⟩ <;> rcases h2 with ⟨h2, h2', e2⟩ | ⟨e2, n2⟩
  · exact Char.toNat_inj.mp (by omega)
  · exact absurd ⟨h1, h1'⟩ n2
  · exact absurd ⟨h2, h2'⟩ n1
  · rw [e1, e2]

theorem fi_isLower_eq {l s : Str} (h : IsLower l s) : l = lower s := by
  have h' := fi_lower_isLower s
  generalize lower s = l' at h'
  induction h generalizing l' with
  | nil => cases h'; rfl
  | cons hc _ ih =>
    cases h' with
    | cons hc' ht' => rw [fi_lowered_unique hc hc', ih _ ht']

theorem fi_lower_append (a b : Str) : lower (a ++ b) = lower a ++ lower b := by simp [lower]

theorem fi_mentions (s w : Str) : (find w (lower s)).isSome = true ↔ Mentions s w := by
  rw [fi_find_isSome]
  constructor
  · rintro ⟨pre, post, e⟩
    have hl : (pre ++ w).length ≤ s.length := by
      have := congrArg List.length e
      simp only [lower, List.length_append, List.length_map] at this ⊢
      omega
    refine ⟨(s.drop pre.length).take w.length, ?_, ?_⟩
    · exact (List.take_prefix _ _).isInfix.trans (List.drop_suffix _ _).isInfix
    · have := fi_lower_isLower ((s.drop pre.length).take w.length)
      have e2 : lower ((s.drop pre.length).take w.length) = w := by
        have : lower ((s.drop pre.length).take w.length) =
            ((lower s).drop pre.length).take w.length := by
          simp [lower, List.map_take, List.map_drop]
        rw [this, ← e]
        simp
      rwa [e2] at this
  · rintro ⟨mid, ⟨pre, post, e⟩, hm⟩
    rw [fi_isLower_eq hm, ← e, fi_lower_append, fi_lower_append]
    exact ⟨_, _, rfl⟩

theorem fi_plus_lower (s : Str) : '+' ∈ lower s ↔ '+' ∈ s := by
  induction s with
  | nil => simp [lower]
  | cons c t ih =>
    have hc : lower (c :: t) =
        (if 65 ≤ c.toNat ∧ c.toNat ≤ 90 then Char.ofNat (c.toNat + 32) else c) :: lower t := rfl
    rw [hc, List.mem_cons, List.mem_cons, ih]
    by_cases h : 65 ≤ c.toNat ∧ c.toNat ≤ 90
    · rw [if_pos h]
      have e1 : '+' ≠ Char.ofNat (c.toNat + 32) := by
        intro e
        have := congrArg Char.toNat e
        rw [fi_toNat_ofNat (c.toNat + 32) (by omega)] at this
        have h43 : '+'.toNat = 43 := rfl
        omega
      have e2 : '+' ≠ c := by
        intro e
        have h43 : '+'.toNat = 43 := rfl
        rw [← e] at h; omega
      simp [e1, e2]
    · rw [if_neg h]

/-! ## C54 -/

/-- **C54.** The font name is the name Poppler reports; the normalised name is its lower case if
there is no plus sign, and else the lower case of what follows the first plus sign. -/
theorem c54_normalised (g : Gfx) (name : Str) (hn : g.name = some name) :
    (ofGfx g).fontName = name ∧
    ('+' ∉ name → IsLower (ofGfx g).normFontName name) ∧
    (∀ subset rest, name = subset ++ '+' :: rest → '+' ∉ subset →
      IsLower (ofGfx g).normFontName rest) := by
  simp only [ofGfx, hn, Option.getD_some, true_and]
  constructor
  · intro h
    unfold normName
    simp only
    rw [fi_find_char_none _ _ (by rwa [fi_plus_lower])]
    exact fi_lower_isLower name
  · intro subset rest e hs
    have : lower name = lower subset ++ '+' :: lower rest := by
      rw [e, fi_lower_append]; rfl
    unfold normName
    simp only
    rw [this, fi_find_char _ _ _ (by rwa [fi_plus_lower])]
    simp only
    rw [show lower subset ++ '+' :: lower rest = (lower subset ++ ['+']) ++ lower rest by simp,
      List.drop_left' (by simp)]
    exact fi_lower_isLower rest

/-- **C54.** A font without a name is known by its address. -/
theorem c54_nameless (g : Gfx) (hn : g.name = none) : (ofGfx g).fontName = g.address := by
  simp [ofGfx, hn]

/-- **C54.** The base name is the part of the normalised name before the first hyphen (all of it if
there is none) without its digits. -/
theorem c54_base (g : Gfx) (stem suffix : Str) (hs : '-' ∉ stem)
    (he : suffix = [] ∨ suffix.head? = some '-') (hn : (ofGfx g).normFontName = stem ++ suffix) :
    (ofGfx g).fontBaseName = stem.filter (fun c => decide (¬ ('0' ≤ c ∧ c ≤ '9'))) := by
  have hb : (ofGfx g).fontBaseName = baseName (ofGfx g).normFontName := rfl
  have hd : (fun c : Char => !isDigit c) = (fun c => decide (¬ ('0' ≤ c ∧ c ≤ '9'))) := by
    funext c
    have h0 : ('0' ≤ c) ↔ 48 ≤ c.toNat := Iff.rfl
    have h9 : (c ≤ '9') ↔ c.toNat ≤ 57 := Iff.rfl
    unfold isDigit
    by_cases a : 48 ≤ c.toNat <;> by_cases b : c.toNat ≤ 57 <;> simp [a, b, h0, h9]
  rw [hb, hn]
  unfold baseName
  rw [hd]
  congr 1
  rcases he with rfl | he
  · rw [List.append_nil, fi_find_char_none _ _ hs]
    simp
  · cases suffix with
    | nil => simp at he
    | cons c t =>
      have : c = '-' := by simpa using he
      subst this
      rw [fi_find_char _ _ _ hs]
      simp

/-- **C54.** Different subsets of the same font have the same normalised and the same base name. -/
theorem c54_subsets (g g' : Gfx) (s s' rest : Str) (hs : '+' ∉ s) (hs' : '+' ∉ s')
    (h : g.name = some (s ++ '+' :: rest)) (h' : g'.name = some (s' ++ '+' :: rest)) :
    (ofGfx g).normFontName = (ofGfx g').normFontName ∧
      (ofGfx g).fontBaseName = (ofGfx g').fontBaseName := by
  have e1 := fi_isLower_eq ((c54_normalised g _ h).2.2 s rest rfl hs)
  have e2 := fi_isLower_eq ((c54_normalised g' _ h').2.2 s' rest rfl hs')
  have e : (ofGfx g).normFontName = (ofGfx g').normFontName := by rw [e1, e2]
  refine ⟨e, ?_⟩
  show baseName (ofGfx g).normFontName = baseName (ofGfx g').normFontName
  rw [e]

/-- **C54.** Normalising a name that is already normal and has no plus sign changes nothing. -/
theorem c54_idempotent (g g' : Gfx) (name : Str) (hn : g.name = some name)
    (h1 : ∀ a b c, name ≠ a ++ '+' :: (b ++ '+' :: c))
    (h' : g'.name = some (ofGfx g).normFontName) :
    (ofGfx g').normFontName = (ofGfx g).normFontName := by
  have hlow : ∀ s : Str, lower (lower s) = lower s := by
    intro s
    unfold lower
    rw [List.map_map]
    apply List.map_congr_left
    intro c _
    simp only [Function.comp]
    by_cases h : 65 ≤ c.toNat ∧ c.toNat ≤ 90
    · rw [if_pos h, fi_toNat_ofNat _ (by omega), if_neg (by omega)]
    · rw [if_neg h, if_neg h]
  obtain ⟨_, hno, hyes⟩ := c54_normalised g name hn
  have key : ∃ s, '+' ∉ s ∧ (ofGfx g).normFontName = lower s := by
    by_cases hp : '+' ∈ name
    · obtain ⟨a, b, e, ha⟩ := List.eq_append_cons_of_mem hp
      refine ⟨b, ?_, fi_isLower_eq (hyes a b e ha)⟩
      intro hb
      obtain ⟨c, d, e', _⟩ := List.eq_append_cons_of_mem hb
      exact h1 a c d (by rw [e, e'])
    · exact ⟨name, hp, fi_isLower_eq (hno hp)⟩
  obtain ⟨s, hs, e⟩ := key
  rw [e] at h' ⊢
  have := (c54_normalised g' _ h').2.1 (by rwa [fi_plus_lower])
  rw [fi_isLower_eq this, hlow]

/-- A font as Poppler may report it; model of nothing, used in the examples. -/
def exGfx : Gfx where
  address := "0x55d0".toList
  name := some "LTSL+Nimbus12-Bold".toList
  fixedWidth := false
  serif := true
  symbolic := false
  italic := false
  bold := false
  type3 := false
  weight := 0
  fontMatrix := [1 / 1000, 0, 0, 1 / 1000, 0, 0]

example : (ofGfx exGfx).normFontName = "nimbus12-bold".toList ∧
    (ofGfx exGfx).fontBaseName = "nimbus".toList ∧ (ofGfx exGfx).weight = 700 := by
  decide +kernel

/-- With two plus signs a normalised name is not yet normal. -/
example : normName "A+B+C".toList = "b+c".toList ∧ normName "b+c".toList = "c".toList := by
  decide +kernel

/-! ## Lines and entries -/

theorem fi_getlines {ls : List Str} {s : Str} (h : IsLines ls s) : getlines s = ls := by
  have step : ∀ (l : Str) (s : Str), '\n' ∉ l → getlines (l ++ '\n' :: s) = l :: getlines s := by
    intro l s hl
    induction l with
    | nil => simp [getlines]
    | cons c t ih =>
      have hc : c ≠ '\n' := fun e => hl (by simp [e])
      have ht : '\n' ∉ t := fun e => hl (by simp [e])
      rw [List.cons_append, getlines, if_neg hc, ih ht]
  have lastl : ∀ (l : Str), l ≠ [] → '\n' ∉ l → getlines l = [l] := by
    intro l
    induction l with
    | nil => intro h; exact absurd rfl h
    | cons c t ih =>
      intro _ hl
      have hc : c ≠ '\n' := fun e => hl (by simp [e])
      have ht : '\n' ∉ t := fun e => hl (by simp [e])
      rw [getlines, if_neg hc]
      cases t with
      | nil => simp [getlines]
      | cons d t' => rw [ih (by simp) ht]
  induction h with
  | nil => rfl
  | last l h1 h2 => exact lastl l h1 h2
  | cons l ls s h1 _ ih => rw [step l s h1, ih]

/-- Searching a character from a position on. -/
theorem fi_findFrom_char (c : Char) (line : Str) (pos k : ℕ) (h : findFrom [c] line pos = some k) :
    ∃ a rest, line.drop pos = a ++ c :: rest ∧ c ∉ a ∧ k = a.length + pos := by
  unfold findFrom at h
  cases hf : find [c] (line.drop pos) with
  | none => rw [hf] at h; cases h
  | some k' =>
    rw [hf] at h
    obtain ⟨pre, post, e, hl, hfirst⟩ := fi_find_some _ _ _ hf
    refine ⟨pre, post, by rw [e]; simp, ?_, by
      have : k' + pos = k := by simpa using h
      omega⟩
    intro hm
    obtain ⟨a, b, e', _⟩ := List.eq_append_cons_of_mem hm
    have := hfirst a (b ++ c :: post) (by rw [e, e']; simp)
    rw [← hl, e'] at this
    simp at this

theorem fi_findFrom_char_none (c : Char) (line : Str) (pos : ℕ) (h : findFrom [c] line pos = none) :
    c ∉ line.drop pos := by
  unfold findFrom at h
  intro hm
  obtain ⟨a, b, e, ha⟩ := List.eq_append_cons_of_mem hm
  rw [e, fi_find_char c a b ha] at h
  cases h

theorem fi_weightText (line t : Str) : weightText line = some t ↔ WeightEntry line t := by
  unfold weightText
  constructor
  · intro h
    cases hk : find "/Weight (".toList line with
    | none => rw [hk] at h; cases h
    | some p =>
      rw [hk] at h
      simp only [Option.bind_some] at h
      cases he : findFrom [')'] line (p + 9) with
      | none => rw [he] at h; cases h
      | some e =>
        rw [he] at h
        have ht : (line.drop (p + 9)).take (e - (p + 9)) = t := by simpa using h
        obtain ⟨pre, post, e1, hl, hfirst⟩ := fi_find_some _ _ _ hk
        obtain ⟨a, rest, e2, ha, hke⟩ := fi_findFrom_char _ _ _ _ he
        have hpost : line.drop (p + 9) = post := by
          have e3 : line = (pre ++ "/Weight (".toList) ++ post := e1
          rw [e3, List.drop_left' (by rw [List.length_append, hl]; rfl)]
        have hta : t = a := by
          rw [← ht, e2, hke, show a.length + (p + 9) - (p + 9) = a.length by omega]
          simp
        refine ⟨pre, rest, ⟨?_, ?_⟩, by rw [hta]; exact ha⟩
        · rw [hta, ← e2, hpost]; exact e1
        · intro p' q' e'; rw [hl]; exact hfirst p' q' e'
  · rintro ⟨before, after, hfa, ht⟩
    rw [fi_find_eq hfa]
    simp only [Option.bind_some]
    have hd : line.drop (before.length + 9) = t ++ ')' :: after := by
      rw [hfa.1, List.drop_left' (by rw [List.length_append]; rfl)]
    unfold findFrom
    rw [hd, fi_find_char _ _ _ ht]
    simp

theorem fi_matrixText (line t : Str) : matrixText line = some t ↔ MatrixEntry line t := by
  unfold matrixText
  constructor
  · intro h
    cases hk : find "/FontMatrix".toList line with
    | none => rw [hk] at h; cases h
    | some p =>
      rw [hk] at h
      simp only [Option.bind_some] at h
      cases hl' : findFrom ['['] line (p + 11) with
      | none => rw [hl'] at h; cases h
      | some l =>
        rw [hl'] at h
        simp only [Option.bind_some] at h
        cases he : findFrom [']'] line (l + 1) with
        | none => rw [he] at h; cases h
        | some e =>
          rw [he] at h
          have ht : (line.drop (l + 1)).take (e - (l + 1)) = t := by simpa using h
          obtain ⟨pre, post, e1, hl, hfirst⟩ := fi_find_some _ _ _ hk
          obtain ⟨b, restb, eb, hb, hlb⟩ := fi_findFrom_char _ _ _ _ hl'
          obtain ⟨a, rest, e2, ha, hke⟩ := fi_findFrom_char _ _ _ _ he
          have hpost : line.drop (p + 11) = post := by
            have e3 : line = (pre ++ "/FontMatrix".toList) ++ post := e1
            rw [e3, List.drop_left' (by rw [List.length_append, hl]; rfl)]
          have hrest : line.drop (l + 1) = restb := by
            rw [hlb, show b.length + (p + 11) + 1 = (p + 11) + (b.length + 1) by omega,
              ← List.drop_drop, eb, show b ++ '[' :: restb = (b ++ ['[']) ++ restb by simp,
              List.drop_left' (by simp)]
          have hta : t = a := by
            rw [← ht, e2, hke, show a.length + (l + 1) - (l + 1) = a.length by omega]
            simp
          refine ⟨pre, b, rest, ⟨?_, ?_⟩, hb, by rw [hta]; exact ha⟩
          · rw [hta, ← e2, hrest, ← eb, hpost]; exact e1
          · intro p' q' e'; rw [hl]; exact hfirst p' q' e'
  · rintro ⟨before, between, after, hfa, hb, ht⟩
    rw [fi_find_eq hfa]
    simp only [Option.bind_some]
    have hd : line.drop (before.length + 11) = between ++ '[' :: (t ++ ']' :: after) := by
      rw [hfa.1, List.drop_left' (by rw [List.length_append]; rfl)]
    have hl : findFrom ['['] line (before.length + 11) =
        some (between.length + (before.length + 11)) := by
      unfold findFrom
      rw [hd, fi_find_char _ _ _ hb]
      rfl
    rw [hl]
    simp only [Option.bind_some]
    have hd2 : line.drop (between.length + (before.length + 11) + 1) = t ++ ']' :: after := by
      rw [show between.length + (before.length + 11) + 1 =
          (before.length + 11) + (between.length + 1) by omega, ← List.drop_drop, hd,
        show between ++ '[' :: (t ++ ']' :: after) = (between ++ ['[']) ++ (t ++ ']' :: after) by
          simp, List.drop_left' (by simp)]
    unfold findFrom
    rw [hd2, fi_find_char _ _ _ ht]
    simp

/-! ## C62 -/

/-- **C62.** The weight before the embedded font file is read: a name that mentions "black" stands
for 800, one that mentions "bold", or the bold flag, for 700, else a positive reported weight is
taken, and 400 is the default. -/
theorem c62_weight (g : Gfx) (name : Str) (hn : g.name = some name) :
    (Mentions name "black".toList → (ofGfx g).weight = 800) ∧
    (¬ Mentions name "black".toList → (Mentions name "bold".toList ∨ g.bold = true) →
      (ofGfx g).weight = 700) ∧
    (¬ Mentions name "black".toList → ¬ Mentions name "bold".toList → g.bold = false →
      (0 < g.weight → (ofGfx g).weight = g.weight) ∧ (g.weight ≤ 0 → (ofGfx g).weight = 400)) := by
  rw [← fi_mentions name "black".toList, ← fi_mentions name "bold".toList]
  simp only [ofGfx, hn, Option.getD_some]
  refine ⟨fun h => if_pos h, fun h1 h2 => ?_, fun h1 h2 h3 => ?_⟩
  · rw [if_neg h1]
    rcases h2 with h2 | h2
    · rw [if_pos h2]
    · rw [if_pos h2]; split <;> rfl
  · rw [if_neg h1, if_neg h2, h3, if_neg (by decide)]
    exact ⟨fun h => if_pos h, fun h => if_neg (by omega)⟩

/-- **C62.** Before the embedded font file is read, a font is italic exactly if its flag or its
name says so; the other properties are those Poppler reports, ascent and descent are fixed. -/
theorem c62_italic_and_rest (g : Gfx) (name : Str) (hn : g.name = some name) :
    ((ofGfx g).isItalic = true ↔ g.italic = true ∨ Mentions name "italic".toList) ∧
    (ofGfx g).isFixedWidth = g.fixedWidth ∧ (ofGfx g).isSerif = g.serif ∧
    (ofGfx g).isSymbolic = g.symbolic ∧ (ofGfx g).isType3 = g.type3 ∧
    (ofGfx g).fontMatrix = g.fontMatrix ∧
    (ofGfx g).ascent = 95 / 100 ∧ (ofGfx g).descent = - (35 / 100) := by
  rw [← fi_mentions name "italic".toList]
  simp only [ofGfx, hn, Option.getD_some, Bool.or_eq_true]
  refine ⟨trivial, trivial, trivial, trivial, trivial, trivial, trivial, by norm_num⟩

theorem fi_weightOf (t : Str) (d : ℤ) : weightOf t d = namedWeight t d := by
  unfold weightOf namedWeight
  by_cases h1 : t = "Regular".toList
  · rw [if_pos h1, h1]; rfl
  · rw [if_neg h1]
    by_cases h2 : t = "Medium".toList
    · rw [if_pos h2, h2]; rfl
    · rw [if_neg h2]
      by_cases h3 : t = "Bold".toList
      · rw [if_pos h3, h3]; rfl
      · rw [if_neg h3]
        have e1 : ("Regular".toList == t) = false := by simpa using fun e => h1 e.symm
        have e2 : ("Medium".toList == t) = false := by simpa using fun e => h2 e.symm
        have e3 : ("Bold".toList == t) = false := by simpa using fun e => h3 e.symm
        simp only [List.find?, e1, e2, e3]

theorem fi_putNumbers : ∀ (ds : List ℚ) (k : ℕ) (m : List ℚ), k + ds.length ≤ 6 → m.length = 6 →
    putNumbers k ds m = .ok (m.take k ++ ds ++ m.drop (k + ds.length))
  | [], k, m, _, _ => by simp [putNumbers]
  | d :: ds, k, m, h, hm => by
    simp only [List.length_cons] at h
    rw [putNumbers, if_pos (by omega), fi_putNumbers ds (k + 1) (m.set k d) (by omega) (by simpa using hm)]
    congr 1
    have hk : k < m.length := by omega
    rw [List.drop_set_of_lt (by omega), List.take_set, List.take_succ_eq_append_getElem hk]
    rw [List.set_append_right _ _ (by simp)]
    simp only [List.length_take, List.length_cons]
    rw [show k - min k m.length = 0 by omega, show k + (ds.length + 1) = k + 1 + ds.length by omega]
    simp

theorem fi_putNumbers_ub : ∀ (ds : List ℚ) (k : ℕ) (m : List ℚ), 6 < k + ds.length → ds ≠ [] → 
    (putNumbers k ds m).isUb = true
  | [], k, m, _, h => absurd rfl h
  | d :: ds, k, m, h, _ => by
    simp only [List.length_cons] at h
    rw [putNumbers]
    by_cases hk : k < 6
    · rw [if_pos hk]
      refine fi_putNumbers_ub ds (k + 1) (m.set k d) (by omega) ?_
      intro e; subst e; simp at h; omega
    · rw [if_neg hk]; rfl

theorem fi_angle {line : Str} : isAngleLine line = true ↔ "/ItalicAngle".toList <+: line := by
  unfold isAngleLine; exact List.isPrefixOf_iff_prefix

theorem fi_zero {line : Str} : (!isZeroAngle line) = true ↔ line ≠ "/ItalicAngle 0 def".toList := by
  unfold isZeroAngle
  by_cases h : line = "/ItalicAngle 0 def".toList
  · rw [decide_eq_true h]; simp only [Bool.not_true, Bool.false_eq_true, false_iff, not_not]; exact h
  · rw [decide_eq_false h]; simp only [Bool.not_false, true_iff]; exact h

theorem fi_asciiLoop (numbers : Str → List ℚ) : ∀ (ls : List Str) (ia wf : Bool) (i : Info),
    (∀ l ∈ ls, ∀ t, MatrixEntry l t → (numbers t).length ≤ 6) → i.fontMatrix.length = 6 →
    ∃ i', asciiLoop numbers ia wf ls i = .ok i' ∧
      (wf = true → i'.weight = i.weight) ∧
      (wf = false → IsFirstAnswer (fun line v => ∃ t, WeightEntry line t ∧
        v = namedWeight t i.weight) ls i.weight i'.weight) ∧
      (ia = true → i'.isItalic = i.isItalic) ∧
      (ia = false → ∃ v, IsFirstAnswer SlantLine ls false v ∧ i'.isItalic = (i.isItalic || v)) ∧
      overlay numbers ls i.fontMatrix i'.fontMatrix ∧
      i' = { i with weight := i'.weight, isItalic := i'.isItalic, fontMatrix := i'.fontMatrix }
  | [], ia, wf, i, _, _ => by
    refine ⟨i, rfl, fun _ => rfl, fun _ => Or.inr ⟨by simp, rfl⟩, fun _ => rfl,
      fun _ => ⟨false, Or.inr ⟨by simp, rfl⟩, by simp⟩, rfl, rfl⟩
  | line :: ls, ia, wf, i, hn, hm => by
    -- the matrix
    have hmat : ∃ m, matrixAfter numbers line i.fontMatrix = Outcome.ok m ∧ m.length = 6 ∧
        ((∃ t, MatrixEntry line t ∧ m = numbers t ++ i.fontMatrix.drop (numbers t).length) ∨
          ((∀ t, ¬ MatrixEntry line t) ∧ m = i.fontMatrix)) := by
      unfold matrixAfter
      cases ht : matrixText line with
      | none =>
        refine ⟨_, rfl, hm, Or.inr ⟨fun t he => ?_, rfl⟩⟩
        rw [(fi_matrixText line t).mpr he] at ht; cases ht
      | some t =>
        have he := (fi_matrixText line t).mp ht
        have hlen := hn line (by simp) t he
        simp only
        rw [fi_putNumbers (numbers t) 0 i.fontMatrix (by omega) hm]
        refine ⟨_, rfl, ?_, Or.inl ⟨t, he, by simp⟩⟩
        simp only [List.take_zero, List.nil_append, Nat.zero_add, List.length_append,
          List.length_drop]
        omega
    obtain ⟨m, em, hml, hmc⟩ := hmat
    rw [asciiLoop, em]
    simp only [Outcome.bind]
    obtain ⟨i', e', hw1, hw2, hi1, hi2, ho, hr⟩ := fi_asciiLoop numbers ls
      (ia || (!ia && isAngleLine line))
      (wf || (if wf then none else weightText line).isSome)
      { i with fontMatrix := m,
               isItalic := i.isItalic || ((!ia && isAngleLine line) &&
                 !isZeroAngle line),
               weight := ((if wf then none else weightText line).map
                 fun t => weightOf t i.weight).getD i.weight }
      (fun l hl t he => hn l (List.mem_cons_of_mem _ hl) t he) hml
    refine ⟨i', e', ?_, ?_, ?_, ?_, ?_, ?_⟩
    · intro h; subst h
      simpa using hw1 rfl
    · intro h; subst h
      simp only [Bool.false_or, Bool.false_eq_true, if_false] at hw1 hw2
      cases ht : weightText line with
      | none =>
        rw [ht] at hw2
        simp only [Option.isSome_none, Option.map_none, Option.getD_none, forall_const] at hw2
        have hno : ∀ t, ¬ WeightEntry line t := by
          intro t he; rw [(fi_weightText line t).mpr he] at ht; cases ht
        rcases hw2 with ⟨b, x, a, e, hx, hb⟩ | ⟨hall, hv⟩
        · left
          refine ⟨line :: b, x, a, by rw [e]; rfl, hx, ?_⟩
          intro y hy w
          rcases List.mem_cons.mp hy with rfl | hy
          · rintro ⟨t, he, _⟩; exact hno t he
          · exact hb y hy w
        · right
          refine ⟨?_, hv⟩
          intro y hy w
          rcases List.mem_cons.mp hy with rfl | hy
          · rintro ⟨t, he, _⟩; exact hno t he
          · exact hall y hy w
      | some t =>
        rw [ht] at hw1
        simp only [Option.isSome_some, Option.map_some, Option.getD_some, forall_const] at hw1
        left
        refine ⟨[], line, ls, rfl, ⟨t, (fi_weightText line t).mp ht, ?_⟩, by simp⟩
        rw [hw1, fi_weightOf]
    · intro h; subst h
      simpa using hi1 rfl
    · intro h; subst h
      simp only [Bool.not_false, Bool.true_and, Bool.false_or] at hi1 hi2
      cases hp : isAngleLine line with
      | false =>
        rw [hp] at hi2
        simp only [forall_const, Bool.false_and, Bool.or_false] at hi2
        obtain ⟨v, hv, hi⟩ := hi2
        refine ⟨v, ?_, hi⟩
        have hno : ∀ w, ¬ SlantLine line w := by
          rintro w ⟨hpre, _⟩
          rw [fi_angle.mpr hpre] at hp; cases hp
        rcases hv with ⟨b, x, a, e, hx, hb⟩ | ⟨hall, hv⟩
        · left
          refine ⟨line :: b, x, a, by rw [e]; rfl, hx, ?_⟩
          intro y hy w
          rcases List.mem_cons.mp hy with rfl | hy
          · exact hno w
          · exact hb y hy w
        · right
          refine ⟨?_, hv⟩
          intro y hy w
          rcases List.mem_cons.mp hy with rfl | hy
          · exact hno w
          · exact hall y hy w
      | true =>
        rw [hp] at hi1
        simp only [forall_const, Bool.true_and] at hi1
        refine ⟨!isZeroAngle line, Or.inl ⟨[], line, ls, rfl,
          ⟨fi_angle.mp hp, fi_zero⟩, by simp⟩, hi1⟩
    · rw [overlay]
      simp only at ho
      rcases hmc with ⟨t, he, e⟩ | ⟨hno, e⟩
      · left; exact ⟨t, he, by rw [← e]; exact ho⟩
      · right; exact ⟨hno, by rw [← e]; exact ho⟩
    · rw [hr]

/-- **C62.** The clear-text part of an embedded font: the first `/Weight` entry decides about the
weight, the first `/ItalicAngle` line can make the font italic, the `/FontMatrix` entries overwrite
the font matrix, and nothing else changes. -/
theorem c62_embedded (numbers : Str → List ℚ) (ascii : Str) (ls : List Str) (i : Info)
    (hl : IsLines ls ascii) (hm : i.fontMatrix.length = 6)
    (hn : ∀ l ∈ ls, ∀ t, MatrixEntry l t → (numbers t).length ≤ 6) :
    ∃ i', parseAscii numbers ascii i = .ok i' ∧
      IsFirstAnswer (fun line v => ∃ t, WeightEntry line t ∧ v = namedWeight t i.weight) ls
        i.weight i'.weight ∧
      (∃ v, IsFirstAnswer SlantLine ls false v ∧ i'.isItalic = (i.isItalic || v)) ∧
      overlay numbers ls i.fontMatrix i'.fontMatrix ∧
      i' = { i with weight := i'.weight, isItalic := i'.isItalic, fontMatrix := i'.fontMatrix } := by
  unfold parseAscii
  rw [fi_getlines hl]
  obtain ⟨i', e, _, hw, _, hi, ho, hr⟩ := fi_asciiLoop numbers ls false false i hn hm
  exact ⟨i', e, hw rfl, hi rfl, ho, hr⟩

/-- **C62.** The last `/FontMatrix` entry with six numbers is the font matrix. -/
theorem c62_matrix (numbers : Str → List ℚ) (ascii : Str) (before after : List Str) (line t : Str)
    (i i' : Info) (hl : IsLines (before ++ line :: after) ascii) (hm : i.fontMatrix.length = 6)
    (hn : ∀ l ∈ before, ∀ t, MatrixEntry l t → (numbers t).length ≤ 6)
    (ht : MatrixEntry line t) (h6 : (numbers t).length = 6)
    (ha : ∀ l ∈ after, ∀ t, ¬ MatrixEntry l t) (h : parseAscii numbers ascii i = .ok i') :
    i'.fontMatrix = numbers t := by
  have huniq : ∀ t', MatrixEntry line t' → t' = t := by
    intro t' ht'
    have h1 := (fi_matrixText line t').mpr ht'
    rw [(fi_matrixText line t).mpr ht] at h1
    exact (Option.some.inj h1).symm
  obtain ⟨i2, e2, hx1, hx2, ho, hx3⟩ := c62_embedded numbers ascii _ i hl hm (by
    intro l hl' t' ht'
    rcases List.mem_append.mp hl' with hb | hb
    · exact hn l hb t' ht'
    · rcases List.mem_cons.mp hb with rfl | hb
      · rw [huniq t' ht', h6]
      · exact absurd ht' (ha l hb t'))
  have e : i2 = i' := by rw [e2] at h; exact Outcome.ok.inj h
  subst e
  generalize i2.fontMatrix = m' at ho
  generalize i.fontMatrix = m at ho hm
  have hend : ∀ (ls : List Str) (m m' : List ℚ), (∀ l ∈ ls, ∀ t, ¬ MatrixEntry l t) →
      overlay numbers ls m m' → m' = m := by
    intro ls
    induction ls with
    | nil => intro m m' _ h; exact h
    | cons x xs ih =>
      intro m m' hx h
      rcases h with ⟨t, hxt, _⟩ | ⟨_, h⟩
      · exact absurd hxt (hx x (by simp) t)
      · exact ih m m' (fun l hl => hx l (List.mem_cons_of_mem _ hl)) h
  clear h e2 hl hx1 hx2 hx3
  induction before generalizing m with
  | nil =>
    rcases ho with ⟨t', ht', h⟩ | ⟨hno, _⟩
    · rw [huniq t' ht'] at h
      rw [hend after _ _ ha h, h6, List.drop_eq_nil_of_le (by omega), List.append_nil]
    · exact absurd ht (hno t)
  | cons x xs ih =>
    have hn' : ∀ l ∈ xs, ∀ t, MatrixEntry l t → (numbers t).length ≤ 6 :=
      fun l hl => hn l (List.mem_cons_of_mem _ hl)
    rcases ho with ⟨t', ht', h⟩ | ⟨_, h⟩
    · refine ih hn' _ h ?_
      have := hn x (by simp) t' ht'
      simp only [List.length_append, List.length_drop]; omega
    · exact ih hn' m h hm

/-- **C62, finding.** A `/FontMatrix` entry with more than six numbers is written beyond the end of
the matrix, if nothing before it is: undefined behaviour. -/
theorem c62_long_matrix (numbers : Str → List ℚ) (line t rest : Str) (i : Info) (hl : '\n' ∉ line)
    (ht : MatrixEntry line t) (h7 : 6 < (numbers t).length) :
    (parseAscii numbers (line ++ '\n' :: rest) i).isUb = true := by
  have hne : numbers t ≠ [] := by intro e; rw [e] at h7; simp at h7
  have e : ∃ ls, getlines (line ++ '\n' :: rest) = line :: ls := by
    have key : ∀ (l : Str), '\n' ∉ l → ∃ ls, getlines (l ++ '\n' :: rest) = l :: ls := by
      intro l
      induction l with
      | nil => intro _; exact ⟨_, by rw [List.nil_append, getlines, if_pos rfl]⟩
      | cons c t ih =>
        intro hl
        have hc : c ≠ '\n' := fun e => hl (by simp [e])
        obtain ⟨ls, e⟩ := ih (fun e => hl (by simp [e]))
        exact ⟨ls, by rw [List.cons_append, getlines, if_neg hc, e]⟩
    exact key line hl
  obtain ⟨ls, e⟩ := e
  unfold parseAscii
  rw [e, asciiLoop]
  have hu : (matrixAfter numbers line i.fontMatrix).isUb = true := by
    unfold matrixAfter
    rw [(fi_matrixText line t).mpr ht]
    exact fi_putNumbers_ub _ _ _ (by omega) hne
  cases hm : matrixAfter numbers line i.fontMatrix with
  | ok m => rw [hm] at hu; cases hu
  | throw m => rw [hm] at hu; cases hu
  | ub m => rfl

/-- **C62, finding.** Every `/ItalicAngle` line that is not literally `/ItalicAngle 0 def` makes
the font italic, also one that ends with a carriage return, or says `0.0` or `0 readonly def`. -/
theorem c62_upright_taken_for_italic (numbers : Str → List ℚ) (ascii : Str) (line : Str)
    (ls : List Str) (i i' : Info) (hl : IsLines (line :: ls) ascii) (hm : i.fontMatrix.length = 6)
    (hn : ∀ l ∈ line :: ls, ∀ t, MatrixEntry l t → (numbers t).length ≤ 6)
    (hp : "/ItalicAngle".toList <+: line) (hne : line ≠ "/ItalicAngle 0 def".toList)
    (h : parseAscii numbers ascii i = .ok i') : i'.isItalic = true := by
  obtain ⟨i2, e2, _, ⟨v, hv, hi⟩, _⟩ := c62_embedded numbers ascii _ i hl hm hn
  have e : i2 = i' := by rw [e2] at h; exact Outcome.ok.inj h
  subst e
  rw [hi]
  rcases hv with ⟨b, x, a, e, hx, hb⟩ | ⟨hall, _⟩
  · cases b with
    | nil =>
      have : line = x := by simpa using congrArg List.head? e
      subst this
      rw [hx.2.mpr hne]; simp
    | cons y b' =>
      have : line = y := by simpa using congrArg List.head? e
      subst this
      exact absurd ⟨hp, fun _ => hne, fun _ => rfl⟩ (hb line (by simp) true)
  · exact absurd ⟨hp, fun _ => hne, fun _ => rfl⟩ (hall line (by simp) true)

/-- Lines of an embedded font, used in the examples. -/
def exFontLines : List Str :=
  ["/FontMatrix [0.002 0 0 0.002 0 0 ]readonly def".toList, "/Weight (Medium) readonly def".toList,
    "/ItalicAngle 0 def\r".toList, "/Weight (Bold) readonly def".toList]

example : ∃ i', parseAscii (fun _ => [2 / 1000, 0, 0, 2 / 1000, 0, 0])
      (exFontLines.flatMap (· ++ ['\n'])) (ofGfx exGfx) = .ok i' ∧ i'.weight = 500 ∧
    i'.isItalic = true ∧ i'.fontMatrix = [2 / 1000, 0, 0, 2 / 1000, 0, 0] ∧
    i'.fontName = "LTSL+Nimbus12-Bold".toList := by
  refine ⟨{ ofGfx exGfx with
    weight := 500, isItalic := true, fontMatrix := [2 / 1000, 0, 0, 2 / 1000, 0, 0] }, ?_, rfl, rfl,
    rfl, by decide +kernel⟩
  decide +kernel

/-! ## C61: the whole font file -/

theorem fi_bufferBytes (buf : List (ℕ × ℕ)) (bytes : List ℕ)
    (h : ∀ i < bytes.length, Type1.cell buf i = bytes[i]?) :
    bufferBytes buf bytes.length = .ok bytes := by
  have key : ∀ b ≤ bytes.length, bufferBytes buf b = .ok (bytes.take b) := by
    intro b
    induction b with
    | zero => intro _; rfl
    | succ b ih =>
      intro hb
      have hlt : b < bytes.length := by omega
      rw [bufferBytes, ih (by omega)]
      simp only [Outcome.bind]
      rw [h b hlt, List.getElem?_eq_getElem hlt]
      simp only
      rw [List.take_succ_eq_append_getElem hlt]
  rw [key _ (le_refl _), List.take_length]

theorem fi_bufferBytes_ub (buf : List (ℕ × ℕ)) (i : ℕ) (h : Type1.cell buf i = none) :
    ∀ b, i < b → (bufferBytes buf b).isUb = true := by
  intro b
  induction b with
  | zero => intro hi; omega
  | succ b ih =>
    intro hi
    rw [bufferBytes]
    rcases Nat.lt_or_ge i b with hlt | hge
    · have := ih hlt
      cases hb : bufferBytes buf b with
      | ok bs => rw [hb] at this; cases this
      | throw m => rw [hb] at this; cases this
      | ub m => rfl
    · have : i = b := by omega
      subst this
      cases hb : bufferBytes buf i with
      | ok bs => simp only [Outcome.bind]; rw [h]; rfl
      | throw m =>
        exfalso
        have hno : ∀ k m, bufferBytes buf k ≠ .throw m := by
          intro k
          induction k with
          | zero => intro m e; cases e
          | succ k ihk =>
            intro m e
            rw [bufferBytes] at e
            cases hk : bufferBytes buf k with
            | ok bs =>
              rw [hk] at e; simp only [Outcome.bind] at e
              cases hc : Type1.cell buf k with
              | none => rw [hc] at e; cases e
              | some v => rw [hc] at e; cases e
            | throw m' => exact ihk m' hk
            | ub m' => rw [hk] at e; cases e
        exact hno i m hb
      | ub m => rfl

theorem fi_asciiStart_plain (l1 : ℤ) (s : List ℕ) (h : ¬ (s[0]? = some 128 ∧ s[1]? = some 1)) :
    asciiStart l1 s = (l1, s) := by
  unfold asciiStart
  rw [if_neg h]

theorem fi_asciiStart_pfb (l1 : ℤ) (c d e f n : ℕ) (s : List ℕ) (hc : c < 256) (hd : d < 256)
    (he : e < 256) (hf : f < 128) (hn : n = c + 256 * d + 65536 * e + 16777216 * f) :
    asciiStart l1 (128 :: 1 :: c :: d :: e :: f :: s) = ((n : ℤ), s) := by
  unfold asciiStart
  rw [if_pos ⟨rfl, rfl⟩]
  simp only [List.drop_succ_cons, List.drop_zero]
  rw [header_length c d e f n hc hd he hf hn]

theorem fi_encrypt_lt : ∀ (ps : List ℕ) (r : ℕ), (∀ p ∈ ps, p < 256) → r < 65536 →
    ∀ c ∈ Type1.encrypt r ps, c < 256
  | [], _, _, _ => by simp [Type1.encrypt]
  | p :: ps, r, hp, hr => by
    intro c hc
    rw [Type1.encrypt] at hc
    rcases List.mem_cons.mp hc with rfl | hc
    · have h1 := hp p (by simp)
      have h2 : r / 256 < 256 := by omega
      have : p ^^^ (r / 256) < 2 ^ 8 := Nat.xor_lt_two_pow (by omega) (by omega)
      omega
    · exact fi_encrypt_lt ps _ (fun q hq => hp q (by simp [hq])) (Nat.mod_lt _ (by omega)) c hc

/-- **C61.** A font file without segment headers: a clear-text part of `Length1` bytes, then an
encrypted part of `Length2` bytes in binary form.  The clear text and the plain text of the
encrypted part are recovered exactly. -/
theorem c61_font_file (ascii lead plain trailer : List ℕ) (h0 : ascii ≠ [])
    (hhead : ¬ ((ascii ++ Type1.encrypt 55665 (lead ++ plain) ++ trailer)[0]? = some 128 ∧
      (ascii ++ Type1.encrypt 55665 (lead ++ plain) ++ trailer)[1]? = some 1))
    (hlead : lead.length = 4) (hl : ∀ p ∈ lead, p < 256) (hp : ∀ p ∈ plain, p < 256)
    (ht : ∀ p ∈ trailer, p < 256)
    (hbin : ∃ c ∈ (Type1.encrypt 55665 (lead ++ plain)).take 4, Type1.isHexDigit c = false)
    (hnh : ¬ ((Type1.encrypt 55665 (lead ++ plain))[0]? = some 128 ∧
      (Type1.encrypt 55665 (lead ++ plain))[1]? = some 2)) :
    parseFile .wrap (some (ascii.length : ℤ)) (some ((lead ++ plain).length : ℤ))
        (ascii ++ Type1.encrypt 55665 (lead ++ plain) ++ trailer) =
      .ok (some (ascii, some plain)) := by
  have hlen : ∀ (r : ℕ) (ps : List ℕ), (Type1.encrypt r ps).length = ps.length := by
    intro r ps
    induction ps generalizing r with
    | nil => rfl
    | cons p ps ih => rw [Type1.encrypt]; simp [ih]
  have hall : ∀ p ∈ lead ++ plain, p < 256 := by
    intro p hm
    rcases List.mem_append.mp hm with h | h
    · exact hl p h
    · exact hp p h
  set enc := Type1.encrypt 55665 (lead ++ plain) with henc
  have el : enc.length = (lead ++ plain).length := hlen _ _
  have hel : 4 ≤ enc.length := by rw [el]; simp [hlead]
  have hpos : 0 < ascii.length := List.length_pos_iff.mpr h0
  obtain ⟨buf, hr, hcell⟩ := c61_binary_unchanged ((lead ++ plain).length : ℤ) (enc ++ trailer)
    (by
      intro c hc
      rcases List.mem_append.mp hc with h | h
      · exact fi_encrypt_lt _ _ hall (by omega) c h
      · exact ht c h)
    (by rw [List.length_append]; omega) (by rw [← el]; omega)
    (by
      obtain ⟨c, hc, hf⟩ := hbin
      exact ⟨c, by rw [List.take_append_of_le_length hel]; exact hc, hf⟩)
    (by
      intro h
      apply hnh
      rw [List.getElem?_append_left (by omega), List.getElem?_append_left (by omega)] at h
      exact h)
  have hmin : min ((lead ++ plain).length : ℤ).toNat (enc ++ trailer).length = enc.length := by
    rw [Int.toNat_natCast, ← el, List.length_append]; omega
  rw [hmin] at hr hcell
  have hbuf : bufferBytes buf enc.length = .ok enc := by
    apply fi_bufferBytes
    intro i hi
    rw [hcell i hi, List.getElem?_append_left hi]
  have hdec := c46_round_trip_partial 55665 lead plain (by omega) hl hp
  rw [hlead, ← henc, ← el] at hdec
  unfold parseFile
  simp only
  rw [fi_asciiStart_plain _ _ hhead]
  simp only
  rw [if_neg (by
    rintro (h | h)
    · omega
    · rw [← el] at h; omega)]
  have hdrop : (ascii ++ enc ++ trailer).drop ((ascii.length : ℤ).toNat) = enc ++ trailer := by
    rw [Int.toNat_natCast, List.append_assoc, List.drop_left]
  have htake : (ascii ++ enc ++ trailer).take ((ascii.length : ℤ).toNat) = ascii := by
    rw [Int.toNat_natCast, List.append_assoc, List.take_left]
  rw [hdrop, htake]
  unfold decryptedPart
  rw [hr]
  simp only [Outcome.bind]
  rw [hbuf]
  simp only
  rw [hdec]

example : parseFile .wrap (some 2) (some 6)
    ([37, 33] ++ Type1.encrypt 55665 ([1, 2, 3, 4] ++ [47, 83]) ++ [48, 48]) =
      .ok (some ([37, 33], some [47, 83])) := by decide +kernel

/-- **C61.** The same for a file in PFB form, whose parts carry segment headers with their lengths;
the encrypted part may be shorter than `Length2` but not longer. -/
theorem c61_pfb_file (ascii lead plain trailer : List ℕ) (length1 length2 : ℤ)
    (h0 : ascii ≠ []) (hA : ascii.length < 2147483648) (hlead : lead.length = 4)
    (hE : (lead ++ plain).length < 2147483648) (hlen2 : ((lead ++ plain).length : ℤ) ≤ length2)
    (hl : ∀ p ∈ lead, p < 256) (hp : ∀ p ∈ plain, p < 256) (ht : ∀ p ∈ trailer, p < 256) :
    parseFile .wrap (some length1) (some length2)
        ([128, 1] ++ lengthBytes ascii.length ++ ascii ++
          ([128, 2] ++ lengthBytes (lead ++ plain).length ++
            Type1.encrypt 55665 (lead ++ plain) ++ trailer)) =
      .ok (some (ascii, some plain)) := by
  have hlen : ∀ (r : ℕ) (ps : List ℕ), (Type1.encrypt r ps).length = ps.length := by
    intro r ps
    induction ps generalizing r with
    | nil => rfl
    | cons p ps ih => rw [Type1.encrypt]; simp [ih]
  have hall : ∀ p ∈ lead ++ plain, p < 256 := by
    intro p hm
    rcases List.mem_append.mp hm with h | h
    · exact hl p h
    · exact hp p h
  set enc := Type1.encrypt 55665 (lead ++ plain) with henc
  have el : enc.length = (lead ++ plain).length := hlen _ _
  have hpos : 0 < ascii.length := List.length_pos_iff.mpr h0
  have h4 : 4 ≤ (lead ++ plain).length := by simp [hlead]
  have hstart : asciiStart length1 ([128, 1] ++ lengthBytes ascii.length ++ ascii ++
      ([128, 2] ++ lengthBytes (lead ++ plain).length ++ enc ++ trailer)) =
      ((ascii.length : ℤ), ascii ++
        ([128, 2] ++ lengthBytes (lead ++ plain).length ++ enc ++ trailer)) := by
    have e : [128, 1] ++ lengthBytes ascii.length ++ ascii ++
        ([128, 2] ++ lengthBytes (lead ++ plain).length ++ enc ++ trailer) =
        128 :: 1 :: ascii.length % 256 :: ascii.length / 256 % 256 :: ascii.length / 65536 % 256 ::
          ascii.length / 16777216 % 256 :: (ascii ++
            ([128, 2] ++ lengthBytes (lead ++ plain).length ++ enc ++ trailer)) := by
      simp [lengthBytes]
    rw [e]
    exact fi_asciiStart_pfb _ _ _ _ _ _ _ (by omega) (by omega) (by omega) (by omega) (by omega)
  obtain ⟨buf, hr, hcell⟩ := c61_header length2 ((lead ++ plain).length % 256)
    ((lead ++ plain).length / 256 % 256) ((lead ++ plain).length / 65536 % 256)
    ((lead ++ plain).length / 16777216 % 256) (lead ++ plain).length (enc ++ trailer)
    (by
      intro c hc
      rcases List.mem_append.mp hc with h | h
      · exact fi_encrypt_lt _ _ hall (by omega) c h
      · exact ht c h)
    (by omega) (by omega) (by omega) (by omega) (by omega) hlen2
  have hmin : min (lead ++ plain).length (enc ++ trailer).length = enc.length := by
    rw [← el, List.length_append]; omega
  rw [hmin] at hr hcell
  have hbuf : bufferBytes buf enc.length = .ok enc := by
    apply fi_bufferBytes
    intro i hi
    rw [hcell i hi, List.getElem?_append_left hi]
  have hdec := c46_round_trip_partial 55665 lead plain (by omega) hl hp
  rw [hlead, ← henc, ← el] at hdec
  unfold parseFile
  simp only
  rw [hstart]
  simp only
  rw [if_neg (by omega), Int.toNat_natCast, List.drop_left, List.take_left]
  unfold decryptedPart
  have e2 : [128, 2] ++ lengthBytes (lead ++ plain).length ++ enc ++ trailer =
      128 :: 2 :: (lead ++ plain).length % 256 :: (lead ++ plain).length / 256 % 256 ::
        (lead ++ plain).length / 65536 % 256 :: (lead ++ plain).length / 16777216 % 256 ::
          (enc ++ trailer) := by
    simp [lengthBytes]
  rw [e2, hr]
  simp only [Outcome.bind]
  rw [hbuf]
  simp only
  rw [hdec]

example : parseFile .wrap (some 7) (some 6)
    ([128, 1] ++ lengthBytes 2 ++ [37, 33] ++ ([128, 2] ++ lengthBytes 6 ++
      Type1.encrypt 55665 ([1, 2, 3, 4] ++ [47, 83]) ++ [128, 3])) =
      .ok (some ([37, 33], some [47, 83])) := by decide +kernel

/-- **C61, finding.** A font file whose encrypted part is in hexadecimal form is undefined
behaviour, whatever it contains. -/
theorem c61_hex_file (mode : Type1.IntMode) (ascii s : List ℕ) (a b c d : ℕ) (length2 : ℤ)
    (h0 : ascii ≠ []) (hlen : 0 < length2)
    (hhead : ¬ ((ascii ++ a :: b :: c :: d :: s)[0]? = some 128 ∧
      (ascii ++ a :: b :: c :: d :: s)[1]? = some 1))
    (hx : ∀ x ∈ [a, b, c, d], Type1.isHexDigit x = true) :
    (parseFile mode (some (ascii.length : ℤ)) (some length2)
      (ascii ++ a :: b :: c :: d :: s)).isUb = true := by
  have hpos : 0 < ascii.length := List.length_pos_iff.mpr h0
  unfold parseFile
  simp only
  rw [fi_asciiStart_plain _ _ hhead]
  simp only
  rw [if_neg (by omega), Int.toNat_natCast, List.drop_left]
  have key : (decryptedPart mode length2 (a :: b :: c :: d :: s)).isUb = true := by
    unfold decryptedPart
    cases hr : Type1.readEncrypted length2 (a :: b :: c :: d :: s) with
    | ub m => rfl
    | throw m =>
      exfalso
      have hb : (!([a, b, c, d].all Type1.isHexDigit)) = false := by
        simp only [Bool.not_eq_false', List.all_eq_true]; exact hx
      have hput : ∀ cap buf i v m, Type1.put cap buf i v ≠ .throw m := by
        intro cap buf i v m e
        unfold Type1.put at e
        split at e <;> cases e
      have hloop : ∀ cap len k i b s buf m, Type1.hexLoop cap len k i b s buf ≠ .throw m := by
        intro cap len k
        induction k with
        | zero => intro i b s buf m e; cases e
        | succ k ih =>
          intro i b s buf m e
          unfold Type1.hexLoop at e
          split at e
          · split at e
            · split at e
              · cases e
              · rename_i x y s' _
                cases hp : Type1.put cap buf i ((16 * Type1.charToHex x + Type1.charToHex y) % 256) with
                | ok v => rw [hp] at e; exact ih _ _ _ _ _ e
                | throw m => exact hput _ _ _ _ _ hp
                | ub m => rw [hp] at e; cases e
            · cases e
          · cases e
      simp only [Type1.readEncrypted, hb, Bool.false_eq_true, if_false] at hr
      rw [if_neg (by omega)] at hr
      cases h1 : Type1.put (length2 / 2) [] 0 ((16 * Type1.charToHex a + Type1.charToHex b) % 256) with
      | throw m => exact hput _ _ _ _ _ h1
      | ub m => rw [h1] at hr; cases hr
      | ok b1 =>
        rw [h1] at hr
        simp only [Outcome.bind] at hr
        cases h2 : Type1.put (length2 / 2) b1 2
            ((16 * Type1.charToHex c + Type1.charToHex d) % 256) with
        | throw m => exact hput _ _ _ _ _ h2
        | ub m => rw [h2] at hr; cases hr
        | ok b2 =>
          rw [h2] at hr
          simp only at hr
          cases h3 : Type1.hexLoop (length2 / 2) length2 s.length 4 2 s b2 with
          | throw m => exact hloop _ _ _ _ _ _ _ _ h3
          | ub m => rw [h3] at hr; cases hr
          | ok r => rw [h3] at hr; cases hr
    | ok r =>
      cases r with
      | none =>
        exfalso
        have hb : (!([a, b, c, d].all Type1.isHexDigit)) = false := by
          simp only [Bool.not_eq_false', List.all_eq_true]; exact hx
        simp only [Type1.readEncrypted, hb, Bool.false_eq_true, if_false] at hr
        rw [if_neg (by omega)] at hr
        cases h1 : Type1.put (length2 / 2) [] 0
            ((16 * Type1.charToHex a + Type1.charToHex b) % 256) with
        | throw m => rw [h1] at hr; cases hr
        | ub m => rw [h1] at hr; cases hr
        | ok b1 =>
          rw [h1] at hr
          simp only [Outcome.bind] at hr
          cases h2 : Type1.put (length2 / 2) b1 2
              ((16 * Type1.charToHex c + Type1.charToHex d) % 256) with
          | throw m => rw [h2] at hr; cases hr
          | ub m => rw [h2] at hr; cases hr
          | ok b2 =>
            rw [h2] at hr
            simp only at hr
            cases h3 : Type1.hexLoop (length2 / 2) length2 s.length 4 2 s b2 with
            | throw m => rw [h3] at hr; cases hr
            | ub m => rw [h3] at hr; cases hr
            | ok r => rw [h3] at hr; cases hr
      | some r =>
        obtain ⟨buf, k⟩ := r
        obtain ⟨hk, hc⟩ := c61_hex_never_read length2 a b c d s hx buf k hr
        have hu := fi_bufferBytes_ub buf 1 hc k hk
        simp only [Outcome.bind]
        cases hbb : bufferBytes buf k with
        | ok bs => rw [hbb] at hu; cases hu
        | throw m => rw [hbb] at hu; cases hu
        | ub m => rfl
  cases hd : decryptedPart mode length2 (a :: b :: c :: d :: s) with
  | ok v => rw [hd] at key; cases key
  | throw m => rw [hd] at key; cases key
  | ub m => rfl

example : (parseFile .wrap (some 2) (some 8) ([37, 33] ++ [68, 57, 68, 54, 54, 70, 54, 51])).isUb =
    true := by decide +kernel

end Verif.Props

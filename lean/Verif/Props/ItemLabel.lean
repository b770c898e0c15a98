import Verif.Model.ItemLabel
import Verif.Spec.ItemLabel
import Verif.Props.BlockRules

/-!
# C73: item labels
-/

namespace Verif.Props
open Verif.ItemLabel Verif.Spec.Labels

/-! ### The language of a pattern -/

/-- The words matched by a compiled pattern. -/
def Lang : Re → List Char → Prop
  | .eps, w => w = []
  | .set ic rs, w => ∃ c, w = [c] ∧ setMatches ic rs c = true
  | .seq a b, w => ∃ u v, Lang a u ∧ Lang b v ∧ w = u ++ v
  | .alt a b, w => Lang a w ∨ Lang b w
  | .star a, w => ∃ us : List (List Char), (∀ u ∈ us, Lang a u) ∧ w = us.flatten

theorem il_starLoop {f : List Char → List (List Char)} {P : List Char → Prop}
    (hf : ∀ s t, t ∈ f s ↔ ∃ u, P u ∧ s = u ++ t) : ∀ (n : ℕ) (s t : List Char), s.length ≤ n →
    (t ∈ starLoop f n s ↔ ∃ us : List (List Char), (∀ u ∈ us, P u) ∧ s = us.flatten ++ t) := by
  intro n
  induction n with
  | zero =>
    intro s t hs
    have : s = [] := List.length_eq_zero_iff.mp (by omega)
    subst this
    simp only [starLoop, List.mem_singleton]
    constructor
    · rintro rfl; exact ⟨[], by simp, rfl⟩
    · rintro ⟨us, _, h⟩
      exact (List.append_eq_nil_iff.mp h.symm).2
  | succ n ih =>
    intro s t hs
    simp only [starLoop, List.mem_cons, List.mem_flatMap, List.mem_filter, decide_eq_true_eq]
    constructor
    · rintro (rfl | ⟨s', ⟨h1, h2⟩, h3⟩)
      · exact ⟨[], by simp, rfl⟩
      · obtain ⟨u, hu, rfl⟩ := (hf s s').mp h1
        obtain ⟨us, hus, h⟩ := (ih s' t (by omega)).mp h3
        refine ⟨u :: us, ?_, ?_⟩
        · intro x hx
          rcases List.mem_cons.mp hx with rfl | hx
          · exact hu
          · exact hus x hx
        · rw [List.flatten_cons, List.append_assoc, ← h]
    · rintro ⟨us, hus, h⟩
      -- drop the empty rounds in front
      induction us with
      | nil => left; simpa using h.symm
      | cons u us ih2 =>
        by_cases hu : u = []
        · subst hu
          exact ih2 (fun x hx => hus x (by simp [hx])) (by simpa using h)
        · right
          rw [List.flatten_cons, List.append_assoc] at h
          refine ⟨us.flatten ++ t, ⟨(hf _ _).mpr ⟨u, hus u (by simp), h⟩, ?_⟩, ?_⟩
          · have := List.length_pos_iff.mpr hu
            have h' := congrArg List.length h
            simp only [List.length_append] at h' ⊢; omega
          · have hl : (us.flatten ++ t).length ≤ n := by
              have := List.length_pos_iff.mpr hu
              have h' := congrArg List.length h
              simp only [List.length_append] at h' ⊢; omega
            exact (ih _ _ hl).mpr ⟨us, fun x hx => hus x (by simp [hx]), rfl⟩

/-- The matcher finds exactly the words of the language in front of the text. -/
theorem il_rests (r : Re) : ∀ s t, t ∈ rests r s ↔ ∃ u, Lang r u ∧ s = u ++ t := by
  induction r with
  | eps =>
    intro s t
    simp only [rests, Lang, List.mem_singleton]
    constructor
    · rintro rfl; exact ⟨[], rfl, rfl⟩
    · rintro ⟨u, rfl, rfl⟩; rfl
  | set ic rs =>
    intro s t
    cases s with
    | nil =>
      simp only [rests, Lang, List.not_mem_nil, false_iff]
      rintro ⟨u, ⟨c, rfl, _⟩, h⟩
      cases h
    | cons c s =>
      simp only [rests, Lang]
      by_cases h : setMatches ic rs c = true
      · rw [if_pos h, List.mem_singleton]
        constructor
        · rintro rfl; exact ⟨[c], ⟨c, rfl, h⟩, rfl⟩
        · rintro ⟨u, ⟨d, rfl, _⟩, h2⟩
          simp only [List.singleton_append, List.cons.injEq] at h2
          exact h2.2.symm
      · rw [if_neg h]
        simp only [List.not_mem_nil, false_iff]
        rintro ⟨u, ⟨d, rfl, hd⟩, h2⟩
        simp only [List.singleton_append, List.cons.injEq] at h2
        exact h (h2.1 ▸ hd)
  | seq a b iha ihb =>
    intro s t
    simp only [rests, Lang, List.mem_flatMap]
    constructor
    · rintro ⟨m, h1, h2⟩
      obtain ⟨u, hu, rfl⟩ := (iha _ _).mp h1
      obtain ⟨v, hv, rfl⟩ := (ihb _ _).mp h2
      exact ⟨u ++ v, ⟨u, v, hu, hv, rfl⟩, by rw [List.append_assoc]⟩
    · rintro ⟨w, ⟨u, v, hu, hv, rfl⟩, rfl⟩
      exact ⟨v ++ t, (iha _ _).mpr ⟨u, hu, by rw [List.append_assoc]⟩, (ihb _ _).mpr ⟨v, hv, rfl⟩⟩
  | alt a b iha ihb =>
    intro s t
    simp only [rests, Lang, List.mem_append, iha, ihb]
    constructor
    · rintro (⟨u, hu, h⟩ | ⟨u, hu, h⟩)
      · exact ⟨u, .inl hu, h⟩
      · exact ⟨u, .inr hu, h⟩
    · rintro ⟨u, hu | hu, h⟩
      · exact .inl ⟨u, hu, h⟩
      · exact .inr ⟨u, hu, h⟩
  | star a iha =>
    intro s t
    simp only [rests, Lang]
    rw [il_starLoop iha _ _ _ (le_refl _)]
    constructor
    · rintro ⟨us, h1, h2⟩; exact ⟨us.flatten, ⟨us, h1, rfl⟩, h2⟩
    · rintro ⟨u, ⟨us, h1, rfl⟩, h2⟩; exact ⟨us, h1, h2⟩

theorem il_search (r : Re) (text : Text.Str) : search r text = true ↔ ∃ u t, Lang r u ∧ text = u ++ t := by
  unfold search
  rw [Bool.not_eq_true', List.isEmpty_eq_false_iff_exists_mem]
  constructor
  · rintro ⟨t, h⟩
    obtain ⟨u, h1, h2⟩ := (il_rests r text t).mp h
    exact ⟨u, t, h1, h2⟩
  · rintro ⟨u, t, h1, h2⟩
    exact ⟨t, (il_rests r text t).mpr ⟨u, h1, h2⟩⟩

/-! ### Patterns without loops -/

/-- The sequences of character classes a pattern without loops stands for. -/
def expand : Re → List (List (Bool × List (ℕ × ℕ)))
  | .eps => [[]]
  | .set ic rs => [[(ic, rs)]]
  | .seq a b => (expand a).flatMap fun p => (expand b).map (p ++ ·)
  | .alt a b => expand a ++ expand b
  | .star _ => []

/-- The pattern contains no loop. -/
def loopFree : Re → Bool
  | .eps => true
  | .set _ _ => true
  | .seq a b => loopFree a && loopFree b
  | .alt a b => loopFree a && loopFree b
  | .star _ => false

/-- Character by character. -/
def Fits (p : List (Bool × List (ℕ × ℕ))) (w : List Char) : Prop :=
  List.Forall₂ (fun (x : Bool × List (ℕ × ℕ)) (c : Char) => setMatches x.1 x.2 c = true) p w

theorem il_expand (r : Re) (hr : loopFree r = true) : ∀ w, Lang r w ↔ ∃ p ∈ expand r, Fits p w := by
  induction r with
  | eps =>
    intro w
    simp only [Lang, expand, List.mem_singleton, exists_eq_left, Fits]
    constructor
    · rintro rfl; exact .nil
    · intro h; cases h; rfl
  | set ic rs =>
    intro w
    simp only [Lang, expand, List.mem_singleton, exists_eq_left, Fits]
    constructor
    · rintro ⟨c, rfl, h⟩; exact .cons h .nil
    · intro h
      cases h with
      | cons h1 h2 => cases h2; exact ⟨_, rfl, h1⟩
  | seq a b iha ihb =>
    intro w
    simp only [loopFree, Bool.and_eq_true] at hr
    simp only [Lang, expand, List.mem_flatMap, List.mem_map]
    constructor
    · rintro ⟨u, v, hu, hv, rfl⟩
      obtain ⟨p, hp, h1⟩ := (iha hr.1 u).mp hu
      obtain ⟨q, hq, h2⟩ := (ihb hr.2 v).mp hv
      exact ⟨p ++ q, ⟨p, hp, q, hq, rfl⟩, List.rel_append h1 h2⟩
    · rintro ⟨_, ⟨p, hp, q, hq, rfl⟩, h⟩
      obtain ⟨h1, h2⟩ := List.forall₂_iff_zip.mp h
      refine ⟨w.take p.length, w.drop p.length, (iha hr.1 _).mpr ⟨p, hp, ?_⟩,
        (ihb hr.2 _).mpr ⟨q, hq, ?_⟩, (List.take_append_drop _ _).symm⟩
      · have := List.forall₂_take_append w p q (List.Forall₂.flip h)
        exact List.Forall₂.flip this
      · have := List.forall₂_drop_append w p q (List.Forall₂.flip h)
        exact List.Forall₂.flip this
  | alt a b iha ihb =>
    intro w
    simp only [loopFree, Bool.and_eq_true] at hr
    simp only [Lang, expand, List.mem_append, iha hr.1, ihb hr.2]
    constructor
    · rintro (⟨p, hp, h⟩ | ⟨p, hp, h⟩)
      · exact ⟨p, .inl hp, h⟩
      · exact ⟨p, .inr hp, h⟩
    · rintro ⟨p, hp | hp, h⟩
      · exact .inl ⟨p, hp, h⟩
      · exact .inr ⟨p, hp, h⟩
  | star a _ => cases hr

/-- One or more characters of a class. -/
theorem il_plus (ic : Bool) (rs : List (ℕ × ℕ)) (w : List Char) :
    Lang (.seq (.set ic rs) (.star (.set ic rs))) w ↔ w ≠ [] ∧ ∀ c ∈ w, setMatches ic rs c = true := by
  constructor
  · rintro ⟨u, v, ⟨c, rfl, hc⟩, ⟨us, hus, rfl⟩, rfl⟩
    refine ⟨by simp, ?_⟩
    intro d hd
    rw [List.mem_append, List.mem_singleton, List.mem_flatten] at hd
    rcases hd with rfl | ⟨l, hl, hd⟩
    · exact hc
    · obtain ⟨e, rfl, he⟩ := hus l hl
      rw [List.mem_singleton] at hd
      exact hd ▸ he
  · rintro ⟨hne, h⟩
    cases w with
    | nil => exact absurd rfl hne
    | cons c w =>
      refine ⟨[c], w, ⟨c, rfl, h c (by simp)⟩, ⟨w.map fun d => [d], ?_, ?_⟩, rfl⟩
      · intro u hu
        obtain ⟨d, hd, rfl⟩ := List.mem_map.mp hu
        exact ⟨d, rfl, h d (by simp [hd])⟩
      · clear h hne
        induction w with
        | nil => rfl
        | cons d w ih => rw [List.map_cons, List.flatten_cons, ← ih]; rfl

/-! ### Characters -/

theorem il_le (a b : Char) : a ≤ b ↔ a.toNat ≤ b.toNat := by
  rw [Char.le_def, UInt32.le_iff_toNat_le]; rfl

theorem il_eq (a b : Char) : a = b ↔ a.toNat = b.toNat :=
  ⟨fun h => h ▸ rfl, fun h => Char.ext (UInt32.toNat_inj.mp h)⟩

theorem il_isDigit (c : Char) : IsDigit c ↔ 48 ≤ c.toNat ∧ c.toNat ≤ 57 := by
  unfold IsDigit; rw [il_le, il_le]; exact Iff.rfl

theorem il_isLower (c : Char) : IsLower c ↔ 97 ≤ c.toNat ∧ c.toNat ≤ 122 := by
  unfold IsLower; rw [il_le, il_le]; exact Iff.rfl

theorem il_isUpper (c : Char) : IsUpper c ↔ 65 ≤ c.toNat ∧ c.toNat ≤ 90 := by
  unfold IsUpper; rw [il_le, il_le]; exact Iff.rfl

theorem il_set (rs : List (ℕ × ℕ)) (c : Char) :
    setMatches false rs c = true ↔ ∃ r ∈ rs, r.1 ≤ c.toNat ∧ c.toNat ≤ r.2 := by
  simp [setMatches, inRanges]

theorem il_digits (c : Char) : setMatches false [(48, 57)] c = true ↔ IsDigit c := by
  rw [il_set, il_isDigit]; simp

theorem il_digits_ic (c : Char) : setMatches true [(48, 57)] c = true ↔ IsDigit c := by
  rw [il_isDigit]
  simp only [setMatches, inRanges, List.any_cons, List.any_nil, Bool.or_false, Bool.true_and, Bool.or_eq_true,
    decide_eq_true_eq]
  unfold lowerCode upperCode
  split_ifs <;> omega

theorem il_lower (c : Char) : setMatches false [(97, 122)] c = true ↔ IsLower c := by
  rw [il_set, il_isLower]; simp

theorem il_upper (c : Char) : setMatches false [(65, 90)] c = true ↔ IsUpper c := by
  rw [il_set, il_isUpper]; simp

theorem il_alnum (c : Char) : setMatches false [(97, 122), (65, 90), (48, 57)] c = true ↔
    IsLower c ∨ IsUpper c ∨ IsDigit c := by
  rw [il_set, il_isUpper, il_isLower, il_isDigit]; simp

theorem il_alnum_ic (c : Char) : setMatches true [(97, 122), (48, 57)] c = true ↔
    IsLower c ∨ IsUpper c ∨ IsDigit c := by
  rw [il_isUpper, il_isLower, il_isDigit]
  simp only [setMatches, inRanges, List.any_cons, List.any_nil, Bool.or_false, Bool.true_and, Bool.or_eq_true,
    decide_eq_true_eq]
  unfold lowerCode upperCode
  split_ifs <;> omega

theorem il_char (a c : Char) : setMatches false [(a.toNat, a.toNat)] c = true ↔ c = a := by
  rw [il_set, il_eq]; simp; omega

/-- A character that is no letter, with `icase`. -/
theorem il_char_ic (a c : Char) (ha : a.toNat < 65 ∨ 90 < a.toNat ∧ a.toNat < 97 ∨ 122 < a.toNat) :
    setMatches true [(a.toNat, a.toNat)] c = true ↔ c = a := by
  rw [il_eq]
  simp only [setMatches, inRanges, List.any_cons, List.any_nil, Bool.or_false, Bool.true_and, Bool.or_eq_true,
    decide_eq_true_eq]
  unfold lowerCode upperCode
  split_ifs <;> omega

theorem il_blank (c : Char) : setMatches false [(9, 13), (32, 32)] c = true ↔ Blank c := by
  rw [il_set]
  unfold Blank
  simp only [List.mem_cons, List.not_mem_nil, or_false, exists_eq_or_imp, exists_eq_left, il_eq]
  have h1 : ' '.toNat = 32 := rfl
  have h2 : '\t'.toNat = 9 := rfl
  have h3 : '\n'.toNat = 10 := rfl
  have h4 : '\r'.toNat = 13 := rfl
  have h5 : '\x0B'.toNat = 11 := rfl
  have h6 : '\x0C'.toNat = 12 := rfl
  rw [h1, h2, h3, h4, h5, h6]
  omega

theorem il_toNat_ofNat (n : ℕ) (h : n < 55296) : (Char.ofNat n).toNat = n := by
  have hv : n.isValidChar := Or.inl h
  unfold Char.ofNat
  rw [dif_pos hv]
  rfl

theorem il_lowerCase (c : Char) : (if 'A' ≤ c ∧ c ≤ 'Z' then Char.ofNat (c.toNat + 32) else c).toNat =
    lowerCode c.toNat := by
  have h : ('A' ≤ c ∧ c ≤ 'Z') ↔ 65 ≤ c.toNat ∧ c.toNat ≤ 90 := by rw [il_le, il_le]; exact Iff.rfl
  unfold lowerCode
  by_cases hc : 65 ≤ c.toNat ∧ c.toNat ≤ 90
  · rw [if_pos (h.mpr hc), if_pos hc, il_toNat_ofNat _ (by omega)]
  · rw [if_neg (fun g => hc (h.mp g)), if_neg hc]

/-- A letter with `icase`. -/
theorem il_letter_ic (n : ℕ) (hn : 65 ≤ n ∧ n ≤ 90) (c : Char) :
    setMatches true [(n, n)] c = true ↔ lowerCode c.toNat = n + 32 := by
  simp only [setMatches, inRanges, List.any_cons, List.any_nil, Bool.or_false, Bool.true_and, Bool.or_eq_true,
    decide_eq_true_eq]
  unfold lowerCode upperCode
  split_ifs <;> omega

/-- A word of letters with `icase`. -/
theorem il_letters (ns : List ℕ) (h : ∀ n ∈ ns, 65 ≤ n ∧ n ≤ 90) (w : List Char) :
    Fits (ns.map fun n => (true, [(n, n)])) w ↔ lowerCase w = ns.map fun n => Char.ofNat (n + 32) := by
  induction ns generalizing w with
  | nil =>
    cases w with
    | nil => exact ⟨fun _ => rfl, fun _ => .nil⟩
    | cons c w => exact ⟨fun h => (by cases h), fun h => (by cases h)⟩
  | cons n ns ih =>
    cases w with
    | nil => exact ⟨fun h => (by cases h), fun h => (by cases h)⟩
    | cons c w =>
      have hn := h n (by simp)
      have hc : (Char.ofNat (n + 32)).toNat = n + 32 := il_toNat_ofNat _ (by omega)
      have ih' := ih (fun m hm => h m (by simp [hm])) w
      unfold Fits at ih' ⊢
      rw [List.map_cons, List.forall₂_cons, ih', il_letter_ic n hn]
      unfold lowerCase
      rw [List.map_cons, List.map_cons, List.cons.injEq, il_eq, il_lowerCase, hc]

/-! ### The patterns of the program -/

/-- A literal character. -/
def lit (ic : Bool) (c : Char) : Re := .set ic [(c.toNat, c.toNat)]

/-- `\\s+`. -/
def blanksRe : Re := .seq (.set false [(9, 13), (32, 32)]) (.star (.set false [(9, 13), (32, 32)]))

/-- A word in lower case letters as a pattern with `icase`. -/
def icWord (s : List Char) : Re := s.foldr (fun c r => .seq (.set true [(c.toNat - 32, c.toNat - 32)]) r) .eps

/-- `(X{0,1}(IX|IV|V?I{0,3}))` with `icase`. -/
def romanRe : Re :=
  .seq (upTo (.set true [(88, 88)]) 1) (.seq
    (.alt (icWord ['i', 'x']) (.alt (icWord ['i', 'v'])
      (.seq (opt (.set true [(86, 86)])) (.seq (upTo (.set true [(73, 73)]) 3) .eps)))) .eps)

/-- The parts of the patterns in front of `\\s+`. -/
def labelParts : List (List Re) := [
  [.alt (.seq (.set false [(0xE2, 0xE2)]) (.seq (.set false [(0x80, 0x80)]) (.seq (.set false [(0xA2, 0xA2)]) .eps)))
    (.alt (.seq (lit false '-') .eps)
    (.alt (.seq (.set false [(0xE2, 0xE2)]) (.seq (.set false [(0x80, 0x80)]) (.seq (.set false [(0x93, 0x93)]) .eps)))
      (.seq (lit false '+') .eps)))],
  [romanRe, lit true '.'],
  [lit true '(', romanRe, lit true ')'],
  [.seq (.set false [(97, 122)]) .eps, lit false '.'],
  [.seq (.seq (.set false [(48, 57)]) (.star (.set false [(48, 57)]))) .eps, lit false '.'],
  [.alt (.seq (lit true '(') .eps) (.seq (lit true '[') .eps),
    .seq (.set true [(97, 122), (48, 57)]) (.seq (upTo (.set true [(48, 57)]) 2) .eps),
    .alt (.seq (lit true ')') .eps) (.seq (lit true ']') .eps)],
  [.seq (lit false '[') .eps,
    .seq (.set false [(65, 90)]) (.seq (upTo (.set false [(97, 122), (65, 90), (48, 57)]) 5) .eps),
    .seq (lit false ']') .eps],
  [.seq (.set true [(97, 122), (48, 57)]) (.seq (upTo (.set true [(48, 57)]) 1) .eps), lit true ')'],
  [lit true 'P', lit true 'A', lit true 'C', lit true 'S']]

/-- The patterns compile to these expressions. -/
theorem il_compiled : itemLabelRegexes =
    labelParts.map fun ps => some (ps.foldr Re.seq (.seq blanksRe .eps)) := by decide +kernel

/-- C73: every pattern of the program is accepted by the constructor of `std::regex`. -/
theorem c73_patterns_compile : itemLabelRegexes.length = 9 ∧ ∀ r ∈ itemLabelRegexes, r.isSome = true := by
  rw [il_compiled]
  refine ⟨rfl, ?_⟩
  intro r hr
  obtain ⟨_, _, rfl⟩ := List.mem_map.mp hr
  rfl

theorem il_parts (ps : List Re) (w : List Char) : Lang (ps.foldr Re.seq (.seq blanksRe .eps)) w ↔
    ∃ l bs, Lang (ps.foldr Re.seq .eps) l ∧ bs ≠ [] ∧ (∀ c ∈ bs, Blank c) ∧ w = l ++ bs := by
  induction ps generalizing w with
  | nil =>
    simp only [List.foldr_nil]
    constructor
    · rintro ⟨u, v, hu, hv, rfl⟩
      obtain ⟨h1, h2⟩ := (il_plus _ _ _).mp hu
      refine ⟨[], u, rfl, h1, fun c hc => (il_blank c).mp (h2 c hc), ?_⟩
      cases hv; simp
    · rintro ⟨l, bs, hl, h1, h2, rfl⟩
      cases hl
      exact ⟨bs, [], (il_plus _ _ _).mpr ⟨h1, fun c hc => (il_blank c).mpr (h2 c hc)⟩, rfl, by simp⟩
  | cons p ps ih =>
    simp only [List.foldr_cons]
    constructor
    · rintro ⟨u, v, hu, hv, rfl⟩
      obtain ⟨l, bs, hl, h1, h2, rfl⟩ := (ih v).mp hv
      exact ⟨u ++ l, bs, ⟨u, l, hu, hl, rfl⟩, h1, h2, by rw [List.append_assoc]⟩
    · rintro ⟨l, bs, ⟨u, l', hu, hl', rfl⟩, h1, h2, rfl⟩
      exact ⟨u, l' ++ bs, hu, (ih _).mpr ⟨l', bs, hl', h1, h2, rfl⟩, by rw [List.append_assoc]⟩

/-- A text is found by the search iff it starts with a word of the language and a blank. -/
theorem il_matches (text : Text.Str) : matchesItemRegex text = true ↔
    ∃ ps ∈ labelParts, ∃ l c rest, Lang (ps.foldr Re.seq .eps) l ∧ Blank c ∧ text = l ++ c :: rest := by
  unfold matchesItemRegex
  rw [il_compiled, List.any_map, List.any_eq_true]
  refine exists_congr fun ps => and_congr_right fun _ => ?_
  simp only [Function.comp_apply]
  rw [il_search]
  constructor
  · rintro ⟨u, t, hu, rfl⟩
    obtain ⟨l, bs, hl, h1, h2, rfl⟩ := (il_parts ps u).mp hu
    cases bs with
    | nil => exact absurd rfl h1
    | cons c bs => exact ⟨l, c, bs ++ t, hl, h2 c (by simp), by simp⟩
  · rintro ⟨l, c, rest, hl, hc, rfl⟩
    refine ⟨l ++ [c], rest, (il_parts ps _).mpr ⟨l, [c], hl, by simp, ?_, rfl⟩, by simp⟩
    intro d hd
    rw [List.mem_singleton] at hd
    exact hd ▸ hc

theorem il_upTo (ic : Bool) (rs : List (ℕ × ℕ)) (n : ℕ) (w : List Char) :
    Lang (upTo (.set ic rs) n) w ↔ w.length ≤ n ∧ ∀ c ∈ w, setMatches ic rs c = true := by
  induction n generalizing w with
  | zero =>
    constructor
    · intro h; cases h; simp
    · rintro ⟨h, _⟩
      exact List.length_eq_zero_iff.mp (by omega)
  | succ n ih =>
    constructor
    · rintro (⟨u, v, ⟨c, rfl, hc⟩, hv, rfl⟩ | h)
      · obtain ⟨h1, h2⟩ := (ih v).mp hv
        refine ⟨by simp; omega, ?_⟩
        intro d hd
        rcases List.mem_cons.mp hd with rfl | hd
        · exact hc
        · exact h2 d hd
      · cases h; simp
    · rintro ⟨h1, h2⟩
      cases w with
      | nil => exact .inr rfl
      | cons c w =>
        exact .inl ⟨[c], w, ⟨c, rfl, h2 c (by simp)⟩, (ih w).mpr ⟨by simpa using h1, fun d hd => h2 d (by simp [hd])⟩, rfl⟩

/-- The numerals as lists of upper case letters, in the order of the expansion. -/
def numeralCodes : List (List ℕ) := (expand romanRe).map fun p => p.map fun x => ((x.2.head?.map (·.1)).getD 0)

theorem il_roman (w : List Char) : Lang romanRe w ↔ w = [] ∨ lowerCase w ∈ romanNumerals := by
  rw [il_expand romanRe (by decide +kernel)]
  have h1 : expand romanRe = numeralCodes.map fun ns => ns.map fun n => (true, [(n, n)]) := by decide +kernel
  have h2 : ∀ ns ∈ numeralCodes, ∀ n ∈ ns, 65 ≤ n ∧ n ≤ 90 := by decide +kernel
  have h3 : ∀ ns ∈ numeralCodes, (ns.map fun n => Char.ofNat (n + 32)) ∈ [] :: romanNumerals := by decide +kernel
  have h4 : ∀ r ∈ [] :: romanNumerals, ∃ ns ∈ numeralCodes, (ns.map fun n => Char.ofNat (n + 32)) = r := by
    decide +kernel
  have h5 : lowerCase w = [] ↔ w = [] := by simp [lowerCase]
  rw [h1, ← h5]
  constructor
  · rintro ⟨p, hp, h⟩
    obtain ⟨ns, hns, rfl⟩ := List.mem_map.mp hp
    rw [il_letters ns (h2 ns hns)] at h
    have := h3 ns hns
    rw [← h, List.mem_cons] at this
    exact this
  · intro h
    obtain ⟨ns, hns, h6⟩ := h4 (lowerCase w) (List.mem_cons.mpr h)
    exact ⟨_, List.mem_map.mpr ⟨ns, hns, rfl⟩, (il_letters ns (h2 ns hns) w).mpr h6.symm⟩

theorem il_lit (c : Char) (w : List Char) : Lang (lit false c) w ↔ w = [c] := by
  constructor
  · rintro ⟨d, rfl, h⟩; rw [(il_char c d).mp h]
  · rintro rfl; exact ⟨c, rfl, (il_char c c).mpr rfl⟩

theorem il_lit_ic (c : Char) (hc : c.toNat < 65 ∨ 90 < c.toNat ∧ c.toNat < 97 ∨ 122 < c.toNat) (w : List Char) :
    Lang (lit true c) w ↔ w = [c] := by
  constructor
  · rintro ⟨d, rfl, h⟩; rw [(il_char_ic c d hc).mp h]
  · rintro rfl; exact ⟨c, rfl, (il_char_ic c c hc).mpr rfl⟩

theorem il_seq_eps (a : Re) (w : List Char) : Lang (.seq a .eps) w ↔ Lang a w := by
  constructor
  · rintro ⟨u, v, hu, hv, rfl⟩; cases hv; simpa using hu
  · intro h; exact ⟨w, [], h, rfl, by simp⟩

theorem il_single (ic : Bool) (rs : List (ℕ × ℕ)) (w : List Char) :
    Lang (.set ic rs) w ↔ ∃ c, w = [c] ∧ setMatches ic rs c = true := Iff.rfl

theorem il_seq (a b : Re) (w : List Char) : Lang (.seq a b) w ↔ ∃ u v, Lang a u ∧ Lang b v ∧ w = u ++ v := Iff.rfl

theorem il_alt (a b : Re) (w : List Char) : Lang (.alt a b) w ↔ Lang a w ∨ Lang b w := Iff.rfl

/-- C73: the search finds exactly the texts that start with an item label and a blank. -/
theorem c73_labels (text : Text.Str) : matchesItemRegex text = true ↔
    ∃ l c rest, Spec.Labels.ItemLabel l ∧ Blank c ∧ text = l ++ c :: rest := by
  have key : ∀ l, (∃ ps ∈ labelParts, Lang (ps.foldr Re.seq .eps) l) ↔ Spec.Labels.ItemLabel l := by
    intro l
    have e1 : ∀ w, Lang (.seq (.set false [(0xE2, 0xE2)]) (.seq (.set false [(0x80, 0x80)]) (.seq (.set false [(0xA2, 0xA2)]) .eps))) w ↔
        w = [0xE2, 0x80, 0xA2].map Char.ofNat := by
      intro w
      simp only [↓il_seq_eps, il_seq]
      constructor
      · rintro ⟨u, v, hu, ⟨u', v', hu', hv', rfl⟩, rfl⟩
        rw [(il_lit (Char.ofNat 0xE2) u).mp hu, (il_lit (Char.ofNat 0x80) u').mp hu', (il_lit (Char.ofNat 0xA2) v').mp hv']
        rfl
      · rintro rfl
        exact ⟨_, _, (il_lit (Char.ofNat 0xE2) _).mpr rfl, ⟨_, _, (il_lit (Char.ofNat 0x80) _).mpr rfl,
          (il_lit (Char.ofNat 0xA2) _).mpr rfl, rfl⟩, rfl⟩
    have e2 : ∀ w, Lang (.seq (.set false [(0xE2, 0xE2)]) (.seq (.set false [(0x80, 0x80)]) (.seq (.set false [(0x93, 0x93)]) .eps))) w ↔
        w = [0xE2, 0x80, 0x93].map Char.ofNat := by
      intro w
      simp only [↓il_seq_eps, il_seq]
      constructor
      · rintro ⟨u, v, hu, ⟨u', v', hu', hv', rfl⟩, rfl⟩
        rw [(il_lit (Char.ofNat 0xE2) u).mp hu, (il_lit (Char.ofNat 0x80) u').mp hu', (il_lit (Char.ofNat 0x93) v').mp hv']
        rfl
      · rintro rfl
        exact ⟨_, _, (il_lit (Char.ofNat 0xE2) _).mpr rfl, ⟨_, _, (il_lit (Char.ofNat 0x80) _).mpr rfl,
          (il_lit (Char.ofNat 0x93) _).mpr rfl, rfl⟩, rfl⟩
    have d1 : ∀ w, Lang (lit true '.') w ↔ w = ['.'] := il_lit_ic '.' (by decide)
    have d2 : ∀ w, Lang (lit true '(') w ↔ w = ['('] := il_lit_ic '(' (by decide)
    have d3 : ∀ w, Lang (lit true ')') w ↔ w = [')'] := il_lit_ic ')' (by decide)
    have d4 : ∀ w, Lang (lit true '[') w ↔ w = ['['] := il_lit_ic '[' (by decide)
    have d5 : ∀ w, Lang (lit true ']') w ↔ w = [']'] := il_lit_ic ']' (by decide)
    have p1 : ∀ w, Lang (.seq (lit true 'P') (.seq (lit true 'A') (.seq (lit true 'C') (.seq (lit true 'S') .eps)))) w ↔
        lowerCase w = "pacs".toList := by
      intro w
      rw [il_expand _ (by decide +kernel)]
      have h := il_letters [80, 65, 67, 83] (by decide) w
      constructor
      · rintro ⟨p, hp, hf⟩
        have : p = ([80, 65, 67, 83] : List ℕ).map fun n => (true, [(n, n)]) := List.mem_singleton.mp hp
        exact h.mp (this ▸ hf)
      · intro hw
        exact ⟨_, List.mem_singleton.mpr rfl, h.mpr hw⟩
    unfold labelParts
    simp only [List.mem_cons, List.not_mem_nil, or_false, exists_eq_or_imp, exists_eq_left, List.foldr_cons, List.foldr_nil]
    rw [p1]
    simp only [↓il_seq_eps, ↓il_plus, ↓e1, ↓e2, il_seq, il_alt, il_single, il_upTo, ↓il_roman, d1, d2, d3, d4, d5, il_lit, il_digits,
      il_digits_ic, il_lower, il_upper, il_alnum, il_alnum_ic]
    constructor
    · rintro ((rfl | rfl | rfl | rfl) | ⟨u, v, hu, rfl, rfl⟩ | ⟨u, v, rfl, ⟨u', v', hu', rfl, rfl⟩, rfl⟩ | ⟨u, v, ⟨c, rfl, hc⟩, rfl, rfl⟩ |
        ⟨u, v, ⟨h1, h2⟩, rfl, rfl⟩ | ⟨u, v, hu, ⟨u', v', ⟨u2, v2, ⟨c, rfl, hc⟩, ⟨h1, h2⟩, rfl⟩, hv, rfl⟩, rfl⟩ |
        ⟨u, v, rfl, ⟨u', v', ⟨u2, v2, ⟨c, rfl, hc⟩, ⟨h1, h2⟩, rfl⟩, rfl, rfl⟩, rfl⟩ |
        ⟨u, v, ⟨u2, v2, ⟨c, rfl, hc⟩, ⟨h1, h2⟩, rfl⟩, rfl, rfl⟩ | h)
      · exact .bullet (by simp [bullets])
      · exact .bullet (by simp [bullets])
      · exact .bullet (by simp [bullets])
      · exact .bullet (by simp [bullets])
      · rcases hu with rfl | hu
        · exact .noNumeral (by simp)
        · exact .romanDot hu rfl
      · rcases hu' with rfl | hu'
        · exact .noNumeral (by simp)
        · exact .roman hu' rfl
      · exact .letterDot hc
      · exact .numberDot h1 h2
      · rcases hu with rfl | rfl <;> rcases hv with rfl | rfl
        · exact .bracket (o := '(') (x := ')') (by simp) hc h1 h2 (by simp)
        · exact .bracket (o := '(') (x := ']') (by simp) hc h1 h2 (by simp)
        · exact .bracket (o := '[') (x := ')') (by simp) hc h1 h2 (by simp)
        · exact .bracket (o := '[') (x := ']') (by simp) hc h1 h2 (by simp)
      · exact .citation hc h1 h2
      · exact .paren hc h1 h2
      · exact .pacs h
    · intro h
      cases h with
      | bullet h =>
        left
        simpa only [bullets, List.mem_cons, List.not_mem_nil, or_false] using h
      | romanDot h1 h2 => exact .inr (.inl ⟨_, _, .inr (h2 ▸ h1), rfl, rfl⟩)
      | roman h1 h2 => exact .inr (.inr (.inl ⟨_, _, rfl, ⟨_, _, .inr (h2 ▸ h1), rfl, rfl⟩, rfl⟩))
      | letterDot h => exact .inr (.inr (.inr (.inl ⟨_, _, ⟨_, rfl, h⟩, rfl, rfl⟩)))
      | numberDot h1 h2 => exact .inr (.inr (.inr (.inr (.inl ⟨_, _, ⟨h1, h2⟩, rfl, rfl⟩))))
      | @bracket o c ds x ho h1 h2 h3 hx =>
        refine .inr (.inr (.inr (.inr (.inr (.inl ⟨[o], c :: ds ++ [x], ?_, ⟨c :: ds, [x], ⟨[c], ds, ⟨c, rfl, h1⟩, ⟨h2, h3⟩, rfl⟩, ?_, rfl⟩, rfl⟩)))))
        · simpa using ho
        · simpa using hx
      | @citation c cs h1 h2 h3 =>
        exact .inr (.inr (.inr (.inr (.inr (.inr (.inl ⟨['['], c :: cs ++ [']'], rfl,
          ⟨c :: cs, [']'], ⟨[c], cs, ⟨c, rfl, h1⟩, ⟨h2, h3⟩, rfl⟩, rfl, rfl⟩, rfl⟩))))))
      | @paren c ds h1 h2 h3 =>
        exact .inr (.inr (.inr (.inr (.inr (.inr (.inr (.inl ⟨c :: ds, [')'], ⟨[c], ds, ⟨c, rfl, h1⟩, ⟨h2, h3⟩, rfl⟩, rfl, rfl⟩)))))))
      | pacs h => exact .inr (.inr (.inr (.inr (.inr (.inr (.inr (.inr h)))))))
      | noNumeral h =>
        simp only [List.mem_cons, List.not_mem_nil, or_false] at h
        rcases h with rfl | rfl
        · exact .inr (.inl ⟨[], ['.'], .inl rfl, rfl, rfl⟩)
        · exact .inr (.inr (.inl ⟨['('], [')'], rfl, ⟨[], [')'], .inl rfl, rfl, rfl⟩, rfl⟩))
  rw [il_matches]
  constructor
  · rintro ⟨ps, hps, l, c, rest, hl, hc, ht⟩
    exact ⟨l, c, rest, (key l).mp ⟨ps, hps, hl⟩, hc, ht⟩
  · rintro ⟨l, c, rest, hl, hc, ht⟩
    obtain ⟨ps, hps, hl⟩ := (key l).mpr hl
    exact ⟨ps, hps, l, c, rest, hl, hc, ht⟩

end Verif.Props

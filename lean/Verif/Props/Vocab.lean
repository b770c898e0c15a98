import Mathlib.Tactic.Linarith
import Mathlib.Data.List.Nodup
import Mathlib.Data.List.Induction
import Verif.Model.Vocab
import Verif.Spec.Vocab
import Verif.Props.Bpe

/-!
# C70: the vocabularies of the prediction model
-/

namespace Verif.Props

open Verif.Spec Verif.Vocab Verif.Bpe Verif.Text

/-! ## Numbers -/

theorem vo_space (c : Char) : isSpaceC c = true ↔ c ∈ [' ', '\t', '\n', Char.ofNat 11, Char.ofNat 12, '\r'] := by
  unfold isSpaceC
  simp only [Bool.or_eq_true, beq_iff_eq, Bool.and_eq_true, decide_eq_true_eq, List.mem_cons, List.not_mem_nil, or_false]
  have key : ∀ d : Char, c = d ↔ c.toNat = d.toNat := fun d => ⟨fun h => by rw [h], fun h => Char.ext (UInt32.toNat.inj h)⟩
  rw [key, key, key, key, key, key]
  have h1 : (' ' : Char).toNat = 32 := rfl
  have h2 : ('\t' : Char).toNat = 9 := rfl
  have h3 : ('\n' : Char).toNat = 10 := rfl
  have h4 : (Char.ofNat 11).toNat = 11 := rfl
  have h5 : (Char.ofNat 12).toNat = 12 := rfl
  have h6 : ('\r' : Char).toNat = 13 := rfl
  rw [h1, h2, h3, h4, h5, h6]
  omega

theorem vo_digit (c : Char) : ('0' ≤ c ∧ c ≤ '9') ↔ 48 ≤ c.toNat ∧ c.toNat ≤ 57 := by
  rw [Char.le_def, Char.le_def, UInt32.le_iff_toNat_le, UInt32.le_iff_toNat_le]
  exact Iff.rfl

theorem vo_value : ∀ (ds : List Char), (∀ c ∈ ds, '0' ≤ c ∧ c ≤ '9') → ∀ v : ℤ,
    ds.foldl (fun (v : ℤ) (c : Char) => 10 * v + ((c.toNat : ℤ) - 48)) v =
      10 ^ ds.length * v + ((Nat.ofDigits 10 ((ds.map fun c => c.toNat - 48).reverse) : ℕ) : ℤ) := by
  intro ds
  induction ds with
  | nil => intro _ v; simp
  | cons c ds ih =>
    intro h v
    have hc := (vo_digit c).mp (h c (by simp))
    rw [List.foldl_cons, ih (fun x hx => h x (by simp [hx])), List.map_cons, List.reverse_cons, Nat.ofDigits_append]
    simp only [List.length_reverse, List.length_map, List.length_cons, Nat.ofDigits_singleton]
    push_cast [hc.1]
    ring

theorem vo_inInt (i : ℤ) : Type1.inInt i = true ↔ -2 ^ 31 ≤ i ∧ i < 2 ^ 31 := by
  unfold Type1.inInt Type1.intMin Type1.intMax
  simp only [Bool.and_eq_true, decide_eq_true_eq]
  omega

theorem vo_mem_takeWhile {α : Type} {p : α → Bool} : ∀ {l : List α} {a : α}, a ∈ l.takeWhile p → p a = true := by
  intro l
  induction l with
  | nil => intro a h; simp at h
  | cons b l ih =>
    intro a h
    rw [List.takeWhile_cons] at h
    by_cases hb : p b = true
    · rw [if_pos hb] at h
      rcases List.mem_cons.mp h with rfl | h
      · exact hb
      · exact ih h
    · rw [if_neg hb] at h; cases h

theorem vo_sign_not_space : isSpaceC '-' = false ∧ isSpaceC '+' = false := by decide

/-- The number at the start of a text. -/
theorem vo_stoi (s : List Char) (i : ℤ) : stoi s = .ok i ↔ Numeral s i := by
  constructor
  · intro h
    unfold stoi at h
    simp only at h
    have hs : s = s.takeWhile isSpaceC ++ s.dropWhile isSpaceC := (List.takeWhile_append_dropWhile).symm
    have hb : ∀ c ∈ s.takeWhile isSpaceC, c ∈ [' ', '\t', '\n', Char.ofNat 11, Char.ofNat 12, '\r'] :=
      fun c hc => (vo_space c).mp (vo_mem_takeWhile hc)
    generalize s.takeWhile isSpaceC = blanks at hs hb
    generalize s.dropWhile isSpaceC = u at hs h
    -- the sign
    have hsign : ∃ sign t, u = sign ++ t ∧ (sign = [] ∨ sign = ['+'] ∨ sign = ['-']) ∧
        (if u.head? = some '-' ∨ u.head? = some '+' then u.tail else u) = t ∧ (u.head? = some '-' ↔ sign = ['-']) := by
      cases u with
      | nil => exact ⟨[], [], rfl, .inl rfl, by simp, by simp⟩
      | cons c u =>
        by_cases h1 : c = '-'
        · subst h1; exact ⟨['-'], u, rfl, .inr (.inr rfl), by simp, by simp⟩
        · by_cases h2 : c = '+'
          · subst h2; exact ⟨['+'], u, rfl, .inr (.inl rfl), by simp, by simp⟩
          · refine ⟨[], c :: u, rfl, .inl rfl, by simp [h1, h2], ?_⟩
            simp [h1]
    obtain ⟨sign, t, hu, hsg, ht, hneg⟩ := hsign
    rw [ht] at h
    have htw : t = t.takeWhile (fun c => decide ('0' ≤ c ∧ c ≤ '9')) ++ t.dropWhile (fun c => decide ('0' ≤ c ∧ c ≤ '9')) := (List.takeWhile_append_dropWhile).symm
    have hds : ∀ c ∈ t.takeWhile (fun c => decide ('0' ≤ c ∧ c ≤ '9')), '0' ≤ c ∧ c ≤ '9' := fun c hc => by simpa using vo_mem_takeWhile hc
    have hrest : ∀ c, (t.dropWhile (fun c => decide ('0' ≤ c ∧ c ≤ '9'))).head? = some c → ¬ ('0' ≤ c ∧ c ≤ '9') := by
      intro c hc
      have := List.head?_dropWhile_not (fun c => decide ('0' ≤ c ∧ c ≤ '9')) t
      rw [hc] at this
      simpa using this
    generalize t.takeWhile (fun c => decide ('0' ≤ c ∧ c ≤ '9')) = ds at htw hds h
    generalize t.dropWhile (fun c => decide ('0' ≤ c ∧ c ≤ '9')) = rest at htw hrest
    by_cases hne : ds.isEmpty = true
    · rw [if_pos hne] at h; cases h
    rw [if_neg hne] at h
    by_cases hint : Type1.inInt (if decide (u.head? = some '-') = true then
        -ds.foldl (fun (v : ℤ) (c : Char) => 10 * v + ((c.toNat : ℤ) - 48)) 0
        else ds.foldl (fun (v : ℤ) (c : Char) => 10 * v + ((c.toNat : ℤ) - 48)) 0) = true
    · rw [if_pos hint] at h
      simp only [Outcome.ok.injEq] at h
      rw [h, vo_inInt] at hint
      refine ⟨blanks, sign, ds, rest, by rw [hs, hu, htw]; simp, hb, hsg, by simpa using hne, hds, hrest, ?_, hint.1, hint.2⟩
      rw [← h, vo_value ds hds 0]
      by_cases hm : u.head? = some '-'
      · rw [if_pos (by simpa using hm), if_pos (hneg.mp hm)]; ring
      · rw [if_neg (by simpa using hm), if_neg (fun hh => hm (hneg.mpr hh))]; ring
    · rw [if_neg hint] at h; cases h
  · rintro ⟨blanks, sign, ds, rest, rfl, hb, hsg, hne, hds, hrest, hi, h1, h2⟩
    have hbl : ∀ c ∈ blanks, isSpaceC c = true := fun c hc => (vo_space c).mpr (hb c hc)
    have hdsp : ∀ c, '0' ≤ c ∧ c ≤ '9' → isSpaceC c = false := by
      intro c hc
      have := (vo_digit c).mp hc
      unfold isSpaceC
      simp only [Bool.or_eq_false_iff, beq_eq_false_iff_ne, Bool.and_eq_false_iff, decide_eq_false_iff_not]
      omega
    have hdrop : (blanks ++ sign ++ ds ++ rest).dropWhile isSpaceC = sign ++ ds ++ rest := by
      rw [List.append_assoc, List.append_assoc, List.dropWhile_append_of_pos hbl, List.append_assoc]
      obtain ⟨d, ds', rfl⟩ := List.exists_cons_of_ne_nil hne
      rcases hsg with rfl | rfl | rfl
      · rw [List.nil_append, List.cons_append, List.dropWhile_cons_of_neg (by simp [hdsp d (hds d (by simp))])]
      · rw [List.cons_append, List.dropWhile_cons_of_neg (by simp [vo_sign_not_space])]
      · rw [List.cons_append, List.dropWhile_cons_of_neg (by simp [vo_sign_not_space])]
    have htail : (if (sign ++ ds ++ rest).head? = some '-' ∨ (sign ++ ds ++ rest).head? = some '+' then (sign ++ ds ++ rest).tail else sign ++ ds ++ rest) = ds ++ rest ∧
        ((sign ++ ds ++ rest).head? = some '-' ↔ sign = ['-']) := by
      obtain ⟨d, ds', rfl⟩ := List.exists_cons_of_ne_nil hne
      rcases hsg with rfl | rfl | rfl
      · have hd := (vo_digit d).mp (hds d (by simp))
        have n1 : d ≠ '-' := by rintro rfl; revert hd; decide
        have n2 : d ≠ '+' := by rintro rfl; revert hd; decide
        simp [n1, n2]
      · simp
      · simp
    have htw : (ds ++ rest).takeWhile (fun c => decide ('0' ≤ c ∧ c ≤ '9')) = ds := by
      rw [List.takeWhile_append_of_pos (by intro c hc; simpa using hds c hc)]
      cases rest with
      | nil => simp
      | cons c rest =>
        have := hrest c rfl
        rw [List.takeWhile_cons_of_neg (by simpa using this), List.append_nil]
    unfold stoi
    simp only
    rw [hdrop, htail.1, htw, if_neg (by simpa using hne), vo_value ds hds 0]
    have hv : (if decide ((sign ++ ds ++ rest).head? = some '-') = true then -(10 ^ ds.length * 0 + ((Nat.ofDigits 10 ((ds.map fun c => c.toNat - 48).reverse) : ℕ) : ℤ))
        else 10 ^ ds.length * 0 + ((Nat.ofDigits 10 ((ds.map fun c => c.toNat - 48).reverse) : ℕ) : ℤ)) = i := by
      by_cases hm : sign = ['-']
      · rw [if_pos (by simpa using htail.2.mpr hm), hi, if_pos hm]; ring
      · rw [if_neg (by simpa using fun hh => hm (htail.2.mp hh)), hi, if_neg hm]; ring
    rw [hv, if_pos ((vo_inInt i).mpr ⟨h1, h2⟩)]

theorem vo_stoi_cases (s : List Char) : (∃ i, stoi s = .ok i) ∨ ∃ m, stoi s = .throw m := by
  unfold stoi
  simp only
  have key : ∀ (b : Bool) (v : ℤ), (∃ i, (if b = true then (.throw "invalid_argument" : Outcome ℤ) else if Type1.inInt v = true then .ok v else .throw "out_of_range") = .ok i) ∨
      ∃ m, (if b = true then (.throw "invalid_argument" : Outcome ℤ) else if Type1.inInt v = true then .ok v else .throw "out_of_range") = .throw m := by
    intro b v
    cases b
    · cases Type1.inInt v
      · exact .inr ⟨_, rfl⟩
      · exact .inl ⟨_, rfl⟩
    · exact .inr ⟨_, rfl⟩
  exact key _ _

/-! ## Lines -/

/-- Adding the entry of a line. -/
def addEntry {β : Type} (ins : List Char → ℤ → β → β) (m : β) (e : Option (List Char × ℤ)) : β := (e.map fun e => ins e.1 e.2 m).getD m

theorem vo_split {a : List Char} {x : Char} (b : List Char) (h : x ∉ a) : (a ++ x :: b).takeWhile (· ≠ x) = a ∧ (a ++ x :: b).dropWhile (· ≠ x) = x :: b := by
  have ha : ∀ c ∈ a, decide (c ≠ x) = true := by intro c hc; simp only [decide_eq_true_eq]; rintro rfl; exact h hc
  constructor
  · rw [List.takeWhile_append_of_pos ha, List.takeWhile_cons_of_neg (by simp), List.append_nil]
  · rw [List.dropWhile_append_of_pos ha, List.dropWhile_cons_of_neg (by simp)]

theorem vo_nosplit {a : List Char} {x : Char} (h : x ∉ a) : a.dropWhile (· ≠ x) = [] := by
  have ha : ∀ c ∈ a, decide (c ≠ x) = true := by intro c hc; simp only [decide_eq_true_eq]; rintro rfl; exact h hc
  have := List.dropWhile_append_of_pos (l₂ := []) ha
  simpa using this

theorem vo_useLine {β : Type} (ins : List Char → ℤ → β → β) {line : List Char} {e : Option (List Char × ℤ)} (h : LineMeans line e) (m : β) :
    useLine ins line m = .ok (addEntry ins m e) := by
  cases e with
  | none =>
    unfold useLine
    rw [vo_nosplit h]; rfl
  | some e =>
    obtain ⟨number, rfl, h1, h2⟩ := h
    unfold useLine
    rw [(vo_split number h1).2, (vo_split number h1).1]
    simp only
    rw [(vo_stoi _ _).mpr h2]
    rfl

theorem vo_line {β : Type} (broken : Bool) (ins : List Char → ℤ → β → β) (r : Reader β) (hg : r.good = true) {line rest : List Char} (hr : r.rest = line ++ '\n' :: rest) (hl : '\n' ∉ line) :
    readRound broken ins r = (useLine ins line r.map).bind fun m => .ok (.inr { line := line, rest := rest, good := true, map := m }) := by
  unfold readRound getline
  rw [hr, (vo_split rest hl).1, (vo_split rest hl).2]
  simp [hg]

theorem vo_last {β : Type} (broken : Bool) (ins : List Char → ℤ → β → β) (r : Reader β) (hg : r.good = true) (hl : '\n' ∉ r.rest) :
    readRound broken ins r = if broken then (useLine ins r.rest r.map).bind fun m => .ok (.inr { line := r.rest, rest := [], good := false, map := m }) else .ok (.inl r.map) := by
  unfold readRound getline
  rw [vo_nosplit hl]
  cases broken <;> simp [hg]

theorem vo_content_cons (l : List Char) (ls : List (List Char)) (rest : List Char) : content (l :: ls) rest = l ++ '\n' :: content ls rest := by
  simp [content]

/-- Reading the complete lines. -/
theorem vo_lines {β : Type} (broken : Bool) (ins : List Char → ℤ → β → β) (rest : List Char) (k : ℕ) : ∀ (lines : List (List Char)) (es : List (Option (List Char × ℤ))) (r : Reader β),
    r.good = true → r.rest = content lines rest → (∀ l ∈ lines, '\n' ∉ l) → List.Forall₂ LineMeans lines es →
    ∃ line, readRounds broken ins (lines.length + k) r = readRounds broken ins k { line := line, rest := rest, good := true, map := es.foldl (addEntry ins) r.map } := by
  intro lines
  induction lines with
  | nil =>
    intro es r hg hr _ hF
    cases hF
    refine ⟨r.line, ?_⟩
    rw [List.length_nil, Nat.zero_add]
    congr 1
    cases r
    simp only [content, List.flatMap_nil, List.nil_append] at hr hg
    subst hr hg
    rfl
  | cons l ls ih =>
    intro es r hg hr hl hF
    cases hF with
    | @cons _ e _ es h1 h2 =>
      rw [vo_content_cons] at hr
      have hround := vo_line broken ins r hg hr (hl l (by simp))
      rw [vo_useLine ins h1] at hround
      obtain ⟨line, ih⟩ := ih es { line := l, rest := content ls rest, good := true, map := addEntry ins r.map e } rfl rfl (fun x hx => hl x (by simp [hx])) h2
      refine ⟨line, ?_⟩
      rw [List.length_cons, show ls.length + 1 + k = (ls.length + k) + 1 by omega, readRounds, hround]
      exact ih

/-- The whole file. -/
theorem vo_file {β : Type} (ins : List Char → ℤ → β → β) (m : β) (lines : List (List Char)) (rest : List Char) (es : List (Option (List Char × ℤ)))
    (hl : ∀ l ∈ lines, '\n' ∉ l) (hr : '\n' ∉ rest) (hF : List.Forall₂ LineMeans lines es) (n : ℕ) (hn : lines.length < n) :
    readRounds false ins n { rest := content lines rest, map := m } = .ok (.inl (es.foldl (addEntry ins) m)) := by
  obtain ⟨k, rfl⟩ : ∃ k, n = lines.length + (k + 1) := ⟨n - lines.length - 1, by omega⟩
  obtain ⟨line, h⟩ := vo_lines false ins rest (k + 1) lines es { rest := content lines rest, map := m } rfl rfl hl hF
  rw [h, readRounds, vo_last false ins _ rfl hr]
  rfl

/-- Every text is the content of lines and a rest. -/
theorem vo_content (s : List Char) : ∃ lines rest, s = content lines rest ∧ (∀ l ∈ lines, '\n' ∉ l) ∧ '\n' ∉ rest := by
  induction s with
  | nil => exact ⟨[], [], rfl, by simp, by simp⟩
  | cons c s ih =>
    obtain ⟨lines, rest, rfl, h1, h2⟩ := ih
    by_cases hc : c = '\n'
    · subst hc
      refine ⟨[] :: lines, rest, by rw [vo_content_cons]; rfl, ?_, h2⟩
      intro l hl
      rcases List.mem_cons.mp hl with rfl | hl
      · simp
      · exact h1 l hl
    · cases lines with
      | nil =>
        refine ⟨[], c :: rest, by simp [content], by simp, ?_⟩
        rw [List.mem_cons, not_or]; exact ⟨fun h => hc h.symm, h2⟩
      | cons l ls =>
        refine ⟨(c :: l) :: ls, rest, by rw [vo_content_cons, vo_content_cons]; rfl, ?_, h2⟩
        intro x hx
        rcases List.mem_cons.mp hx with rfl | hx
        · rw [List.mem_cons, not_or]; exact ⟨fun h => hc h.symm, h1 l (by simp)⟩
        · exact h1 x (by simp [hx])

/-! ## The maps -/

theorem vo_lookup_append (m m' : Vocab) (t : List Char) : lookup (m ++ m') t = (lookup m t).or (lookup m' t) := by
  induction m with
  | nil => simp [lookup]
  | cons e es ih =>
    rw [List.cons_append, lookup, lookup, ih]
    split <;> simp

theorem vo_lookup_none (m : Vocab) (t : List Char) : lookup m t = none ↔ t ∉ m.map (·.1) := by
  induction m with
  | nil => simp [lookup]
  | cons e es ih =>
    rw [lookup]
    by_cases h : e.1 = t
    · rw [if_pos h]; simp [h]
    · rw [if_neg h, ih, List.map_cons, List.mem_cons, not_or]
      exact ⟨fun hh => ⟨fun hh' => h hh'.symm, hh⟩, fun hh => hh.2⟩

theorem vo_tokens (es : List (Option (List Char × ℤ))) : ∀ m : Vocab, (m.map (·.1)).Nodup →
    ((es.foldl (addEntry insertToken) m).map (·.1)).Nodup ∧
    ∀ t, lookup (es.foldl (addEntry insertToken) m) t = (lookup m t).or (((es.filterMap id).find? fun e => decide (e.1 = t)).map (·.2)) := by
  induction es with
  | nil => intro m h; exact ⟨h, by simp⟩
  | cons e es ih =>
    intro m h
    rw [List.foldl_cons]
    cases e with
    | none =>
      have := ih m h
      simpa [addEntry] using this
    | some e =>
      have e1 : addEntry insertToken m (some e) = if (lookup m e.1).isSome then m else m ++ [(e.1, e.2)] := rfl
      rw [e1]
      by_cases hs : (lookup m e.1).isSome = true
      · rw [if_pos hs]
        obtain ⟨i1, i2⟩ := ih m h
        refine ⟨i1, ?_⟩
        intro t
        rw [i2 t, List.filterMap_cons_some (by rfl), List.find?_cons]
        by_cases ht : e.1 = t
        · subst ht
          obtain ⟨x, hx⟩ := Option.isSome_iff_exists.mp hs
          rw [hx]; rfl
        · rw [decide_eq_false ht]
      · rw [if_neg hs]
        have hnone : lookup m e.1 = none := by simpa using hs
        obtain ⟨i1, i2⟩ := ih (m ++ [(e.1, e.2)]) (by
          rw [List.map_append, List.nodup_append]
          refine ⟨h, by simp, ?_⟩
          intro a ha b hb
          simp only [List.map_cons, List.map_nil, List.mem_singleton] at hb
          subst hb
          rintro rfl
          exact (vo_lookup_none m e.1).mp hnone ha)
        refine ⟨i1, ?_⟩
        intro t
        rw [i2 t, vo_lookup_append, List.filterMap_cons_some (by rfl), List.find?_cons]
        by_cases ht : e.1 = t
        · subst ht
          rw [hnone, decide_eq_true rfl]
          simp [lookup]
        · rw [decide_eq_false ht]
          simp [lookup, ht]

theorem vo_roles (es : List (Option (List Char × ℤ))) : ∀ (m : List (ℤ × List Char)) (i : ℤ) (x : List Char),
    (i, x) ∈ es.foldl (addEntry assignRole) m ↔
      ((es.filterMap id).reverse.find? fun e => decide (e.2 = i)).map (·.1) = some x ∨ ((∀ e ∈ es.filterMap id, e.2 ≠ i) ∧ (i, x) ∈ m) := by
  induction es using List.reverseRecOn with
  | nil => intro m i x; simp
  | append_singleton es e ih =>
    intro m i x
    rw [List.foldl_append, List.foldl_cons, List.foldl_nil]
    cases e with
    | none => simpa [addEntry] using ih m i x
    | some e =>
      have e1 : ∀ m, addEntry assignRole m (some e) = (e.2, e.1) :: m.filter fun y => y.1 ≠ e.2 := fun m => rfl
      rw [e1, List.mem_cons, List.mem_filter, ih m i x, List.filterMap_append]
      simp only [List.filterMap_cons, List.filterMap_nil, id, List.reverse_append, List.reverse_singleton, List.singleton_append, List.find?_cons, Prod.mk.injEq, List.mem_append, List.mem_singleton]
      by_cases hi : e.2 = i
      · subst hi
        simp only [true_and, ne_eq, not_true_eq_false, decide_false, Bool.false_eq_true, and_false, or_false, decide_true, Option.map_some, Option.some.injEq]
        constructor
        · rintro rfl; exact .inl rfl
        · rintro (h | ⟨h, _⟩)
          · exact h.symm
          · exact absurd rfl (h e (.inr rfl))
      · rw [decide_eq_false hi]
        have hi' : i ≠ e.2 := fun hh => hi hh.symm
        simp only [hi', false_and, false_or, ne_eq, not_false_eq_true, decide_true, and_true]
        constructor
        · rintro (h | ⟨h, h'⟩)
          · exact .inl h
          · refine .inr ⟨?_, h'⟩
            rintro y (hy | rfl)
            · exact h y hy
            · exact hi
        · rintro (h | ⟨h, h'⟩)
          · exact .inl h
          · exact .inr ⟨fun y hy => h y (.inl hy), h'⟩

/-! ## C70 -/

/-- **C70 (vocabularies).** From a readable file every complete line `<token>TAB<id>` is read, lines without TAB are skipped, and a last line without newline is not read; a token gets the id of its first line, a role number the role of its last line. -/
theorem c70_vocabularies (bpeLines roleLines : List (List Char)) (bpeRest roleRest : List Char) (tokens roles : List (Option (List Char × ℤ)))
    (h1 : ∀ l ∈ bpeLines, '\n' ∉ l) (h2 : '\n' ∉ bpeRest) (h3 : List.Forall₂ LineMeans bpeLines tokens)
    (h4 : ∀ l ∈ roleLines, '\n' ∉ l) (h5 : '\n' ∉ roleRest) (h6 : List.Forall₂ LineMeans roleLines roles) :
    ∃ o : Obj, o.modelOk = true ∧
      (∀ n, bpeLines.length < n → roleLines.length < n → prepare ⟨true, some ⟨content bpeLines bpeRest, false⟩, some ⟨content roleLines roleRest, false⟩⟩ n {} = (o, some (.ok ()))) ∧
      (∀ t, lookup o.bpe t = ((tokens.filterMap id).find? fun e => decide (e.1 = t)).map (·.2)) ∧
      (o.bpe.map (·.1)).Nodup ∧
      (∀ i x, (i, x) ∈ o.roles ↔ ((roles.filterMap id).reverse.find? fun e => decide (e.2 = i)).map (·.1) = some x) ∧
      ∀ d n, prepare d n o = (o, some (.ok ())) := by
  refine ⟨⟨true, tokens.foldl (addEntry insertToken) [], roles.foldl (addEntry assignRole) []⟩, rfl, ?_, ?_, ?_, ?_, ?_⟩
  · intro n hn hn'
    unfold prepare readModel
    simp only [Bool.not_false, if_true, Bool.not_true, Bool.false_eq_true, if_false]
    rw [vo_file insertToken [] bpeLines bpeRest tokens h1 h2 h3 n hn]
    simp only
    rw [vo_file assignRole [] roleLines roleRest roles h4 h5 h6 n hn']
  · intro t
    rw [(vo_tokens tokens [] (by simp)).2 t]
    simp [lookup]
  · exact (vo_tokens tokens [] (by simp)).1
  · intro i x
    rw [vo_roles roles [] i x]
    simp
  · intro d n
    rfl

/-- **C70 (every file).** The content of every file consists of complete lines and a rest; so the other statements cover every file. -/
theorem c70_every_file (s : List Char) : ∃ lines rest, s = content lines rest ∧ (∀ l ∈ lines, '\n' ∉ l) ∧ '\n' ∉ rest := vo_content s

/-- **C70 (malformed number).** A line with TAB whose rest does not start with a number (of 32 bits) ends the run with an exception. -/
theorem c70_malformed_number (lines after : List (List Char)) (rest token number : List Char) (tokens : List (Option (List Char × ℤ))) (broken : Bool) (roles : Option File)
    (h1 : ∀ l ∈ lines, '\n' ∉ l) (h2 : List.Forall₂ LineMeans lines tokens) (h3 : '\n' ∉ token ++ '\t' :: number) (h4 : '\t' ∉ token) (h5 : ∀ i, ¬ Numeral number i)
    (n : ℕ) (hn : lines.length < n) :
    ∃ o m, prepare ⟨true, some ⟨content (lines ++ (token ++ '\t' :: number) :: after) rest, broken⟩, roles⟩ n {} = (o, some (.throw m)) := by
  obtain ⟨k, rfl⟩ : ∃ k, n = lines.length + (k + 1) := ⟨n - lines.length - 1, by omega⟩
  have hc : content (lines ++ (token ++ '\t' :: number) :: after) rest = content lines (content ((token ++ '\t' :: number) :: after) rest) := by
    simp [content]
  obtain ⟨line, h⟩ := vo_lines broken insertToken (content ((token ++ '\t' :: number) :: after) rest) (k + 1) lines tokens
    { rest := content (lines ++ (token ++ '\t' :: number) :: after) rest, map := [] } rfl hc h1 h2
  rw [readRounds, vo_line broken insertToken _ rfl (vo_content_cons _ _ _) h3] at h
  have hu : ∀ m, ∃ msg, useLine insertToken (token ++ '\t' :: number) m = .throw msg := by
    intro m
    unfold useLine
    rw [(vo_split number h4).2]
    simp only
    rcases vo_stoi_cases number with ⟨i, hi⟩ | ⟨msg, hi⟩
    · exact absurd ((vo_stoi _ _).mp hi) (h5 i)
    · exact ⟨msg, by rw [hi]; rfl⟩
  obtain ⟨msg, hu⟩ := hu (tokens.foldl (addEntry insertToken) [])
  simp only at h
  rw [hu] at h
  refine ⟨⟨true, [], []⟩, msg, ?_⟩
  unfold prepare readModel
  simp only [Bool.not_false, if_true, Bool.not_true, Bool.false_eq_true, if_false]
  rw [h]
  rfl

/-- **C70, refuted part (unreadable file).** If the vocabulary becomes unreadable (bytes that are not UTF-8, a directory instead of a file), the program does not report an error, but runs forever. -/
theorem c70_unreadable_file_loops (lines : List (List Char)) (rest : List Char) (tokens : List (Option (List Char × ℤ))) (e : Option (List Char × ℤ)) (roles : Option File)
    (h1 : ∀ l ∈ lines, '\n' ∉ l) (h2 : '\n' ∉ rest) (h3 : List.Forall₂ LineMeans lines tokens) (h4 : LineMeans rest e) (n : ℕ) :
    (prepare ⟨true, some ⟨content lines rest, true⟩, roles⟩ n {}).2 = none := by
  have hloop : ∀ (k : ℕ) (r : Reader Vocab), r.good = false → r.line = rest → ∃ r', readRounds true insertToken k r = .ok (.inr r') := by
    intro k
    induction k with
    | zero => intro r _ _; exact ⟨r, rfl⟩
    | succ k ih =>
      intro r hg hl
      have hround : readRound true insertToken r = .ok (.inr { r with map := addEntry insertToken r.map e }) := by
        unfold readRound getline
        simp only [hg, Bool.not_false, if_true, Bool.false_eq_true, if_false]
        rw [hl, vo_useLine insertToken h4]
        rfl
      rw [readRounds, hround]
      exact ih { r with map := addEntry insertToken r.map e } hg hl
  have hall : ∃ r', readRounds true insertToken n { rest := content lines rest, map := [] } = .ok (.inr r') := by
    by_cases hn : lines.length < n
    · obtain ⟨k, rfl⟩ : ∃ k, n = lines.length + (k + 1) := ⟨n - lines.length - 1, by omega⟩
      obtain ⟨line, h⟩ := vo_lines true insertToken rest (k + 1) lines tokens { rest := content lines rest, map := [] } rfl rfl h1 h3
      rw [h, readRounds, vo_last true insertToken _ rfl h2]
      simp only [if_true]
      rw [vo_useLine insertToken h4]
      exact hloop k _ rfl rfl
    · -- the loop is still among the complete lines
      have hsplit : content lines rest = content (lines.take n) (content (lines.drop n) rest) := by
        unfold content
        rw [← List.append_assoc, ← List.flatMap_append, List.take_append_drop]
      have hlen : (lines.take n).length = n := by rw [List.length_take]; omega
      obtain ⟨line, h⟩ := vo_lines true insertToken (content (lines.drop n) rest) 0 (lines.take n) (tokens.take n) { rest := content lines rest, map := [] } rfl hsplit
        (fun l hl => h1 l (List.mem_of_mem_take hl)) (List.forall₂_take n h3)
      rw [hlen, Nat.add_zero] at h
      exact ⟨_, h⟩
  obtain ⟨r', hr⟩ := hall
  unfold prepare readModel
  simp only [Bool.not_false, if_true, Bool.not_true, Bool.false_eq_true, if_false]
  rw [hr]

/-- **C70 (missing file).** A missing model or vocabulary is reported by an exception. -/
theorem c70_missing_file (d : Dir) (n : ℕ) (h : d.modelLoads = false ∨ d.bpe = none) : ∃ o m, prepare d n {} = (o, some (.throw m)) := by
  unfold prepare readModel
  simp only [Bool.not_false, if_true]
  rcases h with h | h
  · exact ⟨_, _, by rw [h]; rfl⟩
  · cases hm : d.modelLoads with
    | false => exact ⟨_, _, by simp; exact ⟨rfl, rfl⟩⟩
    | true => exact ⟨_, _, by simp [h]; exact ⟨rfl, rfl⟩⟩

/-- **C70, refuted part (second attempt).** After an attempt that failed because of a missing vocabulary, the next prediction with the same object goes ahead without the vocabulary - even if the file is there by then. -/
theorem c70_second_attempt_without_vocabulary (roles : Option File) (d : Dir) (n m : ℕ) :
    ∃ o msg, prepare ⟨true, none, roles⟩ n {} = (o, some (.throw msg)) ∧ prepare d m o = (o, some (.ok ())) ∧ o.bpe = [] :=
  ⟨_, _, rfl, rfl, rfl⟩

/-! ## The words tensor -/

/-- The row of a block: the ids of the encodings of its words, cut or filled up to 100. -/
def RowOf (v : Vocab) (text : List Char) (row : List ℤ) : Prop :=
  ∃ tss, List.Forall₂ (fun w ts => IsEncoding (fun t => (lookup (construct v).vocab t).isSome) (w ++ ['✂']) ts)
      (splitIntoWords betweenWords text) tss ∧
    row = fit 100 (idOf v ['⊛']) (tss.flatten.map (idOf v))

theorem vo_rows (v : Vocab) : ∀ (texts : List (List Char)) (e : Encoder), Reachable v e →
    ∃ rows, wordRows e texts = .ok rows.flatten ∧ List.Forall₂ (RowOf v) texts rows := by
  intro texts
  induction texts with
  | nil => intro e _; exact ⟨[], rfl, List.Forall₂.nil⟩
  | cons t ts ih =>
    intro e he
    obtain ⟨e', tss, he', h1, h2⟩ := c40_encode he t 100 []
    rw [if_neg (by decide), List.nil_append] at h2
    obtain ⟨rows, i1, i2⟩ := ih e' he'
    have hlen : (fit 100 (idOf v ['⊛']) (tss.flatten.map (idOf v))).length = 100 := by
      unfold fit
      rw [List.length_take, List.length_append, List.length_replicate]
      omega
    refine ⟨fit 100 (idOf v ['⊛']) (tss.flatten.map (idOf v)) :: rows, ?_, List.Forall₂.cons ⟨tss, h1, rfl⟩ i2⟩
    rw [wordRows]
    have h2' : encode e t rowLength [] = .ok (e', fit 100 (idOf v ['⊛']) (tss.flatten.map (idOf v))) := h2
    rw [h2']
    simp only [Outcome.bind]
    rw [if_neg (by rw [hlen]; decide), i1]
    simp only
    rw [List.take_of_length_le (by rw [hlen]; decide), List.flatten_cons]

/-- **C70 (words tensor).** The words tensor has one row of 100 ids per text block, in the order of the pages and blocks: the ids of the encodings of the words of the block, cut off or filled up with the id of the padding symbol; the rows do not depend on each other. -/
theorem c70_words_tensor (v : Vocab) (pages : List (List (List Char))) :
    ∃ rows, wordsTensor v pages = .ok (((pages.flatten).length, 100), rows.flatten) ∧ List.Forall₂ (RowOf v) pages.flatten rows ∧
      (∀ row ∈ rows, row.length = 100) ∧ rows.flatten.length = pages.flatten.length * 100 := by
  obtain ⟨rows, h1, h2⟩ := vo_rows v pages.flatten (construct v) Reachable.new
  have hlen : ∀ row ∈ rows, row.length = 100 := by
    intro row hrow
    obtain ⟨i, hi⟩ := List.getElem?_of_mem hrow
    obtain ⟨t, _, tss, _, rfl⟩ : ∃ t, t ∈ pages.flatten ∧ RowOf v t row := by
      clear h1 hi
      generalize pages.flatten = texts at h2
      induction h2 with
      | nil => cases hrow
      | cons h _ ih =>
        rcases List.mem_cons.mp hrow with rfl | hr
        · exact ⟨_, by simp, h⟩
        · obtain ⟨t, ht, hh⟩ := ih hr
          exact ⟨t, by simp [ht], hh⟩
    unfold fit
    rw [List.length_take, List.length_append, List.length_replicate]
    omega
  refine ⟨rows, ?_, h2, hlen, ?_⟩
  · unfold wordsTensor
    rw [h1, List.length_flatten]
    rfl
  · rw [h2.length_eq]
    clear h1 h2
    induction rows with
    | nil => rfl
    | cons r rs ih =>
      rw [List.flatten_cons, List.length_append, ih fun x hx => hlen x (by simp [hx]), hlen r (by simp), List.length_cons]
      omega

/-! ### Examples -/

example : Numeral "12\r".toList 12 :=
  ⟨[], [], ['1', '2'], ['\r'], rfl, by simp, .inl rfl, by simp, by decide, by decide, by decide, by decide, by decide⟩

example : LineMeans "th\t7".toList (some ("th".toList, 7)) :=
  ⟨['7'], rfl, by decide, [], [], ['7'], [], rfl, by simp, .inl rfl, by simp, by decide, by simp, by decide, by decide, by decide⟩

example : LineMeans "no tab".toList none := by show _ ∉ _; decide

example : (prepare ⟨true, some ⟨"a\t0\nb\t1\nskipped\na\t5\nlast\t9".toList, false⟩, some ⟨"x\t0\ny\t0\n".toList, false⟩⟩ 9 {}).1.bpe = [("a".toList, 0), ("b".toList, 1)] := by decide +kernel

example : (prepare ⟨true, some ⟨"a\t0\nb\tx\n".toList, false⟩, some ⟨[], false⟩⟩ 9 {}).2.map Outcome.isThrow = some true := by decide +kernel

example : ∀ i, ¬ Numeral "x".toList i := by
  intro i h
  have := (vo_stoi "x".toList i).mpr h
  have e : (stoi "x".toList).isThrow = true := by decide +kernel
  rw [this] at e
  cases e

example : (wordsTensor [("a".toList, 0)] [["a".toList], [[], "a a".toList]]).isOk = true := by decide +kernel

end Verif.Props

import Verif.Spec.Help
import Verif.Props.Text
import Verif.Props.Cli

/-!
# C85: the help message describes every option
-/

namespace Verif.Props

open Verif.Help Verif.Cli Verif.Spec Verif.Text

/-- White space is what `isspace` says. -/
theorem hp_blank (c : Char) : isSpaceC c = blankChar c := by
  have h := c15_whitespace c
  unfold blankChar
  by_cases hc : isSpaceC c = true
  · rw [hc]; exact (decide_eq_true (h.mp hc)).symm
  · rw [Bool.not_eq_true] at hc
    rw [hc]
    exact (decide_eq_false fun hm => by rw [h.mpr hm] at hc; cases hc).symm

theorem hp_visible (t : Str) : Visible t ↔ ∃ c ∈ t, isSpaceC c = false := by
  unfold Visible
  simp only [hp_blank]

theorem hp_not_visible (t : Str) : ¬ Visible t ↔ ∀ c ∈ t, isSpaceC c = true := by
  unfold Visible
  simp only [hp_blank, not_exists, not_and, Bool.not_eq_false]

theorem hp_split_trim {d : Char → Bool} {a t b : Str} {ws : List Str} (ha : ∀ c ∈ a, d c = true)
    (hb : ∀ c ∈ b, d c = true) (h : IsSplit d t ws) : IsSplit d (a ++ t ++ b) ws := by
  rw [List.append_assoc]
  apply isSplit_prepend _ a ha
  induction h with
  | done pre hpre =>
    exact .done _ fun c hc => by rcases List.mem_append.mp hc with h | h; exacts [hpre c h, hb c h]
  | word pre w rest ws hpre hne hw hmax hrest ih =>
    rw [List.append_assoc]
    refine .word pre w (rest ++ b) ws hpre hne hw ?_ ih
    intro c hc
    cases rest with
    | nil => exact hb c (List.mem_of_mem_head? (by simpa using hc))
    | cons x xs => exact hmax c (by simpa using hc)

theorem hp_wrap_ne {t : Str} (ht : t ≠ []) (width indent : ℕ) : wrap t width indent ≠ [] := by
  unfold wrap
  rw [wrapLoop]
  split
  · simp
  · split
    · split
      · simp [ht]
      · simp
    · simp [ht]

/-- A wrapped text begins with the indent and its own first character. -/
theorem hp_wrap_head {t : Str} {x : Char} {xs : Str} (ht : t = x :: xs) (hx : isSpaceC x = false) (width indent : ℕ) :
    ∃ body, wrap t width indent = spaces indent ++ x :: body := by
  have hcut : ∀ ch : Char, isSpaceC ch = true → ∀ e,
      (rfind ch t (wrapLimit 0 width indent)).filter (0 ≤ ·) = some e → ∃ k, e = k + 1 := by
    intro ch hch e he
    obtain ⟨h1, _⟩ := Option.filter_eq_some_iff.mp he
    obtain ⟨_, _, h3⟩ := rfind_lt h1
    cases e with
    | zero =>
      rw [ht] at h3
      simp at h3
      rw [h3] at hx; rw [hx] at hch; cases hch
    | succ k => exact ⟨k, rfl⟩
  unfold wrap
  rw [wrapLoop]
  split
  · rename_i e he
    obtain ⟨k, rfl⟩ := hcut '\n' (by decide) _ he
    exact ⟨_, by rw [ht]; simp; rfl⟩
  · split
    · rename_i e he
      obtain ⟨k, rfl⟩ := hcut ' ' (by decide) _ he
      split
      · exact ⟨xs, by rw [ht]; simp⟩
      · exact ⟨_, by rw [ht]; simp; rfl⟩
    · exact ⟨xs, by rw [ht]; simp⟩

theorem hp_wrap_words (t : Str) (width indent : ℕ) (hi : indent ≤ width) (hw : t.length + width < 2 ^ 32)
    {ws : List Str} (h : IsSplit blankChar t ws) : IsSplit blankChar (wrap t width indent) ws := by
  have h1 := (c10_split_unique blankChar t ws).mp h
  rw [← c12_words_kept blankChar (by decide) (by decide) t width indent hi hw] at h1
  exact (c10_split_unique blankChar _ ws).mpr h1

theorem hp_paragraph (text : Str) (hv : Visible text) (hl : text.length < 2 ^ 31) (indent : ℕ) (hi : indent ≤ 100) :
    ∃ x body, paragraph text 100 indent = .ok (spaces indent ++ x :: body) ∧ blankChar x = false ∧
      SameWords text (x :: body) := by
  obtain ⟨t, ht, hne, htr⟩ := c15_strip_trims text ((hp_visible text).mp hv)
  obtain ⟨a, b, hab, ha, hb, hh, _⟩ := htr
  obtain ⟨x, xs, hx⟩ : ∃ x xs, t = x :: xs := by
    cases t with
    | nil => exact absurd rfl hne
    | cons x xs => exact ⟨x, xs, rfl⟩
  have hxs : isSpaceC x = false := hh x (by rw [hx]; rfl)
  obtain ⟨body, hbody⟩ := hp_wrap_head hx hxs 100 indent
  refine ⟨x, body, ?_, by rw [← hp_blank]; exact hxs, ?_⟩
  · unfold paragraph; rw [ht]; show Outcome.ok _ = _; rw [hbody]
  · refine ⟨splitIntoWords blankChar t, ?_, ?_⟩
    · rw [hab]
      exact hp_split_trim (fun c hc => by rw [← hp_blank]; exact ha c hc) (fun c hc => by rw [← hp_blank]; exact hb c hc)
        (c10_split_isSplit blankChar t)
    · have hlen : t.length ≤ text.length := by rw [hab]; simp; omega
      have h1 := hp_wrap_words t 100 indent hi (by omega) (c10_split_isSplit blankChar t)
      rw [hbody] at h1
      have h2 : ∀ k, splitIntoWords blankChar (spaces k ++ x :: body) = splitIntoWords blankChar (x :: body) := by
        intro k
        have h3 := isSplit_prepend (c10_split_isSplit blankChar (x :: body)) (spaces k) (fun c hc => by
          rw [List.eq_of_mem_replicate hc]; decide)
        exact ((c10_split_unique blankChar _ _).mp h3).symm
      have h4 := (c10_split_unique blankChar _ _).mp h1
      rw [h2] at h4
      exact (c10_split_unique blankChar _ _).mpr h4

theorem hp_title (t : String) : title t.toList = heading t := by
  unfold title heading
  simp

theorem hp_textSection (name : String) (t : Str) (hv : Visible t) (hl : t.length < 2 ^ 31) :
    ∃ out, textSection name.toList t 100 = .ok out ∧ IsTextSection name t out := by
  obtain ⟨x, body, h1, _, h3⟩ := hp_paragraph t hv hl 0 (by omega)
  refine ⟨title name.toList ++ (x :: body) ++ ['\n'] ++ ['\n'], ?_, x :: body, ?_, h3, by simp⟩
  · unfold textSection; rw [h1]; rfl
  · rw [hp_title]; simp

theorem hp_spelled (o : Opt) : formatName o = spelled o := by
  unfold formatName spelled
  cases o.short <;> simp

theorem hp_optionLines : ∀ os : List Opt, (∀ o ∈ os, Visible o.desc ∧ o.desc.length < 2 ^ 31) →
    ∃ entries, optionLines 100 4 os = .ok entries.flatten ∧ List.Forall₂ IsEntry os entries
  | [], _ => ⟨[], rfl, .nil⟩
  | o :: os, h => by
    obtain ⟨es, h1, h2⟩ := hp_optionLines os fun q hq => h q (List.mem_cons_of_mem _ hq)
    obtain ⟨hv, hl⟩ := h o (by simp)
    obtain ⟨x, body, h3, h4, h5⟩ := hp_paragraph o.desc hv hl 4 (by omega)
    refine ⟨(formatName o ++ ['\n'] ++ (spaces 4 ++ x :: body) ++ ['\n']) :: es, ?_, .cons ?_ h2⟩
    · rw [optionLines, h3, h1]; simp [Outcome.bind]
    · refine ⟨x :: body, ?_, h5, by simp, ?_⟩
      · rw [hp_spelled]; simp [spaces, List.replicate]
      · intro c hc; simp at hc; rw [← hc]; exact h4

theorem hp_optionSection (name : String) (os : List Opt) (h : ∀ o ∈ os, Visible o.desc ∧ o.desc.length < 2 ^ 31) :
    ∃ out, optionSection name.toList os 100 4 = .ok out ∧ IsOptionSection name os out := by
  obtain ⟨es, h1, h2⟩ := hp_optionLines os h
  refine ⟨title name.toList ++ es.flatten ++ ['\n'], ?_, es, h2, ?_⟩
  · unfold optionSection; rw [h1]; rfl
  · rw [hp_title]; simp

/-- C85: for all programs and option tables without blank texts, the help page is printed and has every text
and every option with its description, in order; the non-public options are there exactly if asked for. -/
theorem c85_help_page (p : Program) (pub : List Opt) (priv : Option (List Opt))
    (h : ∀ t ∈ helpTexts p pub priv, Visible t ∧ t.length < 2 ^ 31) :
    ∃ out, helpMessage p pub priv = .ok out ∧ IsHelpPage p pub priv out := by
  have hpub : ∀ o ∈ pub, Visible o.desc ∧ o.desc.length < 2 ^ 31 := fun o ho =>
    h o.desc (by simp only [helpTexts, List.mem_append, List.mem_map]; exact .inr ⟨o, .inl ho, rfl⟩)
  have hpriv : ∀ os, priv = some os → ∀ o ∈ os, Visible o.desc ∧ o.desc.length < 2 ^ 31 := fun os hos o ho =>
    h o.desc (by simp only [helpTexts, List.mem_append, List.mem_map]; exact .inr ⟨o, .inr (by rw [hos]; exact ho), rfl⟩)
  obtain ⟨a, a1, a2⟩ := hp_textSection "NAME" p.name (h _ (by simp [helpTexts])).1 (h _ (by simp [helpTexts])).2
  obtain ⟨b, b1, b2⟩ := hp_textSection "VERSION" p.version (h _ (by simp [helpTexts])).1 (h _ (by simp [helpTexts])).2
  obtain ⟨c, c1, c2⟩ := hp_textSection "DESCRIPTION" p.description (h _ (by simp [helpTexts])).1 (h _ (by simp [helpTexts])).2
  obtain ⟨d, d1, d2⟩ := hp_textSection "USAGE" p.usage (h _ (by simp [helpTexts])).1 (h _ (by simp [helpTexts])).2
  obtain ⟨e, e1, e2⟩ := hp_optionSection "OPTIONS" pub hpub
  cases priv with
  | none =>
    refine ⟨a ++ b ++ c ++ d ++ e, ?_, a, b, c, d, e, [], by simp, a2, b2, c2, d2, e2, rfl⟩
    unfold helpMessage; rw [a1, b1, c1, d1, e1]; rfl
  | some os =>
    obtain ⟨f, f1, f2⟩ := hp_optionSection "NON-PUBLIC OPTIONS" os (hpriv os rfl)
    refine ⟨a ++ b ++ c ++ d ++ e ++ f, ?_, a, b, c, d, e, f, rfl, a2, b2, c2, d2, e2, f2⟩
    unfold helpMessage; rw [a1, b1, c1, d1, e1]; simp only [Outcome.bind]; rw [f1]

/-! ### A blank text is undefined behaviour -/

theorem hp_ok_bind {α β : Type} (x : α) (f : α → Outcome β) : (Outcome.ok x).bind f = f x := rfl

theorem hp_bind_ub {α β : Type} (x : Outcome α) (f : α → Outcome β) :
    (x.bind f).isUb = true ↔ x.isUb = true ∨ ∃ a, x = .ok a ∧ (f a).isUb = true := by
  cases x <;> simp [Outcome.bind, Outcome.isUb]

theorem hp_paragraph_ub (t : Str) (w i : ℕ) : (paragraph t w i).isUb = true ↔ ¬ Visible t := by
  unfold paragraph
  rw [hp_bind_ub, c15_strip_ub_iff, hp_not_visible]
  simp [Outcome.isUb]

/-- Without a blank text there is a result. -/
theorem hp_paragraph_ok (t : Str) (w i : ℕ) (h : Visible t) : ∃ r, paragraph t w i = .ok r := by
  obtain ⟨r, hr, _⟩ := c15_strip_trims t ((hp_visible t).mp h)
  exact ⟨_, by unfold paragraph; rw [hr]; rfl⟩

theorem hp_text_ub (n t : Str) (w : ℕ) : (textSection n t w).isUb = true ↔ ¬ Visible t := by
  unfold textSection
  rw [hp_bind_ub, hp_paragraph_ub]
  simp [Outcome.isUb]

theorem hp_text_ok (n t : Str) (w : ℕ) (h : Visible t) : ∃ r, textSection n t w = .ok r := by
  obtain ⟨r, hr⟩ := hp_paragraph_ok t w 0 h
  exact ⟨_, by unfold textSection; rw [hr]; rfl⟩

theorem hp_lines_ok (w i : ℕ) : ∀ os : List Opt, (∀ o ∈ os, Visible o.desc) → ∃ r, optionLines w i os = .ok r
  | [], _ => ⟨_, rfl⟩
  | o :: os, h => by
    obtain ⟨r, hr⟩ := hp_paragraph_ok o.desc w i (h o (by simp))
    obtain ⟨r', hr'⟩ := hp_lines_ok w i os fun q hq => h q (List.mem_cons_of_mem _ hq)
    exact ⟨_, by rw [optionLines, hr, hr']; rfl⟩

theorem hp_lines_ub (w i : ℕ) : ∀ os : List Opt, (optionLines w i os).isUb = true ↔ ∃ o ∈ os, ¬ Visible o.desc
  | [] => by simp [optionLines, Outcome.isUb]
  | o :: os => by
    rw [optionLines, hp_bind_ub, hp_paragraph_ub]
    by_cases hv : Visible o.desc
    · obtain ⟨r, hr⟩ := hp_paragraph_ok o.desc w i hv
      have ih := hp_lines_ub w i os
      rw [hr]
      simp only [Outcome.ok.injEq, exists_eq_left', hp_bind_ub, ih]
      simp [Outcome.isUb, hv]
    · simp [hv]

theorem hp_section_ub (n : Str) (os : List Opt) (w i : ℕ) :
    (optionSection n os w i).isUb = true ↔ ∃ o ∈ os, ¬ Visible o.desc := by
  unfold optionSection
  rw [hp_bind_ub, hp_lines_ub]
  simp [Outcome.isUb]

theorem hp_section_ok (n : Str) (os : List Opt) (w i : ℕ) (h : ∀ o ∈ os, Visible o.desc) :
    ∃ r, optionSection n os w i = .ok r := by
  obtain ⟨r, hr⟩ := hp_lines_ok w i os h
  exact ⟨_, by unfold optionSection; rw [hr]; rfl⟩

/-- C85 (the only way to fail): printing the help is undefined behaviour exactly if one of the texts is blank.
No exception is thrown. -/
theorem c85_help_undefined (p : Program) (pub : List Opt) (priv : Option (List Opt)) :
    ((helpMessage p pub priv).isUb = true ↔ ∃ t ∈ helpTexts p pub priv, ¬ Visible t) ∧
      ((∀ t ∈ helpTexts p pub priv, Visible t) → ∃ out, helpMessage p pub priv = .ok out) := by
  constructor
  · unfold helpMessage
    by_cases h1 : Visible p.name
    · obtain ⟨a, ha⟩ := hp_text_ok "NAME".toList p.name 100 h1
      by_cases h2 : Visible p.version
      · obtain ⟨b, hb⟩ := hp_text_ok "VERSION".toList p.version 100 h2
        by_cases h3 : Visible p.description
        · obtain ⟨c, hc⟩ := hp_text_ok "DESCRIPTION".toList p.description 100 h3
          by_cases h4 : Visible p.usage
          · obtain ⟨d, hd⟩ := hp_text_ok "USAGE".toList p.usage 100 h4
            rw [ha, hb, hc, hd]
            simp only [hp_ok_bind]
            have hpre : (∃ t ∈ helpTexts p pub priv, ¬ Visible t) ↔
                (∃ o ∈ pub, ¬ Visible o.desc) ∨ ∃ o ∈ priv.getD [], ¬ Visible o.desc := by
              constructor
              · rintro ⟨t, ht, hn⟩
                simp only [helpTexts, List.mem_append, List.mem_cons, List.mem_map, List.not_mem_nil, or_false] at ht
                rcases ht with (rfl | rfl | rfl | rfl) | ⟨o, ho | ho, rfl⟩
                · exact absurd h1 hn
                · exact absurd h2 hn
                · exact absurd h3 hn
                · exact absurd h4 hn
                · exact .inl ⟨o, ho, hn⟩
                · exact .inr ⟨o, ho, hn⟩
              · rintro (⟨o, ho, hn⟩ | ⟨o, ho, hn⟩)
                · exact ⟨o.desc, by simp only [helpTexts, List.mem_append, List.mem_map]; exact .inr ⟨o, .inl ho, rfl⟩, hn⟩
                · exact ⟨o.desc, by simp only [helpTexts, List.mem_append, List.mem_map]; exact .inr ⟨o, .inr ho, rfl⟩, hn⟩
            rw [hpre, hp_bind_ub, hp_section_ub]
            by_cases h5 : ∀ o ∈ pub, Visible o.desc
            · obtain ⟨e, he⟩ := hp_section_ok "OPTIONS".toList pub 100 4 h5
              rw [he]
              have hno : ¬ ∃ o ∈ pub, ¬ Visible o.desc := fun ⟨o, ho, hn⟩ => hn (h5 o ho)
              cases priv with
              | none => simp [Outcome.isUb, hno]
              | some os =>
                simp only [Outcome.ok.injEq, exists_eq_left', hp_bind_ub, hp_section_ub, Option.getD_some, hno, false_or]
                simp [Outcome.isUb]
            · have hyes : ∃ o ∈ pub, ¬ Visible o.desc := by
                by_contra hc
                exact h5 fun o ho => by_contra fun hv => hc ⟨o, ho, hv⟩
              simp only [hyes, true_or]
          · have := (hp_text_ub "USAGE".toList p.usage 100).mpr h4
            rw [ha, hb, hc]; simp only [hp_ok_bind]; rw [hp_bind_ub]
            exact iff_of_true (.inl this) ⟨p.usage, by simp [helpTexts], h4⟩
        · have := (hp_text_ub "DESCRIPTION".toList p.description 100).mpr h3
          rw [ha, hb]; simp only [hp_ok_bind]; rw [hp_bind_ub]
          exact iff_of_true (.inl this) ⟨p.description, by simp [helpTexts], h3⟩
      · have := (hp_text_ub "VERSION".toList p.version 100).mpr h2
        rw [ha]; simp only [hp_ok_bind]; rw [hp_bind_ub]
        exact iff_of_true (.inl this) ⟨p.version, by simp [helpTexts], h2⟩
    · have := (hp_text_ub "NAME".toList p.name 100).mpr h1
      rw [hp_bind_ub]
      exact iff_of_true (.inl this) ⟨p.name, by simp [helpTexts], h1⟩
  · intro h
    obtain ⟨a, ha⟩ := hp_text_ok "NAME".toList p.name 100 (h _ (by simp [helpTexts]))
    obtain ⟨b, hb⟩ := hp_text_ok "VERSION".toList p.version 100 (h _ (by simp [helpTexts]))
    obtain ⟨c, hc⟩ := hp_text_ok "DESCRIPTION".toList p.description 100 (h _ (by simp [helpTexts]))
    obtain ⟨d, hd⟩ := hp_text_ok "USAGE".toList p.usage 100 (h _ (by simp [helpTexts]))
    obtain ⟨e, he⟩ := hp_section_ok "OPTIONS".toList pub 100 4 fun o ho =>
      h o.desc (by simp only [helpTexts, List.mem_append, List.mem_map]; exact .inr ⟨o, .inl ho, rfl⟩)
    unfold helpMessage
    rw [ha, hb, hc, hd, he]
    cases priv with
    | none => exact ⟨_, rfl⟩
    | some os =>
      obtain ⟨f, hf⟩ := hp_section_ok "NON-PUBLIC OPTIONS".toList os 100 4 fun o ho =>
        h o.desc (by simp only [helpTexts, List.mem_append, List.mem_map]; exact .inr ⟨o, .inr ho, rfl⟩)
      exact ⟨_, by simp only [Outcome.bind]; rw [hf]⟩

/-! ### The options of the program -/

theorem hp_orders (s : SerializersOrder) : s.order = [.txt, .txtExtended] ∨ s.order = [.txtExtended, .txt] := by
  have h := s.perm
  have hl := h.length_eq
  generalize s.order = l at h hl
  match l, hl with
  | [a, b], _ =>
    have hnd : [a, b].Nodup := h.nodup_iff.mpr (by decide)
    have ha : a ∈ [Format.txt, .txtExtended] := h.mem_iff.mp (by simp)
    have hb : b ∈ [Format.txt, .txtExtended] := h.mem_iff.mp (by simp)
    revert hnd ha hb
    cases a <;> cases b <;> decide

/-- Both orders in which the serializers may be listed. -/
theorem hp_both (P : SerializersOrder → Prop) (h1 : P ⟨[.txt, .txtExtended], .refl _⟩)
    (h2 : P ⟨[.txtExtended, .txt], .swap _ _ _⟩) (s : SerializersOrder) : P s := by
  obtain ⟨l, hl⟩ := s
  rcases hp_orders ⟨l, hl⟩ with h | h
  · cases h; exact h1
  · cases h; exact h2

/-- All options of the program. -/
def hpAll (s : SerializersOrder) : List Opt := publicOpts s ++ privateOpts

theorem hp_visible_of (t : Str) (h : (t.any fun c => !blankChar c) = true) : Visible t := by
  obtain ⟨c, hc, hv⟩ := List.any_eq_true.mp h
  exact ⟨c, hc, by simpa using hv⟩

theorem hp_table (s : SerializersOrder) :
    ((hpAll s).all fun o => (o.desc.any fun c => !blankChar c) && decide (o.desc.length < 2 ^ 31)) = true := by
  revert s
  apply hp_both
  · decide +kernel
  · decide +kernel

/-- C85 (the real options): whatever the texts of the program are, as long as they are not blank, `--help` prints
the page with the public options and `--full-help` the page with all of them. -/
theorem c85_messages (p : Program) (s : SerializersOrder)
    (hp : ∀ t ∈ [p.name, p.version, p.description, p.usage], Visible t ∧ t.length < 2 ^ 31) :
    (∃ out, messageOf p s .help = some (.ok out) ∧ IsHelpPage p (publicOpts s) none out) ∧
      (∃ out, messageOf p s .fullHelp = some (.ok out) ∧ IsHelpPage p (publicOpts s) (some privateOpts) out) ∧
      messageOf p s .version = some (.ok (p.name ++ ", version ".toList ++ p.version ++ "\n".toList)) := by
  have ht : ∀ o ∈ hpAll s, Visible o.desc ∧ o.desc.length < 2 ^ 31 := by
    intro o ho
    have := List.all_eq_true.mp (hp_table s) o ho
    rw [Bool.and_eq_true] at this
    exact ⟨hp_visible_of _ this.1, of_decide_eq_true this.2⟩
  refine ⟨?_, ?_, ?_⟩
  · obtain ⟨out, h1, h2⟩ := c85_help_page p (publicOpts s) none (by
      intro t htm
      rcases List.mem_append.mp htm with h | h
      · exact hp t h
      · obtain ⟨o, ho, rfl⟩ := List.mem_map.mp h
        exact ht o (List.mem_append.mpr (.inl (by simpa using ho))))
    exact ⟨out, by show some (helpMessage p (publicOpts s)) = _; rw [h1], h2⟩
  · obtain ⟨out, h1, h2⟩ := c85_help_page p (publicOpts s) (some privateOpts) (by
      intro t htm
      rcases List.mem_append.mp htm with h | h
      · exact hp t h
      · obtain ⟨o, ho, rfl⟩ := List.mem_map.mp h
        exact ht o ho)
    exact ⟨out, by show some (helpMessage p (publicOpts s) (some privateOpts)) = _; rw [h1], h2⟩
  · rfl

/-- The names of the switches of the program. -/
def hpSwitches : List Str :=
  ((publicOpts ⟨[.txt, .txtExtended], .refl _⟩ ++ privateOpts).filter (fun o => o.kind = .switch)).map (·.long)

theorem hp_switches (s : SerializersOrder) :
    ((publicOpts s ++ privateOpts).filter (fun o => o.kind = .switch)).map (·.long) = hpSwitches := by
  revert s
  apply hp_both
  · rfl
  · decide +kernel

theorem hp_flag (s : SerializersOrder) (g : Given) (f : String → Bool)
    (hf : ∀ n : String, n.toList ∈ (publicOpts s ++ privateOpts).map (·.long) → f n = g.flag n) (n : String)
    (hn : n.toList ∈ hpSwitches) : f n = g.flag n := by
  apply hf
  rw [← hp_switches s] at hn
  obtain ⟨o, ho, h⟩ := List.mem_map.mp hn
  exact List.mem_map.mpr ⟨o, (List.mem_filter.mp ho).1, h⟩

theorem hp_flags (s : SerializersOrder) (g : Given) (f : String → Bool)
    (hf : ∀ n : String, n.toList ∈ (publicOpts s ++ privateOpts).map (·.long) → f n = g.flag n) :
    parseArgs s g = parseArgs s { g with flag := f } := by
  have hfl := hp_flag s g f hf
  have hskip : (fun st => f (skipOption st)) = fun st => g.flag (skipOption st) := by
    funext st
    apply hfl
    cases st <;> decide +kernel
  have hdebug : (fun st => f (debugOption st)) = fun st => g.flag (debugOption st) := by
    funext st
    apply hfl
    cases st <;> decide +kernel
  have hvis : visualizeOptions.filter f = visualizeOptions.filter g.flag := by
    apply List.filter_congr
    intro n hn
    apply hfl
    have : ∀ m ∈ visualizeOptions, m.toList ∈ hpSwitches := by decide +kernel
    exact this n hn
  unfold parseArgs
  simp only [hskip, hdebug, hvis, hfl "control-characters" (by decide +kernel), hfl "semantic-roles" (by decide +kernel),
    hfl "no-scripts" (by decide +kernel), hfl "no-dehyphenation" (by decide +kernel),
    hfl "skip-embedded-font-files-parsing" (by decide +kernel), hfl "skip-semantic-roles-prediction" (by decide +kernel),
    hfl "debug-pdf-parsing" (by decide +kernel), hfl "debug-semantic-roles-prediction" (by decide +kernel),
    hfl "print-running-times" (by decide +kernel), hfl "version" (by decide +kernel), hfl "help" (by decide +kernel),
    hfl "full-help" (by decide +kernel)]

/-- C85 (nothing is hidden): a switch that is not in the tables has no effect, for all command lines; no two
options have the same name; and the options with a value are those listed here. -/
theorem c85_complete (s : SerializersOrder) :
    (∀ g g', AgreeOn ((publicOpts s ++ privateOpts).map (·.long)) g g' →
      parseArgs s g = parseArgs s g' ∧
        ∀ os engine clock seen, main os engine clock s seen g = main os engine clock s seen g') ∧
    ((publicOpts s ++ privateOpts).map (·.long)).Nodup ∧
    ((publicOpts s ++ privateOpts).filter (fun o => o.kind = .value)).map (·.long) =
      ["format".toList, "role".toList, "type".toList, "visualization-path".toList, "verbosity".toList,
       "pdf-file".toList, "output-file".toList, "log-page-filter".toList] := by
  refine ⟨?_, ?_, ?_⟩
  · rintro g g' ⟨f, rfl, hf⟩
    have hp := hp_flags s g f hf
    refine ⟨hp, ?_⟩
    intro os engine clock seen
    have hst : storeOk s { g with flag := f } = storeOk s g :=
      congrArg (fun x : Outcome Args => x.isOk && decide (g.pdfFile.length ≤ 1))
        (hp_flags s { g with pdfFile := [['x']] } f hf).symm
    have hfl := hp_flag s g f hf
    unfold main
    rw [hp, hst]
    show _ = (match parseArgs s { g with flag := f } with
      | .ok a => mainAfterParsing os engine clock a
      | _ => let seen := if storeOk s g then (f "full-help", f "help", f "version") else seen
        if seen.1 then ⟨[.fullHelp], some 0⟩
        else if seen.2.1 then ⟨[.help], some 0⟩
        else if seen.2.2 then ⟨[.version], some 0⟩
        else ⟨[.usageError], some 1⟩)
    rw [hfl "full-help" (by decide +kernel), hfl "help" (by decide +kernel), hfl "version" (by decide +kernel)]
    rfl
  · revert s
    apply hp_both
    · decide +kernel
    · decide +kernel
  · revert s
    apply hp_both
    · decide +kernel
    · decide +kernel

theorem hp_bind_eq {α β : Type} {x : Outcome α} {f : α → Outcome β} {b : β} (h : x.bind f = .ok b) :
    ∃ a, x = .ok a ∧ f a = .ok b := by
  cases x with
  | ok a => exact ⟨a, rfl, h⟩
  | throw m => cases h
  | ub m => cases h

/-- All stages. -/
def hpStages : List Stage :=
  [.glyphStatistics, .diacritics, .words, .wordStatistics, .segmentation, .lines, .scripts, .lineStatistics, .blocks,
   .readingOrder, .dehyphenation]

/-- C85 (nothing is idle): each switch of the help is read by the program: giving it or not changes the
settings of the run, for all command lines. -/
theorem c85_switches_read (s : SerializersOrder) (o : Opt) (ho : o ∈ publicOpts s ++ privateOpts)
    (hk : o.kind = .switch) (g : Given) (a : Args) (h : parseArgs s g = .ok a) :
    parseArgs s { g with flag := fun n => if n.toList = o.long then !g.flag n else g.flag n } ≠ .ok a := by
  have hm : o.long ∈ hpSwitches := by
    rw [← hp_switches s]
    exact List.mem_map.mpr ⟨o, List.mem_filter.mpr ⟨ho, by simpa using hk⟩, rfl⟩
  generalize o.long = name at hm
  clear ho hk o
  intro h2
  have hargs : ∀ g a, parseArgs s g = .ok a →
      a.controlCharacters = g.flag "control-characters" ∧ a.semanticRoles = g.flag "semantic-roles" ∧
      a.noScripts = g.flag "no-scripts" ∧ a.noDehyphenation = g.flag "no-dehyphenation" ∧
      a.visualize = visualizeOptions.filter g.flag ∧ a.skipFontFiles = g.flag "skip-embedded-font-files-parsing" ∧
      (∀ st, a.skip st = g.flag (skipOption st)) ∧ a.skipRoles = g.flag "skip-semantic-roles-prediction" ∧
      a.debugParsing = g.flag "debug-pdf-parsing" ∧ (∀ st, a.debug st = g.flag (debugOption st)) ∧
      a.debugRoles = g.flag "debug-semantic-roles-prediction" ∧
      a.printRunningTimes = g.flag "print-running-times" ∧ a.printVersion = g.flag "version" ∧
      a.printHelp = g.flag "help" ∧ a.printFullHelp = g.flag "full-help" := by
    intro g a h
    unfold parseArgs at h
    obtain ⟨_, _, h⟩ := hp_bind_eq h
    obtain ⟨_, _, h⟩ := hp_bind_eq h
    obtain ⟨_, _, h⟩ := hp_bind_eq h
    obtain ⟨_, _, h⟩ := hp_bind_eq h
    obtain ⟨_, _, h⟩ := hp_bind_eq h
    obtain ⟨_, _, h⟩ := hp_bind_eq h
    obtain ⟨_, _, h⟩ := hp_bind_eq h
    split at h
    · cases h
      exact ⟨rfl, rfl, rfl, rfl, rfl, rfl, fun _ => rfl, rfl, rfl, fun _ => rfl, rfl, rfl, rfl, rfl, rfl⟩
    · cases h
    · cases h
  obtain ⟨a1, a2, a3, a4, a5, a6, a7, a8, a9, a10, a11, a12, a13, a14, a15⟩ := hargs g a h
  obtain ⟨b1, b2, b3, b4, b5, b6, b7, b8, b9, b10, b11, b12, b13, b14, b15⟩ := hargs _ a h2
  have key : ∀ n : String, n.toList = name → (g.flag n = if n.toList = name then !g.flag n else g.flag n) → False := by
    intro n hn h
    rw [if_pos hn] at h
    cases hg : g.flag n <;> rw [hg] at h <;> cases h
  have hall : ∀ nm ∈ hpSwitches, (∃ st, (skipOption st).toList = nm) ∨ (∃ st, (debugOption st).toList = nm) ∨
      (∃ v ∈ visualizeOptions, v.toList = nm) ∨
      nm ∈ ["control-characters".toList, "semantic-roles".toList, "no-scripts".toList, "no-dehyphenation".toList,
        "skip-embedded-font-files-parsing".toList, "skip-semantic-roles-prediction".toList, "debug-pdf-parsing".toList,
        "debug-semantic-roles-prediction".toList, "print-running-times".toList, "version".toList, "help".toList,
        "full-help".toList] := by
    have hs : ∀ nm ∈ hpSwitches, nm ∈ hpStages.map (fun st => (skipOption st).toList) ∨
        nm ∈ hpStages.map (fun st => (debugOption st).toList) ∨ nm ∈ visualizeOptions.map (·.toList) ∨
        nm ∈ ["control-characters".toList, "semantic-roles".toList, "no-scripts".toList, "no-dehyphenation".toList,
          "skip-embedded-font-files-parsing".toList, "skip-semantic-roles-prediction".toList, "debug-pdf-parsing".toList,
          "debug-semantic-roles-prediction".toList, "print-running-times".toList, "version".toList, "help".toList,
          "full-help".toList] := by decide +kernel
    intro nm hnm
    rcases hs nm hnm with h | h | h | h
    · obtain ⟨st, _, h⟩ := List.mem_map.mp h; exact .inl ⟨st, h⟩
    · obtain ⟨st, _, h⟩ := List.mem_map.mp h; exact .inr (.inl ⟨st, h⟩)
    · obtain ⟨v, hv, h⟩ := List.mem_map.mp h; exact .inr (.inr (.inl ⟨v, hv, h⟩))
    · exact .inr (.inr (.inr h))
  rcases hall name hm with ⟨st, h⟩ | ⟨st, h⟩ | ⟨v, hv, h⟩ | h
  · exact key _ h ((a7 st).symm.trans (b7 st))
  · exact key _ h ((a10 st).symm.trans (b10 st))
  · have e := a5.symm.trans b5
    have hiff : g.flag v = (if v.toList = name then !g.flag v else g.flag v) := by
      have m1 : v ∈ visualizeOptions.filter g.flag ↔ g.flag v = true := by simp [List.mem_filter, hv]
      have m2 : v ∈ visualizeOptions.filter (fun n => if n.toList = name then !g.flag n else g.flag n) ↔
          (if v.toList = name then !g.flag v else g.flag v) = true := by
        rw [List.mem_filter]; simp only [hv, true_and]
      rw [← e] at m2
      exact Bool.eq_iff_iff.mpr (m1.symm.trans m2)
    exact key v h hiff
  · simp only [List.mem_cons, List.not_mem_nil, or_false] at h
    rcases h with h | h | h | h | h | h | h | h | h | h | h | h
    · exact key _ h.symm (a1.symm.trans b1)
    · exact key _ h.symm (a2.symm.trans b2)
    · exact key _ h.symm (a3.symm.trans b3)
    · exact key _ h.symm (a4.symm.trans b4)
    · exact key _ h.symm (a6.symm.trans b6)
    · exact key _ h.symm (a8.symm.trans b8)
    · exact key _ h.symm (a9.symm.trans b9)
    · exact key _ h.symm (a11.symm.trans b11)
    · exact key _ h.symm (a12.symm.trans b12)
    · exact key _ h.symm (a13.symm.trans b13)
    · exact key _ h.symm (a14.symm.trans b14)
    · exact key _ h.symm (a15.symm.trans b15)

/-- C85 (the choices): the descriptions of `--format`, `--role` and `--type` list exactly the values the
program accepts. -/
theorem c85_choices (s : SerializersOrder) :
    ∃ formats roles types : List Str,
      formatChoices s = List.intercalate ", ".toList formats ∧
      roleChoices = List.intercalate ", ".toList roles ∧
      typeChoices = List.intercalate ", ".toList types ∧
      (∀ t, (∃ f, validateFormat s t = .ok f) ↔ t ∈ formats) ∧
      (∀ t, (∃ r, validateRole t = .ok r) ↔ t ∈ roles) ∧
      (∀ t, (∃ u, validateType t = .ok u) ↔ t ∈ types) := by
  refine ⟨s.order.map getFormatName, roleNames, typeNames, ?_, by decide +kernel, by decide +kernel, ?_, ?_, ?_⟩
  · revert s
    apply hp_both
    · decide +kernel
    · decide +kernel
  · intro t
    unfold validateFormat
    cases hf : s.order.find? fun f => decide (t = getFormatName f) with
    | none =>
      have := List.find?_eq_none.mp hf
      constructor
      · rintro ⟨f, h⟩; cases h
      · intro h
        obtain ⟨f, hfm, rfl⟩ := List.mem_map.mp h
        exact absurd (decide_eq_true rfl) (this f hfm)
    | some f =>
      have h1 := List.mem_of_find?_eq_some hf
      have h2 := of_decide_eq_true (List.find?_some (p := fun f => decide (t = getFormatName f)) hf)
      exact ⟨fun _ => List.mem_map.mpr ⟨f, h1, h2.symm⟩, fun _ => ⟨f, rfl⟩⟩
  · intro t
    unfold validateRole
    cases hf : findName t 0 roleNames with
    | none => exact ⟨fun ⟨_, h⟩ => (by cases h), fun h => absurd h (findName_none.mp hf)⟩
    | some i =>
      refine ⟨fun _ => ?_, fun _ => ⟨_, rfl⟩⟩
      by_contra hc
      rw [findName_none.mpr hc] at hf; cases hf
  · intro t
    unfold validateType
    cases hf : findName t 0 typeNames with
    | none => exact ⟨fun ⟨_, h⟩ => (by cases h), fun h => absurd h (findName_none.mp hf)⟩
    | some i =>
      refine ⟨fun _ => ?_, fun _ => ⟨_, rfl⟩⟩
      by_contra hc
      rw [findName_none.mpr hc] at hf; cases hf

/-- The lines of a text. -/
def hpLines : Str → List Str
  | [] => [[]]
  | c :: cs => if c = '\n' then [] :: hpLines cs else
      match hpLines cs with
      | [] => [[c]]
      | l :: ls => (c :: l) :: ls

/-- The length of the longest line. -/
def hpWidest (t : Outcome Str) : ℕ :=
  match t with
  | .ok t => ((hpLines t).map List.length).foldl max 0
  | _ => 0

/-- C85 (refuted part, finding): the help is meant to be at most 100 characters wide, but the description of
`--no-scripts` is printed on a line of 102 characters; no line about an option is wider than that. -/
theorem c85_width_refuted (s : SerializersOrder) :
    hpWidest (optionSection "OPTIONS".toList (publicOpts s) 100 4) = 102 ∧
      hpWidest (optionSection "NON-PUBLIC OPTIONS".toList privateOpts 100 4) = 99 := by
  refine ⟨?_, by decide +kernel⟩
  revert s
  apply hp_both
  · decide +kernel
  · decide +kernel

/-- A program with the texts of the project (abbreviated) and one option each. -/
example :
    let p : Program := ⟨"pdftotext++".toList, "0.0.3".toList, "extracts text".toList, " usage: [option] <pdf>\n".toList⟩
    let o : Opt := { long := "help".toList, short := "h".toList, kind := .switch, desc := " Print the\nhelp. ".toList }
    helpMessage p [o] = .ok ("\x1b[1;34mNAME\x1b[0m\npdftotext++\n\n\x1b[1;34mVERSION\x1b[0m\n0.0.3\n\n" ++
      "\x1b[1;34mDESCRIPTION\x1b[0m\nextracts text\n\n\x1b[1;34mUSAGE\x1b[0m\nusage: [option] <pdf>\n\n" ++
      "\x1b[1;34mOPTIONS\x1b[0m\n-h [ --help ]\n    Print the\n    help.\n\n").toList := by
  decide +kernel

/-- Premises of C85: such a program meets the hypotheses of `c85_help_page`. -/
theorem hp_premises :
    let p : Program := ⟨"pdftotext++".toList, "0.0.3".toList, "extracts text".toList, " usage: [option] <pdf>\n".toList⟩
    let o : Opt := { long := "help".toList, short := "h".toList, kind := .switch, desc := " Print the\nhelp. ".toList }
    (∀ t ∈ helpTexts p [o] (some privateOpts), Visible t ∧ t.length < 2 ^ 31) ∧
      (∀ t ∈ [p.name, p.version, p.description, p.usage], Visible t ∧ t.length < 2 ^ 31) := by
  intro p o
  have h : (helpTexts p [o] (some privateOpts)).all
      (fun t => (t.any fun c => !blankChar c) && decide (t.length < 2 ^ 31)) = true := by decide +kernel
  have h' : ∀ t ∈ helpTexts p [o] (some privateOpts), Visible t ∧ t.length < 2 ^ 31 := by
    intro t ht
    have := List.all_eq_true.mp h t ht
    rw [Bool.and_eq_true] at this
    exact ⟨hp_visible_of _ this.1, of_decide_eq_true this.2⟩
  exact ⟨h', fun t ht => h' t (List.mem_append.mpr (.inl ht))⟩

/-- Premises of C85: two command lines that differ in a switch the program does not know, and one that is accepted. -/
example : AgreeOn ((publicOpts ⟨[.txt, .txtExtended], .refl _⟩ ++ privateOpts).map (·.long))
    { pdfFile := ["a.pdf".toList] } { pdfFile := ["a.pdf".toList], flag := fun n => n == "output-words" } ∧
    (parseArgs ⟨[.txt, .txtExtended], .refl _⟩ { pdfFile := ["a.pdf".toList] }).isOk = true := by
  refine ⟨⟨fun n => n == "output-words", rfl, ?_⟩, by decide +kernel⟩
  intro n hn
  show (n == "output-words") = false
  rw [beq_eq_false_iff_ne]
  rintro rfl
  revert hn
  decide +kernel

end Verif.Props

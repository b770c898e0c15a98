import Verif.Props.ItemLabel
import Verif.Props.LineContent

/-!
# C73: item labels of lines and of a finished document
-/

namespace Verif.Props

open Verif.Elements Verif.Spec Verif.Words Verif.TextLines Verif.Pipeline
open Verif.Spec.Labels

/-! ## Labels contain no white space -/

theorem il_lower_noBlank {w r : List Char} (hr : ∀ c ∈ r, ¬ Blank c) (h : lowerCase w = r) : ∀ c ∈ w, ¬ Blank c := by
  intro c hc hb
  refine hr c ?_ hb
  rw [← h]
  refine List.mem_map.mpr ⟨c, hc, ?_⟩
  rw [if_neg]
  intro ⟨h1, h2⟩
  simp only [Blank, List.mem_cons, List.not_mem_nil, or_false] at hb
  rcases hb with rfl | rfl | rfl | rfl | rfl | rfl <;> exact absurd h1 (by decide)

theorem il_roman_noBlank : ∀ r ∈ romanNumerals, ∀ c ∈ r, ¬ Blank c := by decide +kernel

theorem il_alnum_noBlank {c : Char} (h : IsLower c ∨ IsUpper c ∨ IsDigit c) : ¬ Blank c := by
  intro hb
  simp only [Blank, List.mem_cons, List.not_mem_nil, or_false] at hb
  rcases hb with rfl | rfl | rfl | rfl | rfl | rfl <;> rcases h with h | h | h <;> exact absurd h.1 (by decide)

theorem il_noBlank {l : List Char} (h : Labels.ItemLabel l) : ∀ c ∈ l, ¬ Blank c := by
  intro c hc
  cases h with
  | bullet h =>
    have : ∀ w ∈ bullets, ∀ c ∈ w, ¬ Blank c := by decide +kernel
    exact this _ h c hc
  | @romanDot w r h1 h2 =>
    rcases List.mem_append.mp hc with hc | hc
    · exact il_lower_noBlank (il_roman_noBlank r h1) h2 c hc
    · rw [List.mem_singleton] at hc; subst hc; decide
  | @roman w r h1 h2 =>
    rw [List.cons_append, List.mem_cons, List.mem_append] at hc
    rcases hc with rfl | hc | hc
    · decide
    · exact il_lower_noBlank (il_roman_noBlank r h1) h2 c hc
    · rw [List.mem_singleton] at hc; subst hc; decide
  | letterDot h =>
    rw [List.mem_cons, List.mem_singleton] at hc
    rcases hc with rfl | rfl
    · exact il_alnum_noBlank (.inl h)
    · decide
  | numberDot h1 h2 =>
    rcases List.mem_append.mp hc with hc | hc
    · exact il_alnum_noBlank (.inr (.inr (h2 c hc)))
    · rw [List.mem_singleton] at hc; subst hc; decide
  | @bracket o a ds x ho h1 h2 h3 hx =>
    rw [List.cons_append, List.cons_append, List.mem_cons, List.mem_cons, List.mem_append, List.mem_singleton] at hc
    rcases hc with rfl | rfl | hc | rfl
    · simp only [List.mem_cons, List.not_mem_nil, or_false] at ho
      rcases ho with rfl | rfl <;> decide
    · exact il_alnum_noBlank h1
    · exact il_alnum_noBlank (.inr (.inr (h3 c hc)))
    · simp only [List.mem_cons, List.not_mem_nil, or_false] at hx
      rcases hx with rfl | rfl <;> decide
  | @citation a cs h1 h2 h3 =>
    rw [List.cons_append, List.cons_append, List.mem_cons, List.mem_cons, List.mem_append, List.mem_singleton] at hc
    rcases hc with rfl | rfl | hc | rfl
    · decide
    · exact il_alnum_noBlank (.inr (.inl h1))
    · exact il_alnum_noBlank (h3 c hc)
    · decide
  | @paren a ds h1 h2 h3 =>
    rw [List.cons_append, List.mem_cons, List.mem_append, List.mem_singleton] at hc
    rcases hc with rfl | hc | rfl
    · exact il_alnum_noBlank h1
    · exact il_alnum_noBlank (.inr (.inr (h3 c hc)))
    · decide
  | pacs h => exact il_lower_noBlank (by decide +kernel) h c hc
  | noNumeral h =>
    have : ∀ w ∈ ([['.'], ['(', ')']] : List (List Char)), ∀ c ∈ w, ¬ Blank c := by decide
    exact this _ h c hc

theorem il_cut {u v : List Char} (hu : ∀ c ∈ u, ¬ Blank c) (hv : ∀ c ∈ v, ¬ Blank c) {a b : Char} (ha : Blank a) (hb : Blank b)
    {s t : List Char} (h : u ++ a :: s = v ++ b :: t) : u = v := by
  induction u generalizing v with
  | nil =>
    cases v with
    | nil => rfl
    | cons c v =>
      simp only [List.nil_append, List.cons_append, List.cons.injEq] at h
      exact absurd (h.1 ▸ ha) (hv c (by simp))
  | cons c u ih =>
    cases v with
    | nil =>
      simp only [List.nil_append, List.cons_append, List.cons.injEq] at h
      exact absurd (h.1 ▸ hb) (hu c (by simp))
    | cons d v =>
      simp only [List.cons_append, List.cons.injEq] at h
      rw [h.1, ih (fun c hc => hu c (by simp [hc])) (fun c hc => hv c (by simp [hc])) h.2]

/-- **C73 (words).** A text made of words, joined by single spaces, starts with an item label for the program iff its first word is an item label and there is a second word. -/
theorem c73_words (w : Text.Str) (ws : List Text.Str) (hw : ∀ c ∈ w, ¬ Blank c) :
    ItemLabel.matchesItemRegex ([' '].intercalate (w :: ws)) = true ↔ Labels.ItemLabel w ∧ ws ≠ [] := by
  rw [c73_labels]
  cases ws with
  | nil =>
    simp only [List.intercalate_singleton, ne_eq, not_true_eq_false, and_false, iff_false]
    rintro ⟨l, c, rest, _, hc, rfl⟩
    exact hw c (by simp) hc
  | cons v vs =>
    have e : [' '].intercalate (w :: v :: vs) = w ++ ' ' :: [' '].intercalate (v :: vs) := by simp [List.intercalate, List.intersperse]
    rw [e]
    constructor
    · rintro ⟨l, c, rest, hl, hc, h⟩
      rw [il_cut hw (il_noBlank hl) (by decide) hc h]
      exact ⟨hl, by simp⟩
    · rintro ⟨h, _⟩
      exact ⟨w, ' ', _, h, by decide, rfl⟩

/-- **C73 (superscripts).** The single-byte characters that are item labels when they are superscripted: star, brackets, lower case letters and digits; and the star operator `∗` (three bytes). -/
theorem c73_superscripts : (∀ c : Char, c.toNat < 128 → ([c] <:+: TextBlocks.superItemLabelAlphabet ↔ c ∈ ['*', '(', ')'] ∨ IsLower c ∨ IsDigit c)) ∧
    [0xE2, 0x88, 0x97].map Char.ofNat <:+: TextBlocks.superItemLabelAlphabet := by
  constructor
  · have h : ∀ n < 128, [Char.ofNat n] <:+: TextBlocks.superItemLabelAlphabet ↔
        Char.ofNat n ∈ ['*', '(', ')'] ∨ IsLower (Char.ofNat n) ∨ IsDigit (Char.ofNat n) := by
      have : ∀ n < 128, decide ([Char.ofNat n] <:+: TextBlocks.superItemLabelAlphabet) =
        (decide (Char.ofNat n ∈ ['*', '(', ')']) || (decide ('a' ≤ Char.ofNat n) && decide (Char.ofNat n ≤ 'z')) ||
          (decide ('0' ≤ Char.ofNat n) && decide (Char.ofNat n ≤ '9'))) := by decide +kernel
      intro n hn
      have := this n hn
      rw [Bool.eq_iff_iff] at this
      unfold IsLower IsDigit
      simpa only [decide_eq_true_eq, Bool.or_eq_true, Bool.and_eq_true, or_assoc] using this
    intro c hc
    have := h c.toNat hc
    rwa [Char.ofNat_toNat] at this
  · decide +kernel

/-- **C73 (finished document).** In the document the program makes, block detection treats a line as the beginning of an item iff its first character is a superscript out of the alphabet
or its first word is an item label that is followed by another word. (A line has a first character; its first word contains no white space.) -/
theorem c73_document {lib : Pipeline.Lib} {n : ℕ} {cfg : Cli.Config} {d0 d' : Document} (h : FullRun lib n cfg d0 d') :
    ∃ V S S' bss, SeesDocument d' V S ∧
      TextBlocks.process lib.lines.hash V S (d'.pages.map fun p => p.segments.map (·.lines)) = .ok (S', bss) ∧
      List.Forall₂ (fun (p : Page) bs => (p.blocks.map (·.block)).Perm bs) d'.pages bss ∧
      ∀ (i : ℕ) (l : TextLine) (w : Word) (c : Glyph) (ws : List Word) (cs : List Glyph),
        d'.lines[i]? = some l → l.line.words = w :: ws → w.chars = c :: cs → (∀ x ∈ w.text, ¬ Blank x) →
        (TextBlocks.computeIsPrefixedByItemLabel V i = true ↔
          (c.isSuperscript = true ∧ TextBlocks.beforeZero c.text <:+: TextBlocks.superItemLabelAlphabet) ∨ (Labels.ItemLabel w.text ∧ ws ≠ [])) := by
  obtain ⟨V, S, S', bss, h1, h2, h3, h4, _⟩ := c69_blocks h
  refine ⟨V, S, S', bss, h1, h3, h4, ?_⟩
  intro i l w c ws cs hl hws hcs hb
  have hline := (h1.line i l hl).1
  have ht := (c69_line_content h l (List.mem_of_getElem? hl)).text
  have hm := c73_words w.text (ws.map (·.text)) hb
  rw [hws, List.map_cons] at ht
  rw [← ht] at hm
  rw [hasItemLabel_iff]
  unfold HasItemLabel
  rw [hline, hws, h2, hm]
  constructor
  · rintro ⟨w', c', e1, e2, h⟩
    simp only [List.head?_cons, Option.some.injEq] at e1
    subst e1
    rw [hcs] at e2
    simp only [List.head?_cons, Option.some.injEq] at e2
    subst e2
    rcases h with h | h
    · exact .inl h
    · exact .inr ⟨h.1, by simpa using h.2⟩
  · intro h
    refine ⟨w, c, rfl, by rw [hcs]; rfl, ?_⟩
    rcases h with h | h
    · exact .inl h
    · exact .inr ⟨h.1, by simpa using h.2⟩

/-! ## Findings and examples -/

/-- **C73, refuted part.** The comment of the program promises `[Enn2020]` as an item label; it is none, because at most five characters may follow the first letter. -/
theorem c73_long_citation_refuted (rest : List Text.Str) : ¬ Labels.ItemLabel "[Enn2020]".toList ∧
    ItemLabel.matchesItemRegex ([' '].intercalate ("[Enn2020]".toList :: rest)) = false := by
  have h0 : ¬ Labels.ItemLabel "[Enn2020]".toList := by
    intro h
    have := (c73_words "[Enn2020]".toList [['x']] (by decide +kernel)).mpr ⟨h, by simp⟩
    exact absurd this (by decide +kernel)
  refine ⟨h0, ?_⟩
  rw [Bool.eq_false_iff]
  intro h
  exact h0 ((c73_words _ rest (by decide +kernel)).mp h).1

/-- **C73, refuted part.** A dot, empty brackets and brackets that do not fit together are item labels as well. -/
theorem c73_odd_labels_refuted : Labels.ItemLabel ".".toList ∧ Labels.ItemLabel "()".toList ∧ Labels.ItemLabel "(1]".toList :=
  ⟨.noNumeral (by decide), .noNumeral (by decide), .bracket (o := '(') (c := '1') (ds := []) (x := ']') (by decide) (.inr (.inr (by unfold IsDigit; decide))) (by decide) (by simp) (by decide)⟩

example : ItemLabel.matchesItemRegex "(xiv) On prime numbers".toList = true ∧ ItemLabel.matchesItemRegex "2023. x".toList = true ∧
    ItemLabel.matchesItemRegex "[Bu2] Burton".toList = true ∧ ItemLabel.matchesItemRegex "xx. On prime numbers".toList = false ∧
    ItemLabel.matchesItemRegex "1.".toList = false ∧ ItemLabel.matchesItemRegex "see 1. x".toList = false := by decide +kernel

example : Labels.ItemLabel "Xiv.".toList := .romanDot (w := "Xiv".toList) (r := "xiv".toList) (by decide +kernel) (by decide +kernel)
example : ∀ c ∈ "(xiv)".toList, ¬ Blank c := by decide +kernel

/-- The lines of `wiDoc` meet the assumptions of `c73_document`. -/
example : wiResult.map (fun d => d.lines.map fun l => match l.line.words with
    | [] => false
    | w :: _ => decide (w.chars ≠ []) && decide (∀ x ∈ w.text, ¬ Blank x)) = some [true, true, true, true, true] := by decide +kernel

end Verif.Props

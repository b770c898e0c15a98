import Verif.Spec.Utf8
import Verif.Props.Links
import Verif.Props.Program

/-!
# C89: the output is valid UTF-8
-/

namespace Verif.Props

open Verif.Math Verif.Elements Verif.Spec Verif.Words Verif.TextLines Verif.Pipeline Verif.Serialize
open Verif.ReadingOrder (RElem Role)
open Verif.Cli (Stage StageConfig Env Config)
open Verif.Text (Str escapeJson escapeChar)

/-! ## Encoded texts -/

theorem u8_iff (s : Str) : IsUtf8 s ↔ ∃ t : Str, s = Verif.EndToEnd.utf8 t := by
  constructor
  · rintro ⟨t, h⟩
    refine ⟨t, ?_⟩
    rw [← c75_utf8] at h
    exact List.map_injective_iff.mpr (fun a b h => Char.ext (UInt32.toNat_inj.mp h)) h
  · rintro ⟨t, rfl⟩
    exact ⟨t, c75_utf8 t⟩

theorem u8_nil : IsUtf8 [] := ⟨[], rfl⟩

theorem u8_append {a b : Str} (ha : IsUtf8 a) (hb : IsUtf8 b) : IsUtf8 (a ++ b) := by
  obtain ⟨s, ha⟩ := ha
  obtain ⟨t, hb⟩ := hb
  refine ⟨s ++ t, ?_⟩
  rw [List.map_append, ha, hb]
  unfold Spec.EndToEnd.bytes
  rw [List.flatMap_append]

theorem u8_flatMap {α : Type} (l : List α) (f : α → Str) (h : ∀ x ∈ l, IsUtf8 (f x)) : IsUtf8 (l.flatMap f) := by
  induction l with
  | nil => exact u8_nil
  | cons x l ih =>
    rw [List.flatMap_cons]
    exact u8_append (h x (by simp)) (ih fun y hy => h y (by simp [hy]))

theorem u8_char (c : Char) : (c.toNat < 128 → Verif.EndToEnd.utf8Char c = [c]) ∧
    (128 ≤ c.toNat → ∀ b ∈ Verif.EndToEnd.utf8Char c, 128 ≤ b.toNat) := by
  constructor
  · intro h
    unfold Verif.EndToEnd.utf8Char
    rw [if_pos h]
    simp
  · intro h b hb
    have hv : c.toNat < 1114112 := by
      have h := c.valid
      have e : c.toNat = c.val.toNat := rfl
      rcases h with h | h <;> omega
    unfold Verif.EndToEnd.utf8Char at hb
    rw [if_neg (by omega)] at hb
    generalize c.toNat = v at hv h hb
    split at hb
    · simp only [List.map_cons, List.map_nil, List.mem_cons, List.not_mem_nil, or_false] at hb
      rcases hb with rfl | rfl <;> (rw [ee_toNat_ofNat _ (by omega)]; omega)
    · split at hb
      · simp only [List.map_cons, List.map_nil, List.mem_cons, List.not_mem_nil, or_false] at hb
        rcases hb with rfl | rfl | rfl <;> (rw [ee_toNat_ofNat _ (by omega)]; omega)
      · simp only [List.map_cons, List.map_nil, List.mem_cons, List.not_mem_nil, or_false] at hb
        rcases hb with rfl | rfl | rfl | rfl <;> (rw [ee_toNat_ofNat _ (by omega)]; omega)

theorem u8_ascii {s : Str} (h : ∀ c ∈ s, c.toNat < 128) : IsUtf8 s := by
  rw [u8_iff]
  refine ⟨s, ?_⟩
  induction s with
  | nil => rfl
  | cons c s ih =>
    show _ = Verif.EndToEnd.utf8Char c ++ Verif.EndToEnd.utf8 s
    rw [(u8_char c).1 (h c (by simp)), ← ih fun x hx => h x (by simp [hx])]
    rfl

/-- An ASCII character separates two encoded texts. -/
theorem u8_split {x y : Str} {q : Char} (hq : q.toNat < 128) : IsUtf8 (x ++ q :: y) ↔ IsUtf8 x ∧ IsUtf8 y := by
  constructor
  swap
  · rintro ⟨hx, hy⟩
    exact u8_append hx (u8_append (a := [q]) (u8_ascii (by simpa using hq)) hy)
  intro h
  obtain ⟨t, h'⟩ := (u8_iff _).mp h
  clear h
  have h := h'
  clear h'
  induction t generalizing x with
  | nil => exact absurd h (by simp [Verif.EndToEnd.utf8])
  | cons c t ih =>
    have h : x ++ q :: y = Verif.EndToEnd.utf8Char c ++ Verif.EndToEnd.utf8 t := h
    rcases List.append_eq_append_iff.mp h with ⟨z, h1, h2⟩ | ⟨z, h1, h2⟩
    · cases z with
      | nil =>
        have h2 : q :: y = Verif.EndToEnd.utf8 t := h2
        have h1 : Verif.EndToEnd.utf8Char c = x := by rw [h1, List.append_nil]
        obtain ⟨_, hy⟩ := ih (x := []) h2
        refine ⟨?_, hy⟩
        rw [← h1, u8_iff]
        exact ⟨[c], by simp [Verif.EndToEnd.utf8]⟩
      | cons z zs =>
        simp only [List.cons_append, List.cons.injEq] at h2
        obtain ⟨rfl, h2⟩ := h2
        have hm : q ∈ Verif.EndToEnd.utf8Char c := by rw [h1]; simp
        have hc : c.toNat < 128 := by
          by_contra hc
          have := (u8_char c).2 (by omega) q hm
          omega
        rw [(u8_char c).1 hc] at h1
        cases x with
        | cons a x => simp at h1
        | nil =>
          have : zs = [] := by simpa using (List.cons.inj h1).2.symm
          subst this
          refine ⟨u8_nil, ?_⟩
          rw [h2, u8_iff]
          exact ⟨t, rfl⟩
    · rw [h1]
      obtain ⟨g1, g2⟩ := ih (x := z) h2.symm
      refine ⟨u8_append ?_ g1, g2⟩
      rw [u8_iff]
      exact ⟨[c], by simp [Verif.EndToEnd.utf8]⟩

theorem u8_escape {s : Str} (h : IsUtf8 s) : IsUtf8 (escapeJson s) := by
  obtain ⟨t, rfl⟩ := (u8_iff _).mp h
  unfold escapeJson Verif.EndToEnd.utf8
  rw [List.flatMap_assoc]
  apply u8_flatMap
  intro c _
  by_cases hc : c.toNat < 128
  · rw [(u8_char c).1 hc]
    apply u8_ascii
    intro b hb
    simp only [List.flatMap_cons, List.flatMap_nil, List.append_nil] at hb
    unfold escapeChar at hb
    have hx : ∀ k, k < 16 → (Text.hexDigit k).toNat < 128 := by decide
    split at hb
    · simp only [List.mem_cons, List.not_mem_nil, or_false] at hb; rcases hb with rfl | rfl <;> decide
    split at hb
    · simp only [List.mem_cons, List.not_mem_nil, or_false] at hb; rcases hb with rfl | rfl <;> decide
    split at hb
    · simp only [List.mem_cons, List.not_mem_nil, or_false] at hb; rcases hb with rfl | rfl <;> decide
    split at hb
    · simp only [List.mem_cons, List.not_mem_nil, or_false] at hb; rcases hb with rfl | rfl <;> decide
    split at hb
    · simp only [List.mem_cons, List.not_mem_nil, or_false] at hb; rcases hb with rfl | rfl <;> decide
    split at hb
    · simp only [List.mem_cons, List.not_mem_nil, or_false] at hb; rcases hb with rfl | rfl <;> decide
    split at hb
    · simp only [List.mem_cons, List.not_mem_nil, or_false] at hb; rcases hb with rfl | rfl <;> decide
    split at hb
    · rename_i h31
      simp only [List.mem_cons, List.not_mem_nil, or_false] at hb
      rcases hb with rfl | rfl | rfl | rfl | rfl | rfl
      · decide
      · decide
      · decide
      · decide
      · exact hx _ (by omega)
      · exact hx _ (by omega)
    · simp only [List.mem_cons, List.not_mem_nil, or_false] at hb; rw [hb]; exact hc
  · have : (Verif.EndToEnd.utf8Char c).flatMap escapeChar = Verif.EndToEnd.utf8Char c := by
      have hall := (u8_char c).2 (by omega)
      generalize Verif.EndToEnd.utf8Char c = l at hall ⊢
      induction l with
      | nil => rfl
      | cons b l ih =>
        rw [List.flatMap_cons, ih fun x hx => hall x (by simp [hx])]
        have hb := hall b (by simp)
        have e : escapeChar b = [b] := by
          unfold escapeChar
          have ne : ∀ k : Char, k.toNat < 128 → b ≠ k := by rintro k hk rfl; omega
          rw [if_neg (ne _ (by decide)), if_neg (ne _ (by decide)), if_neg (ne _ (by decide)), if_neg (ne _ (by decide)),
            if_neg (ne _ (by decide)), if_neg (ne _ (by decide)), if_neg (ne _ (by decide)), if_neg (by omega)]
        rw [e]; rfl
    rw [this, u8_iff]
    exact ⟨[c], by simp [Verif.EndToEnd.utf8]⟩

/-! ## The stages -/

/-- The texts of a character. -/
structure Utf8Glyph (c : Glyph) : Prop where
  text : IsUtf8 c.text
  marked : IsUtf8 c.textWithMark

theorem u8_marks {compose : List ℕ → Str} (hc : ∀ us, IsUtf8 (compose us)) (cs : List Glyph) (hcs : ∀ c ∈ cs, Utf8Glyph c) :
    ∀ (n : ℕ) (cs' : List Glyph), Diacritics.run compose cs n = .ok cs' → ∀ c ∈ cs', Utf8Glyph c := by
  have hset : ∀ (l : List Glyph) (i : ℕ) (g : Glyph), (∀ c ∈ l, Utf8Glyph c) → Utf8Glyph g → ∀ c ∈ l.set i g, Utf8Glyph c := by
    intro l i g hl hg c hcm
    rcases List.mem_or_eq_of_mem_set hcm with h | rfl
    · exact hl c h
    · exact hg
  intro n
  induction n with
  | zero =>
    intro cs' h
    cases h
    exact hcs
  | succ n ih =>
    intro cs' h
    rw [Diacritics.run] at h
    cases hr : Diacritics.run compose cs n with
    | throw m => rw [hr] at h; cases h
    | ub m => rw [hr] at h; cases h
    | ok s =>
      rw [hr] at h
      have hs := ih s hr
      have h : Diacritics.step compose s n = .ok cs' := h
      have hat : ∀ i b u cur base, cur ∈ s → base ∈ s → ∀ c ∈ Diacritics.attach compose s i b u cur base, Utf8Glyph c := by
        intro i b u cur base h1 h2
        unfold Diacritics.attach
        exact hset _ _ _ (hset _ _ _ hs ⟨(hs cur h1).text, (hs cur h1).marked⟩) ⟨(hs base h2).text, hc _⟩
      unfold Diacritics.step at h
      cases hcur : s[n]? with
      | none => rw [hcur] at h; cases h; exact hs
      | some cur =>
        rw [hcur] at h
        simp only at h
        cases hu : Diacritics.markUnicode cur with
        | none => rw [hu] at h; cases h; exact hs
        | some u =>
          rw [hu] at h
          simp only at h
          by_cases h0 : (equal (Diacritics.prevRatio (if n > 0 then s[n - 1]? else none) cur) 0 tol &&
              equal (Diacritics.nextRatio cur s[n + 1]?) 0 tol) = true
          · rw [if_pos h0] at h; cases h; exact hs
          rw [if_neg h0] at h
          by_cases h1 : larger (Diacritics.prevRatio (if n > 0 then s[n - 1]? else none) cur) (Diacritics.nextRatio cur s[n + 1]?) tol = true
          · rw [if_pos h1] at h
            cases hp : (if n > 0 then s[n - 1]? else none) with
            | none => rw [hp] at h; cases h
            | some base =>
              rw [hp] at h; cases h
              by_cases hn : n > 0
              · rw [if_pos hn] at hp
                exact hat _ _ _ _ _ (List.mem_of_getElem? hcur) (List.mem_of_getElem? hp)
              · rw [if_neg hn] at hp; cases hp
          · rw [if_neg h1] at h
            cases hp : s[n + 1]? with
            | none => rw [hp] at h; cases h
            | some base =>
              rw [hp] at h; cases h
              exact hat _ _ _ _ _ (List.mem_of_getElem? hcur) (List.mem_of_getElem? hp)

/-- The characters of a word. -/
def Utf8Chars (w : SWord) : Prop := ∀ c ∈ w.chars, IsUtf8 c.text ∧ IsUtf8 c.withMark

variable {lib : Pipeline.Lib} {n : ℕ} {cfg : Config} {d0 d d' : Document}

theorem u8_page_words {R : Ran} {ls : List TextLine} {p0 p : Page} (hi : PageInv lib n R ls p0 p) (hc : ∀ us, IsUtf8 (lib.compose us))
    (h0 : ∀ c ∈ p0.characters, Utf8Glyph c) (f : Dehyphenation.Flags) (k : ℕ) :
    ∀ w ∈ sWordsAt f k ls (p.blocks.flatMap (·.block.lines)), Utf8Chars w := by
  have hch : ∀ c ∈ p.characters, Utf8Glyph c := by
    have := hi.chars
    by_cases hR : R.marks = true
    · rw [if_pos hR] at this
      exact u8_marks hc _ h0 _ _ this
    · rw [if_neg hR] at this
      rw [this]; exact h0
  intro w hw
  have hb := hi.blocks
  by_cases hB : R.blocks = true
  swap
  · rw [if_neg hB] at hb; rw [hb] at hw; cases hw
  rw [if_pos hB] at hb
  have hw : w ∈ sWordsAt f k ls (p.segments.flatMap (·.lines)) := ((hb.1.flatMap_right _).map _).subset hw
  have hl := hi.lines
  by_cases hL : R.lines = true
  swap
  · rw [if_neg hL] at hl
    have : p.segments.flatMap (·.lines) = [] := List.flatMap_eq_nil_iff.mpr hl
    rw [this] at hw; cases hw
  rw [if_pos hL] at hl
  have hw := (hl f k).subset hw
  by_cases hS : R.segments = true
  swap
  · rw [if_neg hS] at hw; cases hw
  rw [if_pos hS] at hw
  obtain ⟨x, hx, rfl⟩ := List.mem_map.mp hw
  obtain ⟨y, hy, hxy⟩ := List.mem_flatMap.mp hx
  have hx := pl_wordGroup_mem hy hxy
  have hW := hi.words
  by_cases hWo : R.words = true
  swap
  · rw [if_neg hWo] at hW; rw [hW] at hx; cases hx
  rw [if_pos hWo] at hW
  obtain ⟨ws, a, h1, h2⟩ := hW
  obtain ⟨ws', a', q1, q2, q3, q4, q5⟩ := pl_words lib.lines.hash (Active.reset p.pageNum) p.pageNum p.characters hi.glyphs
  rw [h1] at q1
  simp only [Outcome.ok.injEq, Prod.mk.injEq] at q1
  obtain ⟨rfl, rfl⟩ := q1
  rw [h2] at hx
  obtain ⟨v, hv, ps, po, rfl⟩ := pl_merge_mem ws q2 hx
  intro c hcm
  obtain ⟨g, hg, rfl⟩ := List.mem_map.mp hcm
  have : g ∈ (ws.map (·.chars)).flatten := List.mem_flatten.mpr ⟨_, List.mem_map.mpr ⟨v, hv, rfl⟩, hg⟩
  rw [q3] at this
  have := hch g (List.mem_filter.mp this).1
  exact ⟨this.text, this.marked⟩

/-- The texts of a finished document. -/
structure Utf8Doc (doc : SDoc) : Prop where
  chars : ∀ p ∈ doc.pages, ∀ b ∈ p.blocks, ∀ l ∈ b.lines, ∀ w ∈ l.words, Utf8Chars w
  words : ∀ p ∈ doc.pages, ∀ b ∈ p.blocks, ∀ l ∈ b.lines, ∀ w ∈ l.words, IsUtf8 w.text
  joined : ∀ p ∈ doc.pages, ∀ b ∈ p.blocks, ∀ l ∈ b.lines, ∀ w ∈ l.words, ∀ t, w.first = some t → IsUtf8 t
  blocks : ∀ p ∈ doc.pages, ∀ b ∈ p.blocks, IsUtf8 b.text

theorem u8_merged {a b t : Str} (ha : IsUtf8 a) (hb : IsUtf8 b) (h : Dehyphenation.mergedText a b = some t) : IsUtf8 t := by
  unfold Dehyphenation.mergedText at h
  by_cases hh : a.length > 1 ∧ a.getLast? = some '-'
  · rw [if_pos hh] at h
    cases h
    have e : a = a.take (a.length - 1) ++ '-' :: [] := by
      rw [← List.dropLast_eq_take]
      exact (List.dropLast_append_getLast? _ (by rw [hh.2]; rfl)).symm
    rw [e] at ha
    exact u8_append ((u8_split (by decide)).mp ha).1 hb
  · rw [if_neg hh] at h; cases h

theorem u8_fold (ls : List SLine) : ∀ (f : Dehyphenation.Flags) (prev : Option SLine), (∀ l ∈ ls, ∀ w ∈ l.words, IsUtf8 w.text) →
    (∀ l, prev = some l → ∀ w ∈ l.words, IsUtf8 w.text) → (∀ u t, f.first u = some t → IsUtf8 t) →
    ∀ u t, (ls.foldl Dehyphenation.step (f, prev)).1.first u = some t → IsUtf8 t := by
  induction ls with
  | nil => intro f prev _ _ h; exact h
  | cons l ls ih =>
    intro f prev h1 h2 h3
    rw [List.foldl_cons]
    have hstep : (∀ u t, (Dehyphenation.step (f, prev) l).1.first u = some t → IsUtf8 t) ∧
        ((Dehyphenation.step (f, prev) l).2 = prev ∨ (Dehyphenation.step (f, prev) l).2 = some l) := by
      unfold Dehyphenation.step
      cases hw : l.words with
      | nil => exact ⟨h3, .inl rfl⟩
      | cons w ws =>
        cases prev with
        | none => exact ⟨h3, .inr rfl⟩
        | some q =>
          simp only
          cases hq : q.words.getLast? with
          | none => exact ⟨h3, .inr rfl⟩
          | some x =>
            simp only
            cases hm : Dehyphenation.mergedText x.text w.text with
            | none => exact ⟨h3, .inr rfl⟩
            | some m =>
              refine ⟨?_, .inr rfl⟩
              intro u t ht
              simp only [Function.update] at ht
              by_cases hu : u = x.uid
              · subst hu
                simp only [dif_pos] at ht
                cases ht
                exact u8_merged (h2 q rfl x (List.mem_of_getLast? hq)) (h1 l (by simp) w (by rw [hw]; simp)) hm
              · simp only [hu, dif_neg, not_false_eq_true] at ht
                exact h3 u t ht
    generalize Dehyphenation.step (f, prev) l = s at hstep ⊢
    obtain ⟨f', prev'⟩ := s
    refine ih f' prev' (fun x hx => h1 x (by simp [hx])) ?_ hstep.1
    intro x hx
    rcases hstep.2 with e | e
    · exact h2 x (by rw [← e]; exact hx)
    · have : x = l := by
        have : some l = some x := by rw [← e]; exact hx
        exact (Option.some.inj this).symm
      subst this
      exact h1 x (by simp)

theorem u8_word {w : SWord} (ht : WordText w) (hc : Utf8Chars w) : IsUtf8 w.text := by
  rw [ht.text]
  apply u8_flatMap
  intro c hcm
  unfold shownText
  by_cases hb : c.isBase = true
  · rw [if_pos hb]; exact (hc c hcm).2
  · rw [if_neg hb]; exact (hc c hcm).1

theorem u8_intercalate {l : List Str} (h : ∀ s ∈ l, IsUtf8 s) : IsUtf8 ([' '].intercalate l) := by
  induction l with
  | nil => exact u8_nil
  | cons a l ih =>
    cases l with
    | nil => simpa [List.intercalate] using h a (by simp)
    | cons b l =>
      have e : [' '].intercalate (a :: b :: l) = a ++ ' ' :: [' '].intercalate (b :: l) := by
        simp [List.intercalate, List.intersperse]
      rw [e, u8_split (by decide)]
      exact ⟨h a (by simp), ih fun s hs => h s (by simp [hs])⟩

/-- The finished document. -/
theorem u8_doc (h : EndedRun lib n cfg d0 d) (hc : ∀ us, IsUtf8 (lib.compose us)) (h0 : ∀ p ∈ d0.pages, ∀ c ∈ p.characters, Utf8Glyph c) :
    Utf8Doc (toSDoc d) := by
  obtain ⟨e, he⟩ := h.trace
  have hi := tr_inv h.precision h.sorts h.parsed he
  have hs := fo_same h.precision h.sorts h.parsed he
  obtain ⟨_, _, q1, q2, _⟩ := ap_late he
  have hres : d.pages = (e 10).pages.map fun p => { p with textLines := p.blocks.flatMap (·.block.lines) } := by
    rw [he.result]; unfold linesFromBlocks; simp only; rw [q1]
  have hline : d.lines = (e 10).lines := by rw [he.result]; exact q2
  have hpage : ∀ (f : Dehyphenation.Flags) (k : ℕ) (q : Page), q ∈ (e 10).pages → ∀ w ∈ sWordsAt f k (e 10).lines (q.blocks.flatMap (·.block.lines)), Utf8Chars w := by
    intro f k q hq
    obtain ⟨p0, hp0, hpi⟩ := pl_forall₂_right hi.i10.pages q hq
    exact u8_page_words hpi hc (h0 p0 hp0) f k
  have hchars : ∀ p ∈ (toSDoc d).pages, ∀ b ∈ p.blocks, ∀ l ∈ b.lines, ∀ w ∈ l.words, Utf8Chars w := by
    intro p hp' b hb l hl' w hw
    obtain ⟨k, hk, rfl⟩ := List.mem_mapIdx.mp hp'
    have hmem := List.getElem_mem hk
    generalize d.pages[k] = q at *
    rw [hres] at hmem
    obtain ⟨q', hq', rfl⟩ := List.mem_map.mp hmem
    refine hpage d.hyphens k q' hq' w ?_
    have : w ∈ pageWords (toSPage d k { q' with textLines := q'.blocks.flatMap (·.block.lines) }) := by
      unfold pageWords wordsOf
      exact List.mem_flatMap.mpr ⟨l, List.mem_flatMap.mpr ⟨b, hb, hl'⟩, hw⟩
    rw [pl_pageWords, hline] at this
    exact this
  have hwords : ∀ p ∈ (toSDoc d).pages, ∀ b ∈ p.blocks, ∀ l ∈ b.lines, ∀ w ∈ l.words, IsUtf8 w.text :=
    fun p hp b hb l hl w hw => u8_word (hs.words p hp b hb l hl w hw) (hchars p hp b hb l hl w hw)
  refine ⟨hchars, hwords, ?_, ?_⟩
  · have hf : ∀ u t, d.hyphens.first u = some t → IsUtf8 t := by
      have hr : d.hyphens = (e 11).hyphens := by rw [he.result]; rfl
      have hy : (e 10).hyphens = ⟨fun _ => none, fun _ => false⟩ := by rw [hi.i10.hyphens, h.parsed.hyphens]
      have hd := he.dehyphenation
      rw [hr]
      unfold Did at hd
      by_cases hE : Enabled cfg .dehyphenation
      · rw [if_pos hE] at hd
        obtain ⟨m, g1, g2⟩ := hd
        rw [if_neg (by decide)] at g2
        have g1 : m = _ := (Outcome.ok.inj g1).symm
        rw [g2, g1]
        simp only
        apply u8_fold
        · intro l hl w hw
          unfold Dehyphenation.allLines at hl
          obtain ⟨p, hp, hl⟩ := List.mem_flatMap.mp hl
          obtain ⟨k, hk, rfl⟩ := List.mem_mapIdx.mp hp
          have hmem := List.getElem_mem hk
          generalize (e 10).pages[k] = q at *
          have hin : w ∈ pageWords (toSPage (e 10) k q) := by
            unfold pageWords wordsOf
            exact List.mem_flatMap.mpr ⟨l, hl, hw⟩
          rw [pl_pageWords] at hin
          obtain ⟨p0, hp0, hpi⟩ := pl_forall₂_right hi.i10.pages q hmem
          exact u8_word (fo_page_words hpi _ k w hin) (hpage _ k q hmem w hin)
        · intro l hl; cases hl
        · rw [hy]; intro u t ht; cases ht
      · rw [if_neg hE] at hd
        rw [hd, hy]
        intro u t ht; cases ht
    intro p hp' b hb l hl' w hw t ht
    obtain ⟨k, hk, rfl⟩ := List.mem_mapIdx.mp hp'
    obtain ⟨x, hx, rfl⟩ := List.mem_map.mp hb
    obtain ⟨i, hi', rfl⟩ := List.mem_map.mp hl'
    obtain ⟨v, hv, rfl⟩ := List.mem_map.mp hw
    exact hf _ t ht
  · intro p hp b hb
    rw [hs.blocks p hp b hb]
    apply u8_intercalate
    intro s hs'
    obtain ⟨w, hw, rfl⟩ := List.mem_map.mp hs'
    obtain ⟨l, hl, hw⟩ := List.mem_flatMap.mp hw
    exact hwords p hp b hb l hl w hw

/-! ## The serializers -/

theorem u8_wordOut {doc : SDoc} (h : Utf8Doc doc) {p : SPage} (hp : p ∈ doc.pages) {b : SBlock} (hb : b ∈ p.blocks) : ∀ w ∈ b.words, IsUtf8 (wordOut w) := by
  intro w hw
  obtain ⟨l, hl, hw⟩ := List.mem_flatMap.mp hw
  unfold wordOut
  cases hf : w.first with
  | some t => exact h.joined p hp b hb l hl w hw t hf
  | none =>
    apply u8_flatMap
    intro c hc
    have := h.chars p hp b hb l hl w hw c hc
    unfold charOut
    split
    · exact this.2
    split
    · exact this.1
    · exact u8_nil

theorem u8_writeWords (ws : List SWord) (h : ∀ w ∈ ws, IsUtf8 (wordOut w)) : ∀ prev, IsUtf8 (writeWords prev ws) := by
  induction ws with
  | nil => intro prev; exact u8_nil
  | cons w ws ih =>
    intro prev
    rw [writeWords]
    split
    · exact ih (fun x hx => h x (by simp [hx])) prev
    · refine u8_append (u8_append (u8_ascii ?_) (h w (by simp))) (ih (fun x hx => h x (by simp [hx])) true)
      cases prev <;> decide

theorem u8_writeBlocks {roles : List Role} {head : SBlock → Str} (hh : ∀ b, IsUtf8 (head b)) (bs : List SBlock)
    (h : ∀ b ∈ bs, ∀ w ∈ b.words, IsUtf8 (wordOut w)) : ∀ prev, IsUtf8 (writeBlocks roles head prev bs).1 := by
  induction bs with
  | nil => intro prev; exact u8_nil
  | cons b bs ih =>
    intro prev
    rw [writeBlocks]
    split
    · exact ih (fun x hx => h x (by simp [hx])) prev
    · refine u8_append (u8_append (u8_append (u8_ascii ?_) (hh b)) (u8_writeWords _ (h b (by simp)) false)) (ih (fun x hx => h x (by simp [hx])) true)
      cases prev <;> decide

theorem u8_writePages {roles : List Role} {head : SBlock → Str} (hh : ∀ b, IsUtf8 (head b)) {foot : Str} (hf : IsUtf8 foot) (ps : List SPage)
    (h : ∀ p ∈ ps, ∀ b ∈ p.blocks, ∀ w ∈ b.words, IsUtf8 (wordOut w)) : ∀ prev, IsUtf8 (writePages roles head foot prev ps) := by
  induction ps with
  | nil => intro prev; exact u8_nil
  | cons p ps ih =>
    intro prev
    rw [writePages]
    exact u8_append (u8_append (u8_writeBlocks hh _ (h p (by simp)) prev) hf) (ih (fun x hx => h x (by simp [hx])) _)

theorem u8_plain {doc : SDoc} (h : Utf8Doc doc) (roles : List Role) : IsUtf8 (plainText roles doc) :=
  u8_append (u8_writePages (fun _ => u8_nil) u8_nil _ (fun p hp b hb => u8_wordOut h hp hb) _) (u8_ascii (by decide))

theorem u8_extended {doc : SDoc} (h : Utf8Doc doc) (roles : List Role) : IsUtf8 (plainTextExtended roles doc) := by
  refine u8_append (u8_writePages ?_ (u8_ascii (by decide)) _ (fun p hp b hb => u8_wordOut h hp hb) _) (u8_ascii (by decide))
  intro b
  unfold blockPrefix
  apply u8_ascii
  have : ∀ (r : Role) (e : Bool), ∀ c ∈ ['['] ++ (roleName r).map toUpperC ++ [']', ' '] ++ (if e then [Char.ofNat 1] else []), c.toNat < 128 := by
    intro r e
    cases r <;> cases e <;> decide +kernel
  exact this b.role b.isEmphasized

/-! ## JSONL -/

theorem u8_number {s : Str} (h : IsNumber s) : IsUtf8 s := by
  obtain ⟨sign, int, frac, exp, rfl, h1, h2, h3, h4⟩ := h
  have hdg : ∀ {c : Char}, IsDigit c → c.toNat < 128 := by
    intro c hc
    unfold IsDigit at hc
    omega
  apply u8_ascii
  intro c hc
  simp only [List.mem_append] at hc
  rcases hc with ((hc | hc) | hc) | hc
  · rcases h1 with rfl | rfl
    · simp at hc
    · simp at hc; subst hc; decide
  · rcases h2 with rfl | ⟨d, ds, rfl, -, hd, hds⟩
    · simp at hc; subst hc; decide
    · rcases List.mem_cons.1 hc with rfl | hc
      · exact hdg hd
      · exact hdg (hds c hc)
  · rcases h3 with rfl | ⟨ds, rfl, -, hds⟩
    · simp at hc
    · rcases List.mem_cons.1 hc with rfl | hc
      · decide
      · exact hdg (hds c hc)
  · rcases h4 with rfl | ⟨e, sg, ds, rfl, he, hsg, -, hds⟩
    · simp at hc
    · rcases List.mem_cons.1 hc with rfl | hc
      · rcases he with rfl | rfl <;> decide
      · rcases List.mem_append.1 hc with hc | hc
        · rcases hsg with rfl | rfl | rfl
          · simp at hc
          · simp at hc; subst hc; decide
          · simp at hc; subst hc; decide
        · exact hdg (hds c hc)

theorem u8_quoted {s : Str} (h : IsUtf8 s) : IsUtf8 (quoted s) :=
  u8_append (u8_append (u8_ascii (by decide)) h) (u8_ascii (by decide))

theorem u8_field {key : String} {value sep : Str} (hk : ∀ c ∈ key.toList, c.toNat < 128) (hv : IsUtf8 value) (hs : IsUtf8 sep) :
    IsUtf8 (field key value sep) :=
  u8_append (u8_append (u8_append (u8_quoted (u8_ascii hk)) (u8_ascii (by decide))) hv) hs

theorem u8_sep : IsUtf8 sepC := u8_ascii (by decide)

theorem u8_pos {P : Printer} (hP : PrinterContract P) (b : Box) : IsUtf8 (posFields P b) := by
  unfold posFields
  refine u8_append (u8_append (u8_append (u8_append ?_ ?_) ?_) ?_) ?_ <;>
    refine u8_field (by decide) (u8_number ?_) u8_sep
  · exact hP.int _
  all_goals exact hP.dbl _

theorem u8_tail : IsUtf8 tailFields := u8_ascii (by decide +kernel)

theorem u8_bool (b : Bool) : IsUtf8 (boolOut b) := by cases b <;> exact u8_ascii (by decide)

theorem u8_line {r : Str} (h : IsUtf8 r) : IsUtf8 (lineOf r) := u8_append h (u8_ascii (by decide))

/-- The identifiers and the font names that are written into the records. -/
structure Utf8Names (doc : SDoc) : Prop where
  blockId : ∀ p ∈ doc.pages, ∀ b ∈ p.blocks, IsUtf8 b.id
  blockFont : ∀ p ∈ doc.pages, ∀ b ∈ p.blocks, IsUtf8 b.fontName
  wordId : ∀ p ∈ doc.pages, ∀ b ∈ p.blocks, ∀ w ∈ b.words, IsUtf8 w.id
  wordFont : ∀ p ∈ doc.pages, ∀ b ∈ p.blocks, ∀ w ∈ b.words, IsUtf8 w.fontName
  charId : ∀ p ∈ doc.pages, ∀ b ∈ p.blocks, ∀ w ∈ b.words, ∀ c ∈ w.chars, IsUtf8 c.id
  charFont : ∀ p ∈ doc.pages, ∀ b ∈ p.blocks, ∀ w ∈ b.words, ∀ c ∈ w.chars, IsUtf8 c.fontName
  figures : ∀ p ∈ doc.pages, ∀ f ∈ p.figures, IsUtf8 f.id
  shapes : ∀ p ∈ doc.pages, ∀ f ∈ p.shapes, IsUtf8 f.id

theorem u8_pageRecord {P : Printer} (hP : PrinterContract P) (p : SPage) : IsUtf8 (pageRecord P p) := by
  unfold pageRecord
  refine u8_append (u8_append (u8_append (u8_append (u8_append ?_ ?_) ?_) ?_) ?_) u8_tail
  · exact u8_ascii (by decide)
  · exact u8_field (by decide) (u8_quoted (u8_ascii (by decide))) u8_sep
  · exact u8_field (by decide) (u8_number (hP.int _)) u8_sep
  · exact u8_field (by decide) (u8_number (hP.dbl _)) u8_sep
  · exact u8_field (by decide) (u8_number (hP.dbl _)) u8_sep

theorem u8_rectRecord {P : Printer} (hP : PrinterContract P) {type : String} (ht : ∀ c ∈ type.toList, c.toNat < 128) {f : SRect} (hf : IsUtf8 f.id) :
    IsUtf8 (rectRecord P type f) := by
  unfold rectRecord
  refine u8_append (u8_append (u8_append (u8_append (u8_append ?_ ?_) ?_) ?_) (u8_pos hP _)) u8_tail
  · exact u8_ascii (by decide)
  · exact u8_field (by decide) (u8_quoted (u8_ascii ht)) u8_sep
  · exact u8_field (by decide) (u8_number (hP.int _)) u8_sep
  · exact u8_field (by decide) (u8_quoted hf) u8_sep

theorem u8_blockRecord {P : Printer} (hP : PrinterContract P) {b : SBlock} (h1 : IsUtf8 b.id) (h2 : IsUtf8 b.fontName) (h3 : IsUtf8 b.text) :
    IsUtf8 (blockRecord P b) := by
  unfold blockRecord
  refine u8_append (u8_append (u8_append (u8_append (u8_append (u8_append (u8_append (u8_append (u8_append ?_ ?_) ?_) ?_) (u8_pos hP _)) ?_) ?_) ?_) ?_) u8_tail
  · exact u8_ascii (by decide)
  · exact u8_field (by decide) (u8_quoted (u8_ascii (by decide))) u8_sep
  · exact u8_field (by decide) (u8_quoted h1) u8_sep
  · exact u8_field (by decide) (u8_number (hP.int _)) u8_sep
  · exact u8_field (by decide) (u8_quoted h2) u8_sep
  · exact u8_field (by decide) (u8_number (hP.dbl _)) u8_sep
  · exact u8_field (by decide) (u8_quoted (u8_escape h3)) u8_sep
  · refine u8_field (by decide) (u8_quoted (u8_ascii ?_)) u8_sep
    cases b.role <;> decide +kernel

theorem u8_wordRecord {P : Printer} (hP : PrinterContract P) {b : SBlock} {w : SWord} (h0 : IsUtf8 b.id) (h1 : IsUtf8 w.id) (h2 : IsUtf8 w.fontName)
    (h3 : IsUtf8 w.text) : IsUtf8 (wordRecord P b w) := by
  unfold wordRecord
  refine u8_append (u8_append (u8_append (u8_append (u8_append (u8_append (u8_append (u8_append (u8_append ?_ ?_) ?_) ?_) (u8_pos hP _)) ?_) ?_) ?_) ?_) u8_tail
  · exact u8_ascii (by decide)
  · exact u8_field (by decide) (u8_quoted (u8_ascii (by decide))) u8_sep
  · exact u8_field (by decide) (u8_quoted h1) u8_sep
  · exact u8_field (by decide) (u8_number (hP.int _)) u8_sep
  · exact u8_field (by decide) (u8_quoted h2) u8_sep
  · exact u8_field (by decide) (u8_number (hP.dbl _)) u8_sep
  · exact u8_field (by decide) (u8_quoted (u8_escape h3)) u8_sep
  · exact u8_field (by decide) (u8_quoted h0) u8_sep

theorem u8_charRecord {P : Printer} (hP : PrinterContract P) {b : SBlock} {w : SWord} {c : SChar} (f : FontFlags) (h0 : IsUtf8 b.id) (h1 : IsUtf8 w.id)
    (h2 : IsUtf8 c.id) (h3 : IsUtf8 c.fontName) (h4 : IsUtf8 c.text ∧ IsUtf8 c.withMark) : IsUtf8 (charRecord P b w c f) := by
  have ht : IsUtf8 (charText c) := by
    unfold charText
    split
    · exact h4.2
    · exact h4.1
  unfold charRecord
  refine u8_append (u8_append (u8_append (u8_append (u8_append (u8_append (u8_append (u8_append (u8_append (u8_append (u8_append (u8_append (u8_append
    (u8_append (u8_append (u8_append (u8_append ?_ ?_) ?_) ?_) (u8_pos hP _)) ?_) ?_) ?_) ?_) ?_) ?_) ?_) ?_) ?_) ?_) ?_) ?_) u8_tail
  · exact u8_ascii (by decide)
  · exact u8_field (by decide) (u8_quoted (u8_ascii (by decide))) u8_sep
  · exact u8_field (by decide) (u8_quoted h2) u8_sep
  · exact u8_field (by decide) (u8_number (hP.int _)) u8_sep
  · exact u8_field (by decide) (u8_number (hP.int _)) u8_sep
  · exact u8_field (by decide) (u8_number (hP.int _)) u8_sep
  · exact u8_field (by decide) (u8_quoted h3) u8_sep
  · exact u8_field (by decide) (u8_number (hP.dbl _)) u8_sep
  · exact u8_field (by decide) (u8_number (hP.int _)) u8_sep
  · exact u8_field (by decide) (u8_bool _) u8_sep
  · exact u8_field (by decide) (u8_bool _) u8_sep
  · refine u8_field (by decide) ?_ (u8_ascii (by decide))
    refine u8_append (u8_append (u8_append (u8_append (u8_append (u8_append ?_ ?_) ?_) ?_) ?_) ?_) ?_
    · exact u8_ascii (by decide)
    · exact u8_number (hP.dbl _)
    · exact u8_ascii (by decide)
    · exact u8_number (hP.dbl _)
    · exact u8_ascii (by decide)
    · exact u8_number (hP.dbl _)
    · exact u8_ascii (by decide)
  · exact u8_field (by decide) (u8_number (hP.dbl _)) u8_sep
  · exact u8_field (by decide) (u8_quoted (u8_escape ht)) u8_sep
  · exact u8_field (by decide) (u8_quoted h1) u8_sep
  · exact u8_field (by decide) (u8_quoted h0) u8_sep

theorem u8_bind {a : Outcome Str} {f : Str → Outcome Str} {out : Str} (h : a.bind f = .ok out) : ∃ r, a = .ok r ∧ f r = .ok out := by
  cases a with
  | ok r => exact ⟨r, rfl, h⟩
  | throw m => cases h
  | ub m => cases h

theorem u8_chars {P : Printer} (hP : PrinterContract P) (doc : SDoc) {b : SBlock} {w : SWord} (h0 : IsUtf8 b.id) (h1 : IsUtf8 w.id) (cs : List SChar)
    (h : ∀ c ∈ cs, IsUtf8 c.id ∧ IsUtf8 c.fontName ∧ IsUtf8 c.text ∧ IsUtf8 c.withMark) : ∀ out, serializeChars P doc b w cs = .ok out → IsUtf8 out := by
  induction cs with
  | nil => intro out ho; cases ho; exact u8_nil
  | cons c cs ih =>
    intro out ho
    have ih := ih fun x hx => h x (by simp [hx])
    rw [serializeChars] at ho
    by_cases hm : c.isMark = true
    · rw [if_pos hm] at ho; exact ih out ho
    · rw [if_neg hm] at ho
      cases hf : doc.fontInfos c.fontName with
      | none => rw [hf] at ho; cases ho
      | some f =>
        rw [hf] at ho
        obtain ⟨r, hr, ho⟩ := u8_bind ho
        cases ho
        have hc := h c (by simp)
        exact u8_append (u8_line (u8_charRecord hP f h0 h1 hc.1 hc.2.1 hc.2.2)) (ih r hr)

theorem u8_wordChars {P : Printer} (hP : PrinterContract P) {doc : SDoc} (h : Utf8Doc doc) (hn : Utf8Names doc) {p : SPage} (hp : p ∈ doc.pages) {b : SBlock}
    (hb : b ∈ p.blocks) (ws : List SWord) (hin : ∀ w ∈ ws, w ∈ b.words) : ∀ out, serializeWordChars P doc b ws = .ok out → IsUtf8 out := by
  induction ws with
  | nil => intro out h1; cases h1; exact u8_nil
  | cons w ws ih =>
    intro out h1
    rw [serializeWordChars] at h1
    obtain ⟨s1, g1, h1⟩ := u8_bind h1
    obtain ⟨s2, g2, h1⟩ := u8_bind h1
    cases h1
    refine u8_append ?_ (ih (fun x hx => hin x (by simp [hx])) s2 g2)
    have hw := hin w (by simp)
    refine u8_chars hP doc (hn.blockId p hp b hb) (hn.wordId p hp b hb w hw) w.chars ?_ s1 g1
    intro c hc
    obtain ⟨l, hl, hw'⟩ := List.mem_flatMap.mp hw
    exact ⟨hn.charId p hp b hb w hw c hc, hn.charFont p hp b hb w hw c hc, h.chars p hp b hb l hl w hw' c hc⟩

theorem u8_blockChars {P : Printer} (hP : PrinterContract P) {doc : SDoc} (h : Utf8Doc doc) (hn : Utf8Names doc) (bs : List SBlock)
    (hsel : ∀ b ∈ bs, ∃ p ∈ doc.pages, b ∈ p.blocks) : ∀ out, serializeBlockChars P doc bs = .ok out → IsUtf8 out := by
  induction bs with
  | nil => intro out ho; cases ho; exact u8_nil
  | cons b bs ih =>
    intro out ho
    rw [serializeBlockChars] at ho
    obtain ⟨r1, h1, ho⟩ := u8_bind ho
    obtain ⟨r2, h2, ho⟩ := u8_bind ho
    cases ho
    obtain ⟨p, hp, hb⟩ := hsel b (by simp)
    exact u8_append (u8_wordChars hP h hn hp hb _ (fun _ hw => hw) r1 h1) (ih (fun x hx => hsel x (by simp [hx])) r2 h2)

theorem u8_jsonl {P : Printer} (hP : PrinterContract P) {doc : SDoc} (h : Utf8Doc doc) (hn : Utf8Names doc) (roles : List Role) (units : List Unit') :
    ∀ out, jsonl P roles doc units = .ok out → IsUtf8 out := by
  have hsel : ∀ b ∈ selectedBlocks roles doc, ∃ p ∈ doc.pages, b ∈ p.blocks := by
    intro b hb
    obtain ⟨p, hp, hb⟩ := List.mem_flatMap.mp hb
    exact ⟨p, hp, (List.mem_filter.mp hb).1⟩
  have hunit : ∀ u out, serializeUnit P roles doc u = .ok out → IsUtf8 out := by
    intro u out ho
    cases u with
    | pages => cases ho; exact u8_flatMap _ _ fun p _ => u8_line (u8_pageRecord hP p)
    | textLines => cases ho; exact u8_nil
    | figures =>
      cases ho
      exact u8_flatMap _ _ fun p hp => u8_flatMap _ _ fun f hf => u8_line (u8_rectRecord hP (by decide) (hn.figures p hp f hf))
    | shapes =>
      cases ho
      exact u8_flatMap _ _ fun p hp => u8_flatMap _ _ fun f hf => u8_line (u8_rectRecord hP (by decide) (hn.shapes p hp f hf))
    | textBlocks =>
      cases ho
      refine u8_flatMap _ _ fun b hb => ?_
      obtain ⟨p, hp, hb⟩ := hsel b hb
      exact u8_line (u8_blockRecord hP (hn.blockId p hp b hb) (hn.blockFont p hp b hb) (h.blocks p hp b hb))
    | words =>
      cases ho
      refine u8_flatMap _ _ fun b hb => u8_flatMap _ _ fun w hw => ?_
      obtain ⟨p, hp, hb⟩ := hsel b hb
      refine u8_line (u8_wordRecord hP (hn.blockId p hp b hb) (hn.wordId p hp b hb w hw) (hn.wordFont p hp b hb w hw) ?_)
      obtain ⟨l, hl, hw⟩ := List.mem_flatMap.mp hw
      exact h.words p hp b hb l hl w hw
    | characters =>
      have ho : serializeBlockChars P doc (selectedBlocks roles doc) = .ok out := ho
      refine u8_blockChars hP h hn _ ?_ out ho
      intro b hb
      exact hsel b hb
  induction units with
  | nil => intro out ho; cases ho; exact u8_nil
  | cons u us ih =>
    intro out ho
    rw [jsonl] at ho
    obtain ⟨r1, h1, ho⟩ := u8_bind ho
    obtain ⟨r2, h2, ho⟩ := u8_bind ho
    cases ho
    exact u8_append (hunit u r1 h1) (ih r2 h2)

/-! ## The properties -/

/-- **C89 (texts).** If the texts of the drawn characters are UTF-8, so is what the two text serializers write, whatever stages are skipped: cutting off
hyphens and joining words does not break characters apart. -/
theorem c89_text (h : EndedRun lib n cfg d0 d) (hc : ∀ us, IsUtf8 (lib.compose us)) (h0 : ∀ p ∈ d0.pages, ∀ c ∈ p.characters, IsUtf8 c.text ∧ IsUtf8 c.textWithMark)
    (roles : List Role) : IsUtf8 (plainText roles (toSDoc d)) ∧ IsUtf8 (plainTextExtended roles (toSDoc d)) := by
  have hd := u8_doc h hc fun p hp c hcm => ⟨(h0 p hp c hcm).1, (h0 p hp c hcm).2⟩
  exact ⟨u8_plain hd roles, u8_extended hd roles⟩

/-- What the identifiers and colours change about the texts: nothing. -/
theorem u8_label {doc : SDoc} (h : Utf8Doc (plainDoc doc)) : Utf8Doc doc := by
  have key : ∀ p ∈ doc.pages, ∀ b ∈ p.blocks, ∀ l ∈ b.lines, ∀ w ∈ l.words, Utf8Chars w ∧ IsUtf8 w.text ∧ ∀ t, w.first = some t → IsUtf8 t := by
    intro p hp b hb l hl w hw
    have hp' : plainPage p ∈ (plainDoc doc).pages := List.mem_map_of_mem hp
    have hb' : plainBlock b ∈ (plainPage p).blocks := List.mem_map_of_mem hb
    have hl' : (⟨l.words.map plainWord⟩ : SLine) ∈ (plainBlock b).lines := List.mem_map.mpr ⟨l, hl, rfl⟩
    have hw' : plainWord w ∈ (⟨l.words.map plainWord⟩ : SLine).words := List.mem_map_of_mem hw
    refine ⟨?_, h.words _ hp' _ hb' _ hl' (plainWord w) hw', h.joined _ hp' _ hb' _ hl' (plainWord w) hw'⟩
    intro c hc
    exact h.chars _ hp' _ hb' _ hl' _ hw' (plainChar c) (List.mem_map_of_mem hc)
  exact ⟨fun p hp b hb l hl w hw => (key p hp b hb l hl w hw).1, fun p hp b hb l hl w hw => (key p hp b hb l hl w hw).2.1,
    fun p hp b hb l hl w hw => (key p hp b hb l hl w hw).2.2, fun p hp b hb => h.blocks (plainPage p) (List.mem_map_of_mem hp) (plainBlock b) (List.mem_map_of_mem hb)⟩

/-- **C89 (JSONL).** If also the names of the fonts and the ids are UTF-8, so is what the JSONL serializer writes, for all roles and units: escaping does not break characters apart. -/
theorem c89_jsonl (h : EndedRun lib n cfg d0 d) (hc : ∀ us, IsUtf8 (lib.compose us)) (h0 : ∀ p ∈ d0.pages, ∀ c ∈ p.characters, IsUtf8 c.text ∧ IsUtf8 c.textWithMark)
    {P : Printer} (hP : PrinterContract P) {doc : SDoc} (hdoc : plainDoc doc = toSDoc d) (hn : Utf8Names doc) (roles : List Role) (units : List Unit') (out : Str)
    (ho : jsonl P roles doc units = .ok out) : IsUtf8 out := by
  have hd := u8_doc h hc fun p hp c hcm => ⟨(h0 p hp c hcm).1, (h0 p hp c hcm).2⟩
  rw [← hdoc] at hd
  exact u8_jsonl hP (u8_label hd) hn roles units out ho

/-- **C89 (program).** Whatever the command line, whatever stages it skips, whatever the PDF file (if it is drawn in its order and its characters lie within the pages): what the program
writes to the standard output or into the output file is UTF-8. -/
theorem c89_program (w : Verif.EndToEnd.World) (hl : LibOk w.lib) (hc : ∀ us, IsUtf8 (w.lib.compose us)) (g : Cli.Given)
    (hr : ∀ path, g.pdfFile = [path] → w.loadError path = none → Readable w g path) (text : Str) :
    (.write (.stdout text) ∈ (Verif.EndToEnd.program w g).actions → IsUtf8 text) ∧ (∀ file, .write (.file file text) ∈ (Verif.EndToEnd.program w g).actions → IsUtf8 text) := by
  suffices hmain : ∀ x, Cli.Action.write x ∈ (Verif.EndToEnd.program w g).actions → ∀ t, (x = .stdout t ∨ ∃ file, x = .file file t) → IsUtf8 t from
    ⟨fun hm => hmain _ hm _ (.inl rfl), fun file hm => hmain _ hm _ (.inr ⟨file, rfl⟩)⟩
  intro x hx t ht
  have hout : ∀ s out, x ∈ Cli.writeOutput w.os s out → IsUtf8 s → IsUtf8 t := by
    intro s out hm hs
    unfold Cli.writeOutput at hm
    simp only at hm
    have hst : t = s → IsUtf8 t := fun e => e ▸ hs
    split at hm
    · rw [List.mem_singleton] at hm
      subst hm
      rcases ht with ht | ⟨f, ht⟩
      · cases ht; exact hs
      · cases ht
    · split at hm
      · simp only [List.mem_cons, List.not_mem_nil, or_false] at hm
        rcases hm with rfl | rfl <;> rcases ht with ht | ⟨f, ht⟩ <;> cases ht
      · split at hm
        · simp only [List.mem_cons, List.not_mem_nil, or_false] at hm
          rcases hm with rfl | rfl <;> rcases ht with ht | ⟨f, ht⟩ <;> cases ht
        · simp only [List.mem_cons, List.not_mem_nil, or_false] at hm
          rcases hm with rfl | rfl <;> rcases ht with ht | ⟨f, ht⟩
          · cases ht
          · cases ht
          · cases ht
          · cases ht; exact hs
  cases ha : Cli.parseArgs w.serializers g with
  | throw m =>
    exfalso
    revert hx
    unfold Verif.EndToEnd.program Cli.main
    rw [ha]
    simp only
    generalize (if Cli.storeOk w.serializers g then (g.flag "full-help", g.flag "help", g.flag "version") else w.seen) = sn
    split <;> [skip; split] <;> [skip; skip; split] <;> simp
  | ub m =>
    exfalso
    revert hx
    unfold Verif.EndToEnd.program Cli.main
    rw [ha]
    simp only
    generalize (if Cli.storeOk w.serializers g then (g.flag "full-help", g.flag "help", g.flag "version") else w.seen) = sn
    split <;> [skip; split] <;> [skip; skip; split] <;> simp
  | ok a =>
    obtain ⟨-, -, -, -, -, -, hpdf, -⟩ := parseArgs_ok ha
    have hsk := (c45_other_options _ g a ha).1
    -- what the engine leaves
    have heng : ∀ st doc ts, Cli.engineOf (fun path => env w.lib (w.loadError path) (Verif.EndToEnd.parse w.numbers (w.events path)) w.duration) toSDoc {} (Cli.configOf a) a.pdfFile =
        .finished st doc ts → Utf8Doc doc := by
      intro st doc ts he
      cases hL : w.loadError a.pdfFile with
      | some code =>
        obtain ⟨ts', hts, _⟩ := c44_load_failure (env w.lib (w.loadError a.pdfFile) (Verif.EndToEnd.parse w.numbers (w.events a.pdfFile)) w.duration) (Cli.configOf a) {} (some []) code hL
        rw [(pg_engine w (Cli.configOf a) a.pdfFile).1 _ _ _ hts] at he
        cases he
        refine ⟨?_, ?_, ?_, ?_⟩ <;> (intro p hp; cases hp)
      | none =>
        have hrd := hr _ hpdf hL
        have hd := pg_drawable hrd hsk
        have hE := pg_engine w (Cli.configOf a) a.pdfFile
        rw [hL] at hE
        rcases c76_failure_reasons hl hd w.duration (some []) with ⟨d', ts', hok⟩ | ⟨_, d1, _, ⟨m, _, h2⟩ | ⟨m, _, h2⟩⟩
        · rw [hE.1 _ _ _ hok] at he
          cases he
          obtain ⟨s, h1, h2⟩ := ee_parse hd
          refine u8_doc (lib := w.lib) (n := 1) (cfg := Cli.configOf a) (d0 := Verif.EndToEnd.toDocument s)
            ⟨by decide, hl, c75_parsed _ _ s h1 hd.inPage, ⟨_, _, _, _, _, h2 _ _, hok⟩⟩ hc ?_
          intro p hp c hcm
          obtain ⟨q, _, rfl⟩ := List.mem_map.mp hp
          obtain ⟨k, _, rfl⟩ := List.mem_map.mp hcm
          exact ⟨(u8_iff _).mpr ⟨_, rfl⟩, u8_nil⟩
        · rw [hE.2.1 _ h2] at he
          split at he <;> cases he
        · rw [hE.2.2 _ h2] at he
          cases he
    revert hx
    unfold Verif.EndToEnd.program Cli.main
    rw [ha]
    simp only [Cli.mainAfterParsing]
    by_cases b1 : a.printFullHelp = true
    · rw [if_pos b1]; simp
    rw [if_neg b1]
    by_cases b2 : a.printHelp = true
    · rw [if_pos b2]; simp
    rw [if_neg b2]
    by_cases b3 : a.printVersion = true
    · rw [if_pos b3]; simp
    rw [if_neg b3]
    cases he : Cli.engineOf (fun path => env w.lib (w.loadError path) (Verif.EndToEnd.parse w.numbers (w.events path)) w.duration) toSDoc {} (Cli.configOf a) a.pdfFile with
    | invalidArgument => simp
    | otherException => simp
    | finished st doc ts =>
      have hdoc := heng _ _ _ he
      simp only
      by_cases hst : st > 0
      · rw [if_pos hst]; simp
      rw [if_neg hst]
      simp only [List.mem_append]
      rintro ((hx | hx) | hx)
      · have hser : ∀ s, Cli.runSerializer a.format a.roles doc = some s → IsUtf8 s := by
          intro s hs
          revert hs
          generalize a.format = f
          cases f with
          | txt => intro hs; cases hs; exact u8_plain hdoc _
          | txtExtended => intro hs; cases hs; exact u8_extended hdoc _
          | jsonl => intro hs; cases hs
        cases hs : Cli.runSerializer a.format a.roles doc with
        | none => rw [hs] at hx; cases hx
        | some s =>
          rw [hs] at hx
          obtain ⟨y, hy, e⟩ := List.mem_map.mp hx
          cases e
          exact hout _ _ hy (hser _ hs)
      · exfalso
        generalize a.visualizationPath = v at hx
        by_cases hv : v ≠ []
        · rw [if_pos hv, List.mem_singleton] at hx; cases hx
        · rw [if_neg hv] at hx; cases hx
      · exfalso
        revert hx
        generalize (if a.visualizationPath ≠ [] then _ else _ : List (Str × ℕ)) = ts'
        intro hx
        by_cases hv : a.printRunningTimes = true
        · rw [if_pos hv, List.mem_singleton] at hx; cases hx
        · rw [if_neg hv] at hx; cases hx

/-- Limits of C89: with a block whose font name is not UTF-8, the JSONL records of the blocks are not. -/
theorem c89_font_refuted (P : Printer) (b : SBlock) (hb : ¬ IsUtf8 b.fontName) (doc : SDoc) (hdoc : ∃ p ∈ doc.pages, b ∈ p.blocks) (roles : List Role) (hr : b.role ∈ roles) :
    ∃ out, jsonl P roles doc [.textBlocks] = .ok out ∧ ¬ IsUtf8 out := by
  refine ⟨serializeTextBlocks P roles doc ++ [], rfl, ?_⟩
  rw [List.append_nil]
  have hsel : b ∈ selectedBlocks roles doc := by
    obtain ⟨p, hp, hbp⟩ := hdoc
    exact List.mem_flatMap.mpr ⟨p, hp, List.mem_filter.mpr ⟨hbp, by simpa [selected] using hr⟩⟩
  unfold serializeTextBlocks
  generalize selectedBlocks roles doc = bs at hsel
  induction bs with
  | nil => cases hsel
  | cons x bs ih =>
    rw [List.flatMap_cons]
    intro h
    unfold lineOf at h
    rw [List.append_assoc] at h
    obtain ⟨h1, h2⟩ := (u8_split (q := '\n') (by decide)).mp h
    rcases List.mem_cons.mp hsel with rfl | hm
    · obtain ⟨pre, post, e⟩ : ∃ pre post, blockRecord P b = pre ++ '"' :: (b.fontName ++ '"' :: post) := by
        refine ⟨['{'] ++ field "type" (quoted "block".toList) sepC ++ field "id" (quoted b.id) sepC ++ field "rank" (P.int b.rank) sepC ++ posFields P b.pos ++
          (quoted "font".toList ++ [':', ' ']), sepC ++ field "fontSize" (P.dbl b.fontSize) sepC ++ field "text" (quoted (escapeJson b.text)) sepC ++
          field "role" (quoted (roleName b.role)) sepC ++ tailFields, ?_⟩
        unfold blockRecord
        generalize ['{'] ++ field "type" (quoted "block".toList) sepC ++ field "id" (quoted b.id) sepC ++ field "rank" (P.int b.rank) sepC ++ posFields P b.pos = pre
        generalize tailFields = t1
        generalize field "fontSize" (P.dbl b.fontSize) sepC = t2
        generalize field "text" (quoted (escapeJson b.text)) sepC = t3
        generalize field "role" (quoted (roleName b.role)) sepC = t4
        unfold field
        generalize sepC = t5
        generalize "font".toList = t6
        simp [quoted, List.append_assoc]
      rw [e] at h1
      exact hb ((u8_split (by decide)).mp ((u8_split (by decide)).mp h1).2).1
    · exact ih hm h2

/-- Limits of C89: the function that shortens texts for the log breaks characters apart. -/
theorem c89_shorten_refuted : ∃ s, IsUtf8 s ∧ ¬ IsUtf8 (Text.shorten s) := by
  refine ⟨List.replicate 39 'a' ++ Verif.EndToEnd.utf8 ['é'] , ?_, ?_⟩
  · exact u8_append (u8_ascii (by decide +kernel)) ((u8_iff _).mpr ⟨_, rfl⟩)
  · intro h
    have e : Text.shorten (List.replicate 39 'a' ++ Verif.EndToEnd.utf8 ['é']) = List.replicate 38 'a' ++ 'a' :: ([Char.ofNat 195] ++ '.' :: ['.', '.']) := by decide +kernel
    rw [e] at h
    obtain ⟨t, h⟩ := (u8_iff _).mp ((u8_split (by decide)).mp ((u8_split (by decide)).mp h).2).1
    cases t with
    | nil => simp [Verif.EndToEnd.utf8] at h
    | cons c t =>
      have h : [Char.ofNat 195] = Verif.EndToEnd.utf8Char c ++ Verif.EndToEnd.utf8 t := h
      by_cases hc : c.toNat < 128
      · rw [(u8_char c).1 hc] at h
        have : Char.ofNat 195 = c := (List.cons.inj h).1
        rw [← this] at hc
        revert hc; decide
      · have hlen := congrArg List.length h
        have : 2 ≤ (Verif.EndToEnd.utf8Char c).length := by
          unfold Verif.EndToEnd.utf8Char
          rw [if_neg hc]
          split
          · simp
          split <;> simp
        simp at hlen
        omega

/-- Non-vacuity: a page with the rows `ab` and `cd`, labelled by ranks. -/
example : ∃ d doc, EndedRun refPipeline 1 plConfig (apDoc [apTwo 1]) d ∧ (∀ us, IsUtf8 (refPipeline.compose us)) ∧ plainDoc doc = toSDoc d ∧ Utf8Names doc ∧
    (∀ p ∈ (apDoc [apTwo 1]).pages, ∀ c ∈ p.characters, IsUtf8 c.text ∧ IsUtf8 c.textWithMark) := by
  have key : (match apRun (apDoc [apTwo 1]) with
      | .ok (c, r) => (decide (c = 0) &&
          decide (∀ p ∈ (liDoc (toSDoc r.doc)).pages, ∀ b ∈ p.blocks, (∀ c ∈ b.id, c.toNat < 128) ∧ b.fontName = ['F']) &&
          decide (∀ p ∈ (liDoc (toSDoc r.doc)).pages, ∀ b ∈ p.blocks, ∀ w ∈ b.words, (∀ c ∈ w.id, c.toNat < 128) ∧ w.fontName = ['F']) &&
          decide (∀ p ∈ (liDoc (toSDoc r.doc)).pages, ∀ b ∈ p.blocks, ∀ w ∈ b.words, ∀ c ∈ w.chars, (∀ x ∈ c.id, x.toNat < 128) ∧ c.fontName = ['F']) &&
          decide (∀ p ∈ (liDoc (toSDoc r.doc)).pages, p.figures.length = 0 ∧ p.shapes.length = 0))
      | _ => false) = true := by decide +kernel
  cases h1 : apRun (apDoc [apTwo 1]) with
  | throw m => rw [h1] at key; cases key
  | ub m => rw [h1] at key; simp at key
  | ok a =>
    obtain ⟨c, r⟩ := a
    rw [h1] at key
    simp only [Bool.and_eq_true, decide_eq_true_eq] at key
    obtain ⟨⟨⟨⟨rfl, k2⟩, k3⟩, k4⟩, k5⟩ := key
    have hF : IsUtf8 ['F'] := u8_ascii (by decide)
    refine ⟨r.doc, liDoc (toSDoc r.doc), ⟨by decide, refPipeline_ok, apDoc_parsed (ks := [1]), ⟨_, _, _, _, _, rfl, h1⟩⟩, fun _ => u8_nil, by rw [li_plain, li_toSDoc],
      ⟨?_, ?_, ?_, ?_, ?_, ?_, ?_, ?_⟩, ?_⟩
    · exact fun p hp b hb => u8_ascii (k2 p hp b hb).1
    · intro p hp b hb; rw [(k2 p hp b hb).2]; exact hF
    · exact fun p hp b hb w hw => u8_ascii (k3 p hp b hb w hw).1
    · intro p hp b hb w hw; rw [(k3 p hp b hb w hw).2]; exact hF
    · exact fun p hp b hb w hw c hc => u8_ascii (k4 p hp b hb w hw c hc).1
    · intro p hp b hb w hw c hc; rw [(k4 p hp b hb w hw c hc).2]; exact hF
    · intro p hp f hf; rw [List.length_eq_zero_iff.mp (k5 p hp).1] at hf; cases hf
    · intro p hp f hf; rw [List.length_eq_zero_iff.mp (k5 p hp).2] at hf; cases hf
    · have k6 : ∀ p ∈ (apDoc [apTwo 1]).pages, ∀ c ∈ p.characters, (∀ x ∈ c.text, x.toNat < 128) ∧ (∀ x ∈ c.textWithMark, x.toNat < 128) := by decide +kernel
      exact fun p hp c hc => ⟨u8_ascii (k6 p hp c hc).1, u8_ascii (k6 p hp c hc).2⟩

/-- Non-vacuity of the limits: a font name can be no UTF-8. -/
example : ¬ IsUtf8 [Char.ofNat 195] := by
  intro h
  obtain ⟨t, h⟩ := (u8_iff _).mp h
  cases t with
  | nil => simp [Verif.EndToEnd.utf8] at h
  | cons c t =>
    have h : [Char.ofNat 195] = Verif.EndToEnd.utf8Char c ++ Verif.EndToEnd.utf8 t := h
    by_cases hc : c.toNat < 128
    · rw [(u8_char c).1 hc] at h
      have : Char.ofNat 195 = c := (List.cons.inj h).1
      rw [← this] at hc
      revert hc; decide
    · have hlen := congrArg List.length h
      have : 2 ≤ (Verif.EndToEnd.utf8Char c).length := by
        unfold Verif.EndToEnd.utf8Char
        rw [if_neg hc]
        split
        · simp
        split <;> simp
      simp at hlen
      omega

/-- Non-vacuity: the program on a PDF file with the text `aé ©`; it is written, in UTF-8. -/
example : LibOk exWorld.lib ∧ (∀ us, IsUtf8 (exWorld.lib.compose us)) ∧
    (∀ path, (exCall "a.pdf").pdfFile = [path] → exWorld.loadError path = none → Readable exWorld (exCall "a.pdf") path) ∧
    .write (.file "b/out.txt".toList (Verif.EndToEnd.utf8 "aé ©\n".toList)) ∈ (Verif.EndToEnd.program exWorld (exCall "a.pdf")).actions := by
  refine ⟨refPipeline_ok, fun _ => u8_nil, ?_, by decide +kernel⟩
  intro path hp hL
  cases hp
  exact ⟨by decide +kernel, eeEvents_drawable.orderly, eeEvents_drawable.inPage⟩

end Verif.Props

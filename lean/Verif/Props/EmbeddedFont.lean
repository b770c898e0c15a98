import Verif.Spec.EmbeddedFont
import Verif.Props.FontInfo
import Verif.Props.GlyphTable
import Verif.Props.ParsedBoxes
import Mathlib.Tactic.Linarith

/-!
# C80: from the bytes of an embedded font file to the box of a drawn character
-/

namespace Verif.Props

open Verif Verif.Math Verif.EmbeddedFont Verif.Spec Verif.Spec.EmbeddedFont Verif.Spec.Type1 Verif.Spec.GlyphTable Verif.Parsing
  Verif.Spec.Parsing
open Verif.Text (Str)

/-! ### Reading the file -/

/-- The parts of the file are recovered. -/
theorem ef_parts (file : FontFile) (clear plain : List ℕ) (h : WrittenAs file clear plain) :
    FontInfo.parseFile .wrap file.length1 file.length2 file.stream = .ok (some (clear, some plain)) := by
  cases h with
  | bare _ lead _ trailer h0 h4 hb h1 hx h2 =>
    have pre : ∀ (a b : ℕ) (l : List ℕ), (l[0]? = some a ∧ l[1]? = some b) → [a, b] <+: l := by
      intro a b l ⟨e0, e1⟩
      match l, e0, e1 with
      | x :: y :: l, e0, e1 =>
        simp only [List.getElem?_cons_zero, List.getElem?_cons_succ, Option.some.injEq] at e0 e1
        subst e0 e1
        exact ⟨l, rfl⟩
    refine c61_font_file clear lead plain trailer h0 (fun e => h1 (pre _ _ _ e)) h4 ?_ ?_ ?_ ?_ (fun e => h2 (pre _ _ _ e))
    · intro b hm; exact hb b (by simp [hm])
    · intro b hm; exact hb b (by simp [hm])
    · intro b hm; exact hb b (by simp [hm])
    · obtain ⟨c, hc, hn⟩ := hx
      refine ⟨c, hc, ?_⟩
      cases e : Verif.Type1.isHexDigit c with
      | false => rfl
      | true => exact absurd ((c61_hex_digits c).mp e) hn
  | pfb _ lead _ trailer l1 l2 h0 h4 hb hA hE hl =>
    refine c61_pfb_file clear lead plain trailer l1 l2 h0 hA h4 hE hl ?_ ?_ ?_
    · intro b hm; exact hb b (by simp [hm])
    · intro b hm; exact hb b (by simp [hm])
    · intro b hm; exact hb b (by simp [hm])

theorem ef_glyphRun_mono (subrs : Type1.Subrs) (n k : ℕ) (cs : List ℕ) (b : ℚ × ℚ × ℚ × ℚ)
    (h : glyphRun subrs n cs = .ok (some b)) : glyphRun subrs (n + k) cs = .ok (some b) := by
  unfold glyphRun at h ⊢
  cases e : Type1.runN subrs n (Type1.start cs) with
  | throw m => rw [e] at h; cases h
  | ub m => rw [e] at h; cases h
  | ok c =>
    rw [e] at h
    obtain ⟨fr, st⟩ := c
    cases fr with
    | cons a l => cases h
    | nil => rw [gt_run_final subrs n k _ st e]; exact h

theorem ef_boxes_mono (subrs : Type1.Subrs) (n k : ℕ) : ∀ (gs : List (List ℕ × List ℕ)) (r),
    boxesN subrs n gs = .ok (some r) → boxesN subrs (n + k) gs = .ok (some r)
  | [], _, h => h
  | (name, cs) :: gs, r, h => by
    rw [boxesN] at h ⊢
    cases e : glyphRun subrs n cs with
    | throw m => rw [e] at h; cases h
    | ub m => rw [e] at h; cases h
    | ok b =>
      rw [e] at h
      cases b with
      | none => cases h
      | some b =>
        rw [ef_glyphRun_mono subrs n k cs b e]
        simp only [Outcome.bind] at h ⊢
        cases e2 : boxesN subrs n gs with
        | throw m => rw [e2] at h; cases h
        | ub m => rw [e2] at h; cases h
        | ok r2 =>
          rw [e2] at h
          cases r2 with
          | none => cases h
          | some r2 => rw [ef_boxes_mono subrs n k gs r2 e2]; exact h

theorem ef_embedded_mono (mode : Type1.IntMode) (n k : ℕ) (file : FontFile) (e) (h : embeddedN mode n file = .ok (some e)) :
    embeddedN mode (n + k) file = .ok (some e) := by
  unfold embeddedN at h ⊢
  cases e1 : FontInfo.parseFile mode file.length1 file.length2 file.stream with
  | throw m => rw [e1] at h; cases h
  | ub m => rw [e1] at h; cases h
  | ok r =>
    rw [e1] at h
    match r, h with
    | none, h => exact h
    | some (a, none), h => exact h
    | some (a, some text), h =>
      simp only [Outcome.bind] at h ⊢
      cases e2 : GlyphTable.programs mode text with
      | throw m => rw [e2] at h; cases h
      | ub m => rw [e2] at h; cases h
      | ok p =>
        rw [e2] at h
        simp only at h ⊢
        cases e3 : boxesN p.1 n p.2 with
        | throw m => rw [e3] at h; cases h
        | ub m => rw [e3] at h; cases h
        | ok b =>
          rw [e3] at h
          cases b with
          | none => cases h
          | some b => rw [ef_boxes_mono p.1 n k p.2 b e3]; exact h

/-- **C80.** Whatever the bytes of the font file are: reading it has at most one result. -/
theorem c80_reads_unique (mode : Type1.IntMode) (file : FontFile) (e1 e2) (h1 : Reads mode file e1) (h2 : Reads mode file e2) :
    e1 = e2 := by
  obtain ⟨n, h1⟩ := h1
  obtain ⟨m, h2⟩ := h2
  have h1 := ef_embedded_mono mode n m file e1 h1
  have h2 := ef_embedded_mono mode m n file e2 h2
  rw [Nat.add_comm, h1] at h2
  exact Option.some.inj (Outcome.ok.inj h2)

/-- The box lies around the outline, and each of its edges is touched by one of the defining points. -/
def BoxAround (b : ℚ × ℚ × ℚ × ℚ) (segs : List Seg) : Prop :=
  (∃ l u r w : ℤ, b = ((l : ℚ), (u : ℚ), (r : ℚ), (w : ℚ)) ∧ IsGlyphBox l u r w (points segs)) ∧
    ∀ q, OnOutline segs q → b.1 ≤ q.1 ∧ q.1 ≤ b.2.2.1 ∧ b.2.1 ≤ q.2 ∧ q.2 ≤ b.2.2.2

theorem ef_boxes (table : Type1.Subrs) (sub : ℤ → Option (List Tok))
    (hsub : ∀ i toks, sub i = some toks → ∃ bs, table.at? i = some bs ∧ Encodes toks bs) :
    ∀ (glyphs : List (List ℕ × List ℕ)) (outlines : List (List ℕ × List Seg)),
    List.Forall₂ (fun g o => g.1 = o.1 ∧ (∃ toks, Encodes toks g.2 ∧ IsGlyph sub toks o.2) ∧
      ∀ p ∈ points o.2, IsInt32 p.1 ∧ IsInt32 p.2) glyphs outlines →
    ∃ n boxes, boxesN table n glyphs = .ok (some boxes) ∧
      List.Forall₂ (fun b o => b.1 = o.1 ∧ BoxAround b.2 o.2) boxes outlines := by
  intro glyphs outlines h
  induction h with
  | nil => exact ⟨0, [], rfl, .nil⟩
  | @cons g o gs os hg _ ih =>
    obtain ⟨hname, ⟨toks, henc, hgl⟩, hint⟩ := hg
    obtain ⟨n2, boxes, h2, hall⟩ := ih
    obtain ⟨n1, st, hn, hbox, hon⟩ := c48_glyph_box_partial table sub hsub toks o.2 g.2 hgl henc hint
    have h1 : glyphRun table n1 g.2 = .ok (some (st.leftX, st.upperY, st.rightX, st.lowerY)) := by
      unfold glyphRun; rw [hn]; rfl
    refine ⟨n1 + n2, (g.1, (st.leftX, st.upperY, st.rightX, st.lowerY)) :: boxes, ?_, .cons ⟨hname, ⟨_, _, _, _, rfl, hbox⟩, ?_⟩ hall⟩
    · obtain ⟨name, cs⟩ := g
      rw [boxesN, ef_glyphRun_mono table n1 n2 cs _ h1]
      have h3 := ef_boxes_mono table n2 n1 gs boxes h2
      rw [Nat.add_comm] at h3
      simp only [Outcome.bind]
      rw [h3]; rfl
    · rintro q ⟨sg, hsg, hq⟩
      obtain ⟨a, b, c, d⟩ := hon sg hsg q.1 q.2 hq
      exact ⟨a, b, c, d⟩

theorem ef_boxOf (boxes : List (List ℕ × (ℚ × ℚ × ℚ × ℚ))) (name : Str) :
    boxOf boxes name = lastWith (name.map Char.toNat) boxes := by
  unfold boxOf
  induction boxes using List.reverseRecOn with
  | nil => rfl
  | append_singleton gs e ih =>
    obtain ⟨k, v⟩ := e
    rw [gt_lastWith_append]
    simp only [List.reverse_append, List.reverse_cons, List.reverse_nil, List.nil_append,
      List.singleton_append, List.find?_cons]
    by_cases hk : k = name.map Char.toNat
    · subst hk; simp
    · have : (k == name.map Char.toNat) = false := by rw [beq_eq_false_iff_ne]; exact hk
      rw [this, if_neg hk]
      exact ih

theorem ef_lastWith {β γ : Type} (R : β → γ → Prop) (key : List ℕ) (bs : List (List ℕ × β)) (os : List (List ℕ × γ))
    (h : List.Forall₂ (fun b o => b.1 = o.1 ∧ R b.2 o.2) bs os) :
    (∀ o, lastWith key os = some o → ∃ b, lastWith key bs = some b ∧ R b o) ∧ (lastWith key os = none → lastWith key bs = none) := by
  induction h with
  | nil => exact ⟨fun _ h => (by cases h), fun _ => rfl⟩
  | @cons b o bs os hb _ ih =>
    obtain ⟨k, v⟩ := b
    obtain ⟨k', v'⟩ := o
    obtain ⟨hk, hr⟩ := hb
    simp only at hk hr
    subst hk
    simp only [lastWith]
    cases e : lastWith key os with
    | some x =>
      obtain ⟨b', hb', hr'⟩ := ih.1 x e
      rw [hb']
      refine ⟨fun o h => ?_, fun h => by cases h⟩
      have : x = o := by simpa using h
      subst this
      exact ⟨b', rfl, hr'⟩
    | none =>
      rw [ih.2 e]
      by_cases hkk : k = key
      · simp only [hkk, Option.orElse, if_true]
        refine ⟨fun o h => ?_, fun h => by cases h⟩
        have : v' = o := by simpa using h
        subst this
        exact ⟨v, rfl, hr⟩
      · simp only [hkk, Option.orElse, if_false]
        exact ⟨fun o h => (by cases h), fun _ => trivial⟩

/-- **C80.** From a font file in binary form, with or without segment headers, the clear text and the box of every glyph's outline are
read, each under its name; of several glyphs with one name the last counts.  Reading ends and has no other result. -/
theorem c80_file_partial (file : FontFile) (lines : List Str) (outlines : List (List ℕ × List Seg)) (h : IsFont file lines outlines) :
    ∃ clear boxes, Reads .wrap file (some (clear, boxes)) ∧ IsLines lines clear ∧
      (∀ e, Reads .wrap file e → e = some (clear, boxes)) ∧
      ∀ name : Str, (∀ segs, lastWith (name.map Char.toNat) outlines = some segs → ∃ b, boxes name = some b ∧ BoxAround b segs) ∧
        (lastWith (name.map Char.toNat) outlines = none → boxes name = none) := by
  obtain ⟨clear, plain, subrs, glyphs, sub, hw, hl, hp, hsub, hg⟩ := h
  obtain ⟨table, h1, h2, h3⟩ := c68_table_partial plain subrs glyphs hp
  obtain ⟨n, boxes, hb, hall⟩ := ef_boxes table (fun i => if 0 ≤ i then sub i.toNat else none) (by
      intro i t ht
      split at ht
      · rename_i hi
        obtain ⟨b, hb1, hb2⟩ := hsub _ _ ht
        refine ⟨b, ?_, hb2⟩
        rw [← hb1, ← h2, Int.toNat_of_nonneg hi]
      · cases ht) glyphs outlines hg
  have hr : Reads .wrap file (some (chars clear, boxOf boxes)) := by
    refine ⟨n, ?_⟩
    unfold embeddedN
    rw [ef_parts file clear plain hw]
    simp only [Outcome.bind]
    rw [h1]
    simp only
    rw [hb]
    rfl
  refine ⟨_, _, hr, hl, fun e he => c80_reads_unique _ _ _ _ he hr, fun name => ?_⟩
  have := ef_lastWith BoxAround (name.map Char.toNat) boxes outlines hall
  rw [ef_boxOf]
  exact this

/-- **C80.** Whatever the bytes are: a file whose dictionary lacks one of the lengths, or has a second length that is not positive, is not
read at all. -/
theorem c80_no_lengths (mode : Type1.IntMode) (file : FontFile)
    (h : file.length1 = none ∨ file.length2 = none ∨ ∃ l2, file.length2 = some l2 ∧ l2 ≤ 0) (e) : Reads mode file e ↔ e = none := by
  have hr : Reads mode file none := by
    refine ⟨0, ?_⟩
    unfold embeddedN FontInfo.parseFile
    rcases h with h | h | ⟨l2, h, hl⟩
    · rw [h]; rfl
    · rw [h]; cases file.length1 <;> rfl
    · rw [h]
      cases file.length1 with
      | none => rfl
      | some l1 => simp only; rw [if_pos (Or.inr hl)]; rfl
  exact ⟨fun he => c80_reads_unique _ _ _ _ he hr, fun he => he ▸ hr⟩

example : (⟨some 3, some 0, [1, 2, 3]⟩ : FontFile).length2 = some 0 := rfl

/-- **C80.** A file that ends within the first four bytes after its clear text (and does not begin with a segment header) is still read: its clear
text counts, and it stores no outline, under no name. -/
theorem c80_clear_text_only (mode : Type1.IntMode) (clear rest : List ℕ) (l2 : ℤ) (h0 : clear ≠ []) (hl : 0 < l2) (hr : rest.length < 4)
    (hh : ¬ [128, 1] <+: clear ++ rest) (e) :
    Reads mode ⟨some (clear.length : ℤ), some l2, clear ++ rest⟩ e ↔ e = some (chars clear, fun _ => none) := by
  have hrd : Reads mode ⟨some (clear.length : ℤ), some l2, clear ++ rest⟩ (some (chars clear, fun _ => none)) := by
    refine ⟨0, ?_⟩
    unfold embeddedN FontInfo.parseFile
    simp only
    rw [fi_asciiStart_plain _ _ (by
      rintro ⟨e0, e1⟩
      apply hh
      generalize clear ++ rest = l at e0 e1 ⊢
      match l, e0, e1 with
      | x :: y :: l, e0, e1 =>
        simp only [List.getElem?_cons_zero, List.getElem?_cons_succ, Option.some.injEq] at e0 e1
        subst e0 e1
        exact ⟨l, rfl⟩)]
    have hpos : 0 < clear.length := List.length_pos_iff.mpr h0
    simp only
    rw [if_neg (by omega), Int.toNat_natCast, List.drop_left, List.take_left]
    have : Type1.readEncrypted l2 rest = .ok none := by
      match rest, hr with
      | [], _ => rfl
      | [_], _ => rfl
      | [_, _], _ => rfl
      | [_, _, _], _ => rfl
      | _ :: _ :: _ :: _ :: _, hr => simp at hr; omega
    unfold FontInfo.decryptedPart
    rw [this]
    rfl
  exact ⟨fun he => c80_reads_unique _ _ _ _ he hrd, fun he => he ▸ hrd⟩

/-- The premises hold for a short clear text with two bytes after it. -/
example : ([37, 33] : List ℕ) ≠ [] ∧ (0 : ℤ) < 7 ∧ ([200, 3] : List ℕ).length < 4 ∧ ¬ [128, 1] <+: ([37, 33] ++ [200, 3] : List ℕ) := by
  decide

/-! ### Drawing a character -/

theorem ef_info (numbers : Str → List ℚ) (lines : List Str) (m : Mat) (h : HasMatrix numbers lines m) (clear : Str)
    (hl : IsLines lines clear) (gfx : FontInfo.Gfx) (h6 : gfx.fontMatrix.length = 6) :
    ∃ i, FontInfo.parseAscii numbers clear (FontInfo.ofGfx gfx) = .ok i ∧ i.fontMatrix = [m.m0, m.m1, m.m2, m.m3, m.m4, m.m5] ∧
      i.ascent = 95 / 100 ∧ i.descent = - (35 / 100) ∧ i.fontName = gfx.name.getD gfx.address := by
  obtain ⟨before, line, after, text, rfl, hme, hnum, hb, ha⟩ := h
  have huniq : ∀ t', MatrixEntry line t' → t' = text := by
    intro t' ht'
    have h1 := (fi_matrixText line t').mpr ht'
    rw [(fi_matrixText line text).mpr hme] at h1
    exact (Option.some.inj h1).symm
  obtain ⟨i, hi, _, _, _, he⟩ := c62_embedded numbers clear _ (FontInfo.ofGfx gfx) hl h6 (by
    intro l hm t ht
    rcases List.mem_append.mp hm with hm | hm
    · exact hb l hm t ht
    · rcases List.mem_cons.mp hm with rfl | hm
      · rw [huniq t ht, hnum]; simp
      · exact absurd ht (ha l hm t))
  refine ⟨i, hi, ?_, ?_, ?_, ?_⟩
  · rw [c62_matrix numbers clear before after line text _ i hl h6 hb hme (by rw [hnum]; rfl) ha hi, hnum]
  · rw [he]; rfl
  · rw [he]; show (FontInfo.ofGfx gfx).descent = _; unfold FontInfo.ofGfx; norm_num
  · rw [he]; rfl

/-- A coordinate that changes with one coordinate of the glyph space only. -/
theorem ef_axis (A B C l u r w x y : ℚ) (h : A = 0 ∨ B = 0) (h1 : l ≤ x) (h2 : x ≤ r) (h3 : u ≤ y) (h4 : y ≤ w) :
    min (A * l + B * u + C) (A * r + B * w + C) ≤ A * x + B * y + C ∧
      A * x + B * y + C ≤ max (A * l + B * u + C) (A * r + B * w + C) := by
  rw [min_le_iff, le_max_iff]
  rcases h with rfl | rfl
  · rcases le_total 0 B with hB | hB
    · have e1 := mul_le_mul_of_nonneg_left h3 hB
      have e2 := mul_le_mul_of_nonneg_left h4 hB
      exact ⟨Or.inl (by linarith), Or.inr (by linarith)⟩
    · have e1 := mul_le_mul_of_nonpos_left h3 hB
      have e2 := mul_le_mul_of_nonpos_left h4 hB
      exact ⟨Or.inr (by linarith), Or.inl (by linarith)⟩
  · rcases le_total 0 A with hB | hB
    · have e1 := mul_le_mul_of_nonneg_left h1 hB
      have e2 := mul_le_mul_of_nonneg_left h2 hB
      exact ⟨Or.inl (by linarith), Or.inr (by linarith)⟩
    · have e1 := mul_le_mul_of_nonpos_left h1 hB
      have e2 := mul_le_mul_of_nonpos_left h2 hB
      exact ⟨Or.inr (by linarith), Or.inl (by linarith)⟩

/-- The two coordinates of a drawn point. -/
theorem ef_drawn (m : Mat) (ev : CharEvent) (p : ℚ × ℚ) :
    (drawnAt m ev p).1 = (concat m (renderMatrix ev)).m0 * p.1 + (concat m (renderMatrix ev)).m2 * p.2 + (concat m (renderMatrix ev)).m4 ∧
    (drawnAt m ev p).2 = (concat m (renderMatrix ev)).m1 * p.1 + (concat m (renderMatrix ev)).m3 * p.2 + (concat m (renderMatrix ev)).m5 := by
  generalize hr : renderMatrix ev = r
  unfold drawnAt Spec.Parsing.apply concat
  rw [hr]
  constructor <;> (simp only; ring)

/-- The extent of an outline along an axis that is not mixed with the other, in terms of the corners of the box. -/
theorem ef_extent (b : ℚ × ℚ × ℚ × ℚ) (segs : List Seg) (hb : BoxAround b segs) (A B C : ℚ) (h : A = 0 ∨ B = 0) (k : ℚ × ℚ → ℚ)
    (hk : ∀ p, k p = A * p.1 + B * p.2 + C) :
    Extent segs k (min (k (b.1, b.2.1)) (k (b.2.2.1, b.2.2.2))) (max (k (b.1, b.2.1)) (k (b.2.2.1, b.2.2.2))) := by
  obtain ⟨⟨l, u, r, w, rfl, hin, ⟨pl, hpl, el⟩, ⟨pr, hpr, er⟩, ⟨pu, hpu, eu⟩, ⟨pw, hpw, ew⟩⟩, _⟩ := hb
  have hbound : ∀ p ∈ points segs, min (k ((l : ℚ), (u : ℚ))) (k ((r : ℚ), (w : ℚ))) ≤ k ((p.1 : ℚ), (p.2 : ℚ)) ∧
      k ((p.1 : ℚ), (p.2 : ℚ)) ≤ max (k ((l : ℚ), (u : ℚ))) (k ((r : ℚ), (w : ℚ))) := by
    intro p hp
    obtain ⟨a1, a2, a3, a4⟩ := hin p hp
    rw [hk, hk, hk]
    exact ef_axis A B C l u r w p.1 p.2 h (by exact_mod_cast a1) (by exact_mod_cast a2) (by exact_mod_cast a3) (by exact_mod_cast a4)
  have att : (∃ p ∈ points segs, k ((p.1 : ℚ), (p.2 : ℚ)) = k ((l : ℚ), (u : ℚ))) ∧
      ∃ p ∈ points segs, k ((p.1 : ℚ), (p.2 : ℚ)) = k ((r : ℚ), (w : ℚ)) := by
    rcases h with rfl | rfl
    · exact ⟨⟨pu, hpu, by rw [hk, hk, eu]; ring⟩, ⟨pw, hpw, by rw [hk, hk, ew]; ring⟩⟩
    · exact ⟨⟨pl, hpl, by rw [hk, hk, el]; ring⟩, ⟨pr, hpr, by rw [hk, hk, er]; ring⟩⟩
  refine ⟨⟨?_, fun p hp => (hbound p hp).1⟩, ⟨?_, fun p hp => (hbound p hp).2⟩⟩
  · rcases min_choice (k ((l : ℚ), (u : ℚ))) (k ((r : ℚ), (w : ℚ))) with e | e
    · simp only [e]; exact att.1
    · simp only [e]; exact att.2
  · rcases max_choice (k ((l : ℚ), (u : ℚ))) (k ((r : ℚ), (w : ℚ))) with e | e
    · simp only [e]; exact att.1
    · simp only [e]; exact att.2

theorem ef_extent_unique (segs : List Seg) (k : ℚ × ℚ → ℚ) (a b c d : ℚ) (h1 : Extent segs k a b) (h2 : Extent segs k c d) :
    a = c ∧ b = d := by
  obtain ⟨⟨⟨p1, m1, e1⟩, l1⟩, ⟨⟨p2, m2, e2⟩, l2⟩⟩ := h1
  obtain ⟨⟨⟨p3, m3, e3⟩, l3⟩, ⟨⟨p4, m4, e4⟩, l4⟩⟩ := h2
  constructor
  · have := l1 p3 m3; have := l3 p1 m1; linarith
  · have := l2 p4 m4; have := l4 p2 m2; linarith

theorem ef_outline_extent (b : ℚ × ℚ × ℚ × ℚ) (segs : List Seg) (hb : BoxAround b segs) (A B C : ℚ) (h : A = 0 ∨ B = 0) (k : ℚ × ℚ → ℚ)
    (hk : ∀ p, k p = A * p.1 + B * p.2 + C) (q : ℚ × ℚ) (hq : OnOutline segs q) :
    min (k (b.1, b.2.1)) (k (b.2.2.1, b.2.2.2)) ≤ k q ∧ k q ≤ max (k (b.1, b.2.1)) (k (b.2.2.1, b.2.2.2)) := by
  obtain ⟨a1, a2, a3, a4⟩ := hb.2 q hq
  rw [hk, hk, hk]
  exact ef_axis A B C b.1 b.2.1 b.2.2.1 b.2.2.2 q.1 q.2 h a1 a2 a3 a4

/-- The two events: the parser makes one character, with the glyph box and the matrix of the font file. -/
theorem ef_run (t : Tables) (ef : EventFont) (file : FontFile) (lines : List Str) (outlines : List (List ℕ × List Seg)) (m : Mat)
    (hread : Reads .wrap file ef.embedded) (hfont : IsFont file lines outlines) (hm : HasMatrix t.numbers lines m)
    (h6 : ef.gfx.fontMatrix.length = 6) (s : State) (p : Page) (hp : s.page = some p)
    (hnew : findFont s.fonts (ef.gfx.name.getD ef.gfx.address) = none) (ev : CharEvent) (f : StateFont) (hf : ev.font = some f)
    (hvis : isWhitespace (charText t.charMap ev) = false) :
    ∃ (i : FontInfo.Info) (boxes : Str → Option (ℚ × ℚ × ℚ × ℚ)),
      i.fontMatrix = [m.m0, m.m1, m.m2, m.m3, m.m4, m.m5] ∧ i.ascent = 95 / 100 ∧ i.descent = - (35 / 100) ∧
      (∀ segs, lastWith ((charName ev).map Char.toNat) outlines = some segs → ∃ b, boxes (charName ev) = some b ∧ BoxAround b segs) ∧
      (lastWith ((charName ev).map Char.toNat) outlines = none → boxes (charName ev) = none) ∧
      (run t s [.updateFont (some ef), .drawChar ev]).isOk = true ∧
      history t s [.updateFont (some ef), .drawChar ev] =
        [⟨s.pages.length, ev.clip.round, .char (makeChar t.charMap ⟨i, boxes⟩ f ev p.pageNum s.numElements)⟩] := by
  obtain ⟨clear, boxes, _, hl, hall, hbox⟩ := c80_file_partial file lines outlines hfont
  obtain ⟨i, hi, e1, e2, e3, _⟩ := ef_info t.numbers lines m hm clear hl ef.gfx h6
  have hemb := hall _ hread
  have hpf : parseFont t ef = .ok ⟨i, boxes⟩ := by
    unfold parseFont; rw [hemb]; simp only; rw [hi]; rfl
  have hup : step t s (.updateFont (some ef)) =
      .ok { s with fonts := s.fonts ++ [(ef.gfx.name.getD ef.gfx.address, ⟨i, boxes⟩)], font := some ⟨i, boxes⟩ } := by
    show updateFont t (some ef) s = _
    unfold updateFont
    simp only
    rw [hnew]
    simp only
    rw [hpf]; rfl
  refine ⟨i, boxes, e1, e2, e3, (hbox _).1, (hbox _).2, ?_, ?_⟩
  · rw [run, hup]
    simp only [Outcome.bind]
    rw [run, step]
    simp only [hvis, hf, place, hp, Bool.false_eq_true, if_false, Outcome.bind]
    rw [run]; rfl
  · rw [history, hup]
    simp only [drawnBy, hvis, hf, hp, Option.toList, List.nil_append, Bool.false_eq_true, if_false, step, place, history,
      List.append_nil, Option.map_some, Option.getD_some]

/-- The box of a character whose glyph has a box. -/
theorem ef_makeChar (charMap : Str → Option (ℕ × Str)) (i : FontInfo.Info) (boxes : Str → Option (ℚ × ℚ × ℚ × ℚ)) (f : StateFont)
    (ev : CharEvent) (n : ℤ) (r : ℕ) (m : Mat) (hm : i.fontMatrix = [m.m0, m.m1, m.m2, m.m3, m.m4, m.m5])
    (b : ℚ × ℚ × ℚ × ℚ) (hb : boxes (charName ev) = some b) :
    ∃ raw : RawBox, (makeChar charMap ⟨i, boxes⟩ f ev n r).pos.leftX = deci raw.leftX ∧
      (makeChar charMap ⟨i, boxes⟩ f ev n r).pos.upperY = deci raw.upperY ∧
      (makeChar charMap ⟨i, boxes⟩ f ev n r).pos.rightX = deci raw.rightX ∧
      (makeChar charMap ⟨i, boxes⟩ f ev n r).pos.lowerY = deci raw.lowerY ∧
      (makeChar charMap ⟨i, boxes⟩ f ev n r).base = deci raw.base ∧
      raw = chooseBox (metricOf ⟨i, boxes⟩ f ev) (some (glyphBox [m.m0, m.m1, m.m2, m.m3, m.m4, m.m5] (renderMatrix ev) b)) := by
  refine ⟨_, rfl, rfl, rfl, rfl, rfl, ?_⟩
  simp only [hb, hm, Option.map_some]
  rfl

theorem ef_deci (x : ℚ) : deci x - x ≤ 1 / 20 ∧ x - deci x ≤ 1 / 20 := by
  have h := (c03_nearest x 1).2.1
  have e : (1 : ℚ) / 2 / 10 ^ 1 = 1 / 20 := by norm_num
  rw [e] at h
  have h := abs_le.mp h
  have hd : deci x = roundTo x 1 := rfl
  rw [hd]
  constructor <;> linarith [h.1, h.2]

/-- The vertical edges of the image of the glyph box. -/
theorem ef_glyph (m : Mat) (ev : CharEvent) (b : ℚ × ℚ × ℚ × ℚ) :
    (glyphBox [m.m0, m.m1, m.m2, m.m3, m.m4, m.m5] (renderMatrix ev) b).leftX =
      min (drawnAt m ev (b.1, b.2.1)).1 (drawnAt m ev (b.2.2.1, b.2.2.2)).1 ∧
    (glyphBox [m.m0, m.m1, m.m2, m.m3, m.m4, m.m5] (renderMatrix ev) b).rightX =
      max (drawnAt m ev (b.1, b.2.1)).1 (drawnAt m ev (b.2.2.1, b.2.2.2)).1 ∧
    (glyphBox [m.m0, m.m1, m.m2, m.m3, m.m4, m.m5] (renderMatrix ev) b).upperY =
      min (drawnAt m ev (b.1, b.2.1)).2 (drawnAt m ev (b.2.2.1, b.2.2.2)).2 ∧
    (glyphBox [m.m0, m.m1, m.m2, m.m3, m.m4, m.m5] (renderMatrix ev) b).lowerY =
      max (drawnAt m ev (b.1, b.2.1)).2 (drawnAt m ev (b.2.2.1, b.2.2.2)).2 ∧
    (glyphBox [m.m0, m.m1, m.m2, m.m3, m.m4, m.m5] (renderMatrix ev) b).base =
      max (drawnAt m ev (b.1, b.2.1)).2 (drawnAt m ev (b.2.2.1, b.2.2.2)).2 := by
  obtain ⟨h1, h2, h3, h4, h5, _⟩ := c63_glyph m.m0 m.m1 m.m2 m.m3 m.m4 m.m5 (renderMatrix ev) b
  exact ⟨h1, h2, h3, h4, h5.trans h4⟩

/-- **C80.** The outline stored in the embedded font file decides about the box of a drawn character.  If the vertical place of a point
of the outline depends on one of its two coordinates only (text that runs horizontally or vertically, slanted or not), then all points of the
drawn outline, on lines and on curves, lie vertically in the box of the character, up to a tenth and the rounding. -/
theorem c80_covered_partial (t : Tables) (ef : EventFont) (file : FontFile) (lines : List Str) (outlines : List (List ℕ × List Seg))
    (m : Mat) (hread : Reads .wrap file ef.embedded) (hfont : IsFont file lines outlines) (hm : HasMatrix t.numbers lines m)
    (h6 : ef.gfx.fontMatrix.length = 6) (s : State) (p : Page) (hp : s.page = some p)
    (hnew : findFont s.fonts (ef.gfx.name.getD ef.gfx.address) = none) (ev : CharEvent) (f : StateFont) (hf : ev.font = some f)
    (hvis : isWhitespace (charText t.charMap ev) = false) (segs : List Seg)
    (ho : lastWith ((charName ev).map Char.toNat) outlines = some segs)
    (hax : (concat m (renderMatrix ev)).m1 = 0 ∨ (concat m (renderMatrix ev)).m3 = 0) :
    ∃ c, (run t s [.updateFont (some ef), .drawChar ev]).isOk = true ∧
      history t s [.updateFont (some ef), .drawChar ev] = [⟨s.pages.length, ev.clip.round, .char c⟩] ∧
      ∀ q, OnOutline segs q →
        c.pos.upperY - 3 / 20 ≤ (drawnAt m ev q).2 ∧ (drawnAt m ev q).2 ≤ c.pos.lowerY + 3 / 20 := by
  obtain ⟨i, boxes, e1, _, _, hb, _, hok, hh⟩ := ef_run t ef file lines outlines m hread hfont hm h6 s p hp hnew ev f hf hvis
  refine ⟨_, hok, hh, fun q hq => ?_⟩
  obtain ⟨b, hb, har⟩ := hb segs ho
  obtain ⟨raw, _, hu, _, hl, _, hraw⟩ := ef_makeChar t.charMap i boxes f ev p.pageNum s.numElements m e1 b hb
  rw [hu, hl]
  obtain ⟨_, _, gu, gl, _⟩ := ef_glyph m ev b
  obtain ⟨o1, o2⟩ := ef_outline_extent b segs har _ _ _ hax (fun q => (drawnAt m ev q).2) (fun q => (ef_drawn m ev q).2) q hq
  simp only [← gu, ← gl] at o1 o2
  have d1 := ef_deci raw.upperY
  have d2 := ef_deci raw.lowerY
  generalize hg : glyphBox [m.m0, m.m1, m.m2, m.m3, m.m4, m.m5] (renderMatrix ev) b = g at hraw o1 o2
  have hch := c63_choice (metricOf ⟨i, boxes⟩ f ev) g
  by_cases hc : g.upperY < (metricOf ⟨i, boxes⟩ f ev).upperY - 1 / 10 ∨ g.lowerY > (metricOf ⟨i, boxes⟩ f ev).lowerY + 1 / 10
  · rw [hch.1 hc] at hraw
    subst hraw
    constructor <;> linarith [d1.1, d1.2, d2.1, d2.2]
  · rw [not_or, not_lt, not_lt] at hc
    rw [hch.2.1 hc.1 hc.2] at hraw
    subst hraw
    constructor <;> linarith [d1.1, d1.2, d2.1, d2.2, hc.1, hc.2]

/-- **C80.** The box of a character of upright horizontal text, exactly.  Let `u` and `w` be the highest and the lowest place of the
drawn outline.  If it reaches more than a tenth above the ascent or below the descent, the box is the one of the outline, in both
directions, and the base line is its lower edge; otherwise the box reaches from pen to pen and from ascent to descent, whatever the
outline is. -/
theorem c80_box_partial (t : Tables) (ef : EventFont) (file : FontFile) (lines : List Str) (outlines : List (List ℕ × List Seg))
    (m : Mat) (hread : Reads .wrap file ef.embedded) (hfont : IsFont file lines outlines) (hm : HasMatrix t.numbers lines m)
    (h6 : ef.gfx.fontMatrix.length = 6) (s : State) (p : Page) (hp : s.page = some p)
    (hnew : findFont s.fonts (ef.gfx.name.getD ef.gfx.address) = none) (ev : CharEvent) (f : StateFont) (hf : ev.font = some f)
    (hvis : isWhitespace (charText t.charMap ev) = false) (hw : f.wMode = false) (hrot : charRotation f ev = 0)
    (segs : List Seg) (ho : lastWith ((charName ev).map Char.toNat) outlines = some segs)
    (hax : (concat m (renderMatrix ev)).m1 = 0 ∨ (concat m (renderMatrix ev)).m3 = 0)
    (hay : (concat m (renderMatrix ev)).m0 = 0 ∨ (concat m (renderMatrix ev)).m2 = 0)
    (l r u w : ℚ) (hx : Extent segs (fun q => (drawnAt m ev q).1) l r) (hy : Extent segs (fun q => (drawnAt m ev q).2) u w) :
    ∃ c, (run t s [.updateFont (some ef), .drawChar ev]).isOk = true ∧
      history t s [.updateFont (some ef), .drawChar ev] = [⟨s.pages.length, ev.clip.round, .char c⟩] ∧
      let pen := Spec.Parsing.apply ev.ctm (Spec.Parsing.apply (textMatrix ev) (0, ev.rise))
      let next := Spec.Parsing.apply ev.ctm (Spec.Parsing.apply (textMatrix ev) (f.width * ev.fontSize * ev.horizScaling, 0))
      let top := pen.2 - 95 / 100 * ev.transformedFontSize
      let bottom := pen.2 + 35 / 100 * ev.transformedFontSize
      (u < top - 1 / 10 ∨ bottom + 1 / 10 < w →
        (c.pos.leftX, c.pos.upperY, c.pos.rightX, c.pos.lowerY, c.base) = (deci l, deci u, deci r, deci w, deci w)) ∧
      (top - 1 / 10 ≤ u → w ≤ bottom + 1 / 10 →
        (c.pos.leftX, c.pos.upperY, c.pos.rightX, c.pos.lowerY, c.base) =
          (deci pen.1, deci top, deci next.1, deci bottom, deci pen.2)) := by
  obtain ⟨i, boxes, e1, ea, ed, hb, _, hok, hh⟩ := ef_run t ef file lines outlines m hread hfont hm h6 s p hp hnew ev f hf hvis
  refine ⟨_, hok, hh, ?_⟩
  obtain ⟨b, hb, har⟩ := hb segs ho
  obtain ⟨raw, h1, h2, h3, h4, h5, hraw⟩ := ef_makeChar t.charMap i boxes f ev p.pageNum s.numElements m e1 b hb
  obtain ⟨g1, g2, g3, g4, g5⟩ := ef_glyph m ev b
  obtain ⟨x1, x2⟩ := ef_extent_unique segs _ _ _ _ _ hx
    (ef_extent b segs har _ _ _ hay (fun q => (drawnAt m ev q).1) (fun q => (ef_drawn m ev q).1))
  obtain ⟨y1, y2⟩ := ef_extent_unique segs _ _ _ _ _ hy
    (ef_extent b segs har _ _ _ hax (fun q => (drawnAt m ev q).2) (fun q => (ef_drawn m ev q).2))
  rw [← x1] at g1
  rw [← x2] at g2
  rw [← y1] at g3
  rw [← y2] at g4 g5
  obtain ⟨p1, p2⟩ := c63_pen f ev
  have hmet : metricOf ⟨i, boxes⟩ f ev = ⟨(renderMatrix ev).m4, (renderMatrix ev).m5 - 95 / 100 * ev.transformedFontSize,
      (nextMatrix f ev).m4, (renderMatrix ev).m5 + 35 / 100 * ev.transformedFontSize, (renderMatrix ev).m5⟩ := by
    unfold metricOf metricBox
    rw [hw, hrot, ea, ed]
    simp only [Bool.false_eq_true, if_false, if_true, RawBox.mk.injEq, true_and, and_true]
    constructor <;> ring
  simp only [h1, h2, h3, h4, h5, ← p1, ← p2]
  generalize hg : glyphBox [m.m0, m.m1, m.m2, m.m3, m.m4, m.m5] (renderMatrix ev) b = g at *
  have hch := c63_choice (metricOf ⟨i, boxes⟩ f ev) g
  rw [hmet] at hch hraw
  refine ⟨fun h => ?_, fun h h' => ?_⟩
  · rw [hch.1 (by rw [g3, g4]; exact h)] at hraw
    rw [hraw, g1, g2, g3, g4, g5]
  · rw [hch.2.1 (by rw [g3]; exact h) (by rw [g4]; exact h')] at hraw
    rw [hraw]

/-- **C80.** A glyph that the font file does not contain leaves the box from pen to pen and from ascent to descent. -/
theorem c80_unknown_glyph_partial (t : Tables) (ef : EventFont) (file : FontFile) (lines : List Str) (outlines : List (List ℕ × List Seg))
    (m : Mat) (hread : Reads .wrap file ef.embedded) (hfont : IsFont file lines outlines) (hm : HasMatrix t.numbers lines m)
    (h6 : ef.gfx.fontMatrix.length = 6) (s : State) (p : Page) (hp : s.page = some p)
    (hnew : findFont s.fonts (ef.gfx.name.getD ef.gfx.address) = none) (ev : CharEvent) (f : StateFont) (hf : ev.font = some f)
    (hvis : isWhitespace (charText t.charMap ev) = false) (hw : f.wMode = false) (hrot : charRotation f ev = 0)
    (ho : lastWith ((charName ev).map Char.toNat) outlines = none) :
    ∃ c, (run t s [.updateFont (some ef), .drawChar ev]).isOk = true ∧
      history t s [.updateFont (some ef), .drawChar ev] = [⟨s.pages.length, ev.clip.round, .char c⟩] ∧
      let pen := Spec.Parsing.apply ev.ctm (Spec.Parsing.apply (textMatrix ev) (0, ev.rise))
      let next := Spec.Parsing.apply ev.ctm (Spec.Parsing.apply (textMatrix ev) (f.width * ev.fontSize * ev.horizScaling, 0))
      (c.pos.leftX, c.pos.upperY, c.pos.rightX, c.pos.lowerY, c.base) =
        (deci pen.1, deci (pen.2 - 95 / 100 * ev.transformedFontSize), deci next.1,
          deci (pen.2 + 35 / 100 * ev.transformedFontSize), deci pen.2) := by
  obtain ⟨i, boxes, e1, ea, ed, _, hb, hok, hh⟩ := ef_run t ef file lines outlines m hread hfont hm h6 s p hp hnew ev f hf hvis
  refine ⟨_, hok, hh, ?_⟩
  obtain ⟨h1, h2, h3, h4, h5, _⟩ := c63_upright_box t.charMap ⟨i, boxes⟩ f ev p.pageNum s.numElements hw hrot (hb ho)
  simp only [h1, h2, h3, h4, h5, ea, ed]
  rw [neg_mul, sub_neg_eq_add]

/-! ### An example -/

/-- A glyph of 1100 units height. -/
def exTall : List ℕ := [149, 248, 136, 13, 250, 224, 7, 14]

/-- A glyph that is 990 units wide, but advances the pen only by 500. -/
def exWide : List ℕ := [149, 248, 136, 13, 250, 114, 6, 14]

/-- The part of the example that contains the glyphs. -/
def exGlyphs : List ℕ :=
  ascii " 2 index /CharStrings 2 dict dup begin\n" ++
  ascii "/tall 12 RD " ++ encrypt 4330 ([0, 0, 0, 0] ++ exTall) ++ ascii " ND\n" ++
  ascii "/wide 12 RD " ++ encrypt 4330 ([9, 9, 9, 9] ++ exWide) ++ ascii " ND\nend end\n"

/-- The private part of the example. -/
def exFontPrivate : List ℕ := exPrivate0 ++ exPrivate1 ++ ascii "ND\n" ++ exGlyphs

/-- The clear-text part of the example. -/
def exFontClear : List ℕ := ascii "%!\n/FontMatrix [0.001 0 0 0.001 0 0 ]readonly def\n"

/-- The font file of the example, without segment headers. -/
def exFontFile : FontFile :=
  ⟨some exFontClear.length, some ([200, 2, 3, 4] ++ exFontPrivate).length,
    exFontClear ++ encrypt 55665 ([200, 2, 3, 4] ++ exFontPrivate) ++ ascii "0000\ncleartomark\n"⟩

/-- The outlines of the example. -/
def exOutlines : List (List ℕ × List Seg) :=
  [(ascii "tall", [.set 10 0, .line 10 0 10 1100]), (ascii "wide", [.set 10 0, .line 10 0 1000 0])]

/-- The lines of the clear-text part of the example. -/
def exFileLines : List Str := ["%!".toList, "/FontMatrix [0.001 0 0 0.001 0 0 ]readonly def".toList]

theorem ef_ex_private : PrivatePart exFontPrivate [(0, exSubr)] [(ascii "tall", exTall), (ascii "wide", exWide)] := by
  refine ⟨4, exFontPrivate.take 43, exSubrsText, ascii "\n" ++ exGlyphs,
    exPrivate0 ++ exPrivate1 ++ ascii "ND\n" ++ ascii " 2 index ", exGlyphs.drop 21, ?_, ?_, ?_, ?_, ?_, ?_, ?_⟩
  · refine Or.inr ⟨exFontPrivate.take 30, ascii "4", exFontPrivate.drop 39, ?_, ?_, by norm_num⟩
    · have h := gt_firstWord (ascii "/lenIV ") exFontPrivate 30 (by decide +kernel)
      have e : exFontPrivate.drop (30 + (ascii "/lenIV ").length) = ascii "4" ++ 32 :: exFontPrivate.drop 39 := by
        decide +kernel
      rwa [e] at h
    · refine ⟨by decide, by decide, by decide⟩
  · have h := gt_firstWord (ascii "/Subrs") exFontPrivate 43 (by decide +kernel)
    have e : exFontPrivate.drop (43 + (ascii "/Subrs").length) =
        exSubrsText ++ ascii "ND" ++ (ascii "\n" ++ exGlyphs) := by decide +kernel
    rwa [e] at h
  · have h := gt_firstWord (ascii "ND") (exSubrsText ++ ascii "ND" ++ (ascii "\n" ++ exGlyphs)) 31
      (by decide +kernel)
    have e1 : (exSubrsText ++ ascii "ND" ++ (ascii "\n" ++ exGlyphs)).take 31 = exSubrsText := by
      decide +kernel
    have e2 : (exSubrsText ++ ascii "ND" ++ (ascii "\n" ++ exGlyphs)).drop (31 + (ascii "ND").length) =
      ascii "\n" ++ exGlyphs := by decide +kernel
    rwa [e1, e2] at h
  · have e : exSubrsText = ascii " 1 array\n" ++ exPrivate1 := rfl
    rw [e]
    refine SubrEntries.subr (ascii " 1 array\n") exPrivate1 (ascii "0") (ascii "7")
      (encrypt 4330 ([1, 2, 3, 4] ++ exSubr) ++ ascii " NP\n") exSubr 0 7 [] ?_ ?_ ?_ (by norm_num) ?_ ?_ ?_
    · exact gt_noSubr_of _ _ (by decide +kernel)
    · exact (gt_matchDup _ _ _ _).mp (by decide +kernel)
    · exact ⟨by decide, by decide, by decide⟩
    · exact ⟨by decide, by decide, by decide⟩
    · exact ⟨[1, 2, 3, 4], ascii " NP\n", rfl, rfl, rfl, by norm_num, by decide⟩
    · exact SubrEntries.none _ (gt_noSubr_of _ _ (by decide +kernel))
  · have h := gt_firstWord (ascii "/CharStrings") exFontPrivate 92 (by decide +kernel)
    have e1 : exFontPrivate.take 92 = exPrivate0 ++ exPrivate1 ++ ascii "ND\n" ++ ascii " 2 index " := by
      decide +kernel
    have e2 : exFontPrivate.drop (92 + (ascii "/CharStrings").length) = exGlyphs.drop 21 := by decide +kernel
    rwa [e1, e2] at h
  · exact (gt_find_isSome _ _).mp (by decide +kernel)
  · have e : exGlyphs.drop 21 = (exGlyphs.drop 21).take 18 ++ exGlyphs.drop 39 := by decide +kernel
    rw [e]
    refine GlyphEntries.glyph _ _ (ascii "tall") (ascii "12") (exGlyphs.drop 51) exTall 12 _ ?_ ?_ ?_ ?_ ?_
    · exact gt_noGlyph_of _ _ (by decide +kernel)
    · exact (gt_matchGlyph _ _ _ _).mp (by decide +kernel)
    · exact ⟨by decide, by decide, by decide⟩
    · exact ⟨[0, 0, 0, 0], exGlyphs.drop 63, by decide +kernel, rfl, rfl, by norm_num, by decide⟩
    · have e : exGlyphs.drop 51 = (exGlyphs.drop 51).take 16 ++ exGlyphs.drop 67 := by
        decide +kernel
      rw [e]
      refine GlyphEntries.glyph _ _ (ascii "wide") (ascii "12") (exGlyphs.drop 79) exWide 12 _ ?_ ?_ ?_ ?_ ?_
      · exact gt_noGlyph_of _ _ (by decide +kernel)
      · exact (gt_matchGlyph _ _ _ _).mp (by decide +kernel)
      · exact ⟨by decide, by decide, by decide⟩
      · exact ⟨[9, 9, 9, 9], exGlyphs.drop 91, by decide +kernel, rfl, rfl, by norm_num, by decide⟩
      · exact GlyphEntries.none _ (gt_noGlyph_of _ _ (by decide +kernel))

theorem ef_ex_encodes (t : Tok) (ht : ∀ v, t ≠ .num v) (v : ℤ) (a b : ℕ) (h1 : 108 ≤ v) (h2 : v ≤ 1131)
    (ha : a = (247 + (v - 108) / 256).toNat) (hb : b = ((v - 108) % 256).toNat) :
    Encodes [.num 10, .num 500, .hsbw, .num v, t, .endchar] ([149, 248, 136, 13, a, b] ++ (code t ++ [14])) := by
  subst ha hb
  refine Encodes.num 10 [149] _ _ (NumEnc.one 10 (by norm_num) (by norm_num)) ?_
  refine Encodes.num 500 [248, 136] _ _ (NumEnc.pos 500 (by norm_num) (by norm_num)) ?_
  refine Encodes.cmd .hsbw _ _ (by intro v; simp) ?_
  refine Encodes.num v [_, _] _ _ (NumEnc.pos v h1 h2) ?_
  refine Encodes.cmd t _ _ ht ?_
  exact Encodes.cmd .endchar _ _ (by intro v; simp) Encodes.nil

/-- Non-vacuity: the example is a font file with these outlines. -/
theorem ef_example : IsFont exFontFile exFileLines exOutlines := by
  refine ⟨exFontClear, exFontPrivate, _, _, fun _ => none, ?_, ?_, ef_ex_private, fun _ _ h => (by cases h), ?_⟩
  · refine WrittenAs.bare exFontClear [200, 2, 3, 4] exFontPrivate (ascii "0000\ncleartomark\n") (by decide) rfl (by decide +kernel)
      ?_ (by decide +kernel) ?_
    · decide +kernel
    · decide +kernel
  · have e : exFontClear.map Char.ofNat = "%!".toList ++ '\n' :: ("/FontMatrix [0.001 0 0 0.001 0 0 ]readonly def".toList ++ '\n' :: []) := by
      decide +kernel
    rw [e]
    exact IsLines.cons "%!".toList _ _ (by decide +kernel)
      (IsLines.cons "/FontMatrix [0.001 0 0 0.001 0 0 ]readonly def".toList _ _ (by decide +kernel) IsLines.nil)
  · refine .cons ⟨rfl, ⟨_, ef_ex_encodes .vlineto (by intro v; simp) 1100 250 224 (by norm_num) (by norm_num) (by decide) (by decide), ?_⟩, ?_⟩
      (.cons ⟨rfl, ⟨_, ef_ex_encodes .hlineto (by intro v; simp) 990 250 114 (by norm_num) (by norm_num) (by decide) (by decide), ?_⟩, ?_⟩ .nil)
    · refine ⟨[.num 10, .num 500, .hsbw, .num 1100, .vlineto], ⟨10, 0 + 1100, [], []⟩, rfl, ?_, 10, 0, _, rfl⟩
      exact .cmd _ _ _ _ _ [] _ (Effect.num ..) <| .cmd _ _ _ _ _ [] _ (Effect.num ..) <|
        .cmd _ _ _ _ _ [.set 10 0] [.line 10 0 10 1100] (Effect.hsbw ..) <| .cmd _ _ _ _ _ [] _ (Effect.num ..) <|
        .cmd _ _ _ _ _ [.line 10 0 10 1100] [] (Effect.vlineto ..) (.nil _)
    · unfold IsInt32; decide
    · refine ⟨[.num 10, .num 500, .hsbw, .num 990, .hlineto], ⟨10 + 990, 0, [], []⟩, rfl, ?_, 10, 0, _, rfl⟩
      exact .cmd _ _ _ _ _ [] _ (Effect.num ..) <| .cmd _ _ _ _ _ [] _ (Effect.num ..) <|
        .cmd _ _ _ _ _ [.set 10 0] [.line 10 0 1000 0] (Effect.hsbw ..) <| .cmd _ _ _ _ _ [] _ (Effect.num ..) <|
        .cmd _ _ _ _ _ [.line 10 0 1000 0] [] (Effect.hlineto ..) (.nil _)
    · unfold IsInt32; decide

/-- The matrix of the example. -/
def exMat : Mat := ⟨1 / 1000, 0, 0, 1 / 1000, 0, 0⟩

/-- The numbers of a text, for the example. -/
def exNumbers (_ : Str) : List ℚ := [1 / 1000, 0, 0, 1 / 1000, 0, 0]

theorem ef_ex_matrix : HasMatrix exNumbers exFileLines exMat := by
  refine ⟨["%!".toList], "/FontMatrix [0.001 0 0 0.001 0 0 ]readonly def".toList, [], "0.001 0 0 0.001 0 0 ".toList, rfl, ?_, rfl,
    fun _ _ _ _ => Nat.le_refl 6, fun _ h => (by cases h)⟩
  exact (fi_matrixText _ _).mp (by decide +kernel)

/-- The event that draws the glyph of the given name. -/
def exDraw (name : String) : CharEvent :=
  { exCharEvent 1 with font := some { exStateFont with charName := name.toList } }

theorem ef_ex_extents :
    Extent [.set 10 0, .line 10 0 10 1100] (fun q => (drawnAt exMat (exDraw "tall") q).1) (1001 / 10) (1001 / 10) ∧
    Extent [.set 10 0, .line 10 0 10 1100] (fun q => (drawnAt exMat (exDraw "tall") q).2) 189 200 ∧
    Extent [.set 10 0, .line 10 0 1000 0] (fun q => (drawnAt exMat (exDraw "wide") q).1) (1001 / 10) 110 ∧
    Extent [.set 10 0, .line 10 0 1000 0] (fun q => (drawnAt exMat (exDraw "wide") q).2) 200 200 := by
  unfold Extent IsLeastOf IsGreatestOf
  decide +kernel

/-- The font of the example as Poppler reports it. -/
def exFileGfx : FontInfo.Gfx := ⟨[], some "Example".toList, false, false, false, false, false, false, 400, [1, 0, 0, 1, 0, 0]⟩

/-- The state at the start of a page. -/
def exStart : State := { page := some { pageNum := 1, clip := ⟨0, 0, 600, 800⟩, content := {}, figures := [] } }

/-- Non-vacuity: the character with the tall glyph has the box (100.1, 189) - (100.1, 200) of its outline and the base line 200. -/
example (e) (he : Reads .wrap exFontFile e) (charMap : Str → Option (ℕ × Str)) (hc : charMap "tall".toList = none) :
    ∃ c, history ⟨charMap, exNumbers⟩ exStart [.updateFont (some ⟨exFileGfx, e⟩), .drawChar (exDraw "tall")] =
        [⟨0, (exDraw "tall").clip.round, .char c⟩] ∧
      (c.pos.leftX, c.pos.upperY, c.pos.rightX, c.pos.lowerY, c.base) = (1001 / 10, 189, 1001 / 10, 200, 200) := by
  have hv : charText charMap (exDraw "tall") = "A".toList := by
    have h1 : charName (exDraw "tall") = "tall".toList := rfl
    unfold charText
    rw [if_pos (by rfl), h1, hc]
    rfl
  obtain ⟨c, _, h1, h2, _⟩ := c80_box_partial ⟨charMap, exNumbers⟩ ⟨exFileGfx, e⟩ exFontFile exFileLines exOutlines exMat he ef_example
    ef_ex_matrix rfl exStart _ rfl rfl (exDraw "tall") { exStateFont with charName := "tall".toList } rfl
    (by rw [hv]; decide +kernel) rfl (by decide +kernel) _ (by decide +kernel) (Or.inl (by decide +kernel)) (Or.inr (by decide +kernel))
    _ _ _ _ ef_ex_extents.1 ef_ex_extents.2.1
  refine ⟨c, h1, ?_⟩
  rw [h2 (Or.inl (by decide +kernel))]
  decide +kernel

/-- **C80 is false horizontally**: if the outline stays between ascent and descent, the box ends at the next pen position, however far
the outline reaches.  Here it reaches 5 units beyond the right edge, of a character that is 5 units wide. -/
theorem c80_overhang_refuted (e) (he : Reads .wrap exFontFile e) (charMap : Str → Option (ℕ × Str)) (hc : charMap "wide".toList = none) :
    ∃ c, history ⟨charMap, exNumbers⟩ exStart [.updateFont (some ⟨exFileGfx, e⟩), .drawChar (exDraw "wide")] =
        [⟨0, (exDraw "wide").clip.round, .char c⟩] ∧ c.pos.leftX = 100 ∧ c.pos.rightX = 105 ∧
      ∃ q, OnOutline [.set 10 0, .line 10 0 1000 0] q ∧ (drawnAt exMat (exDraw "wide") q).1 = 110 := by
  have hv : charText charMap (exDraw "wide") = "A".toList := by
    have h1 : charName (exDraw "wide") = "wide".toList := rfl
    unfold charText
    rw [if_pos (by rfl), h1, hc]
    rfl
  obtain ⟨c, _, h1, _, h2⟩ := c80_box_partial ⟨charMap, exNumbers⟩ ⟨exFileGfx, e⟩ exFontFile exFileLines exOutlines exMat he ef_example
    ef_ex_matrix rfl exStart _ rfl rfl (exDraw "wide") { exStateFont with charName := "wide".toList } rfl
    (by rw [hv]; decide +kernel) rfl (by decide +kernel) _ (by decide +kernel) (Or.inl (by decide +kernel)) (Or.inr (by decide +kernel))
    _ _ _ _ ef_ex_extents.2.2.1 ef_ex_extents.2.2.2
  have h2 := h2 (by decide +kernel) (by decide +kernel)
  simp only [Prod.mk.injEq] at h2
  refine ⟨c, h1, ?_, ?_, (1000, 0), ⟨_, List.mem_cons_of_mem _ (List.mem_singleton.mpr rfl), 1, by norm_num, by norm_num, by norm_num, by norm_num⟩, by decide +kernel⟩
  · rw [h2.1]; decide +kernel
  · rw [h2.2.2.1]; decide +kernel

/-- Non-vacuity: the file of the example can be read. -/
example : ∃ e, Reads .wrap exFontFile e := by
  obtain ⟨_, _, h, _⟩ := c80_file_partial _ _ _ ef_example
  exact ⟨_, h⟩

end Verif.Props

import Verif.Spec.Visualization
import Verif.Lemmas.Math

/-!
# C72: the visualization shows what was detected
-/

namespace Verif.Props

open Verif.Visualization Verif.Elements Verif.Math Verif.Spec.Visualization
open Verif.ReadingOrder (Role)

theorem vi_height {pdf : Pdf} {n : ℤ} (h : Pdf.Has pdf n) : pdf.height n = .ok (pdf.mediaHeight n) := by
  unfold Pdf.height
  exact if_pos h

theorem vi_frame {pdf : Pdf} {cs : Scheme} {b : Box} (h : Pdf.Has pdf b.pageNum) :
    drawBoundingBox pdf cs b = .ok [⟨b.pageNum, .square (boxRect (pdf.mediaHeight b.pageNum) b) cs.primary none⟩] := by
  unfold drawBoundingBox
  rw [vi_height h]; rfl

theorem vi_role {pdf : Pdf} {b : Box × Role} (h : Pdf.Has pdf b.1.pageNum) :
    drawRole pdf b = .ok [⟨b.1.pageNum, .text ⟨b.1.leftX, pdf.mediaHeight b.1.pageNum - b.1.upperY, b.1.leftX + 100,
      pdf.mediaHeight b.1.pageNum - b.1.upperY + 7⟩ roleAppearance (convertToUtf16 pdf (Serialize.roleName b.2))⟩] := by
  unfold drawRole
  rw [vi_height h]; rfl

theorem vi_frames (H : ℚ) (b : Box) : Frames H b (boxRect H b) := by
  have e : ∀ x y : ℚ, smaller |x - y| 1 tol = true ↔ |y - x| < 1 - tol := by
    intro x y
    rw [smaller_iff, abs_sub_comm]
  have e2 : ∀ x y : ℚ, |H - y - (H - x)| = |y - x| := by
    intro x y
    have : H - y - (H - x) = x - y := by ring
    rw [this, abs_sub_comm]
  unfold boxRect
  refine ⟨rfl, rfl, ⟨?_, ?_⟩, ?_, ?_⟩
  · intro h
    exact if_pos ((e _ _).mpr h)
  · intro h
    exact if_neg (by rw [e]; exact not_lt.mpr h)
  · intro h
    refine if_pos ?_
    rw [smaller_iff, e2]; exact h
  · intro h
    refine if_neg ?_
    rw [smaller_iff, e2]; exact not_lt.mpr h

theorem vi_drawAll {α : Type} (f : α → Outcome (List Annot)) (R : α → List Annot → Prop) (as : List α)
    (h : ∀ a ∈ as, ∃ x, f a = .ok x ∧ R a x) : ∃ xs, List.Forall₂ R as xs ∧ drawAll f as = .ok xs.flatten := by
  induction as with
  | nil => exact ⟨[], .nil, rfl⟩
  | cons a as ih =>
    obtain ⟨x, h1, h2⟩ := h a (by simp)
    obtain ⟨xs, h3, h4⟩ := ih fun b hb => h b (by simp [hb])
    refine ⟨x :: xs, .cons h2 h3, ?_⟩
    unfold drawAll
    rw [h1, h4]
    rfl

theorem vi_boxes (pdf : Pdf) (cs : Scheme) (bs : List Box) (h : ∀ b ∈ bs, Pdf.Has pdf b.pageNum) :
    ∃ as, drawAll (drawBoundingBox pdf cs) bs = .ok as ∧ List.Forall₂ (FrameOf pdf cs.primary) bs as := by
  induction bs with
  | nil => exact ⟨[], rfl, .nil⟩
  | cons b bs ih =>
    obtain ⟨as, h1, h2⟩ := ih fun x hx => h x (by simp [hx])
    refine ⟨⟨b.pageNum, .square (boxRect (pdf.mediaHeight b.pageNum) b) cs.primary none⟩ :: as, ?_, .cons ⟨rfl, _, rfl, vi_frames _ _⟩ h2⟩
    rw [drawAll, vi_frame (h b (by simp)), h1]
    rfl

theorem vi_drawAll_append {α : Type} (f : α → Outcome (List Annot)) (as bs : List α) :
    drawAll f (as ++ bs) = (drawAll f as).bind fun x => (drawAll f bs).bind fun y => .ok (x ++ y) := by
  induction as with
  | nil =>
    simp only [List.nil_append, drawAll, Outcome.bind]
    cases drawAll f bs <;> rfl
  | cons a as ih =>
    simp only [List.cons_append, drawAll, ih]
    cases f a with
    | ok x =>
      simp only [Outcome.bind]
      cases drawAll f as with
      | ok y =>
        simp only
        cases drawAll f bs with
        | ok z => simp
        | _ => rfl
      | _ => rfl
    | _ => rfl

/-- Drawing the boxes of all pages is drawing all boxes. -/
theorem vi_drawAll_flatMap {α β : Type} (g : α → List β) (f : β → Outcome (List Annot)) (as : List α) :
    drawAll (fun a => drawAll f (g a)) as = drawAll f (as.flatMap g) := by
  induction as with
  | nil => rfl
  | cons a as ih =>
    rw [List.flatMap_cons, vi_drawAll_append, drawAll, ih]

/-- **C72 (boxes).** For characters, figures, shapes, graphics, words and text lines, the option draws exactly one blue frame per element, in their order, on the page of the element and around its box. -/
theorem c72_boxes (pdf : Pdf) (pages : List DrawnPage) (kind : String) (shown : DrawnPage → List Box) (hk : (kind, shown) ∈ boxesOf)
    (h : ∀ p ∈ pages, ∀ b ∈ shown p, Pdf.Has pdf b.pageNum) :
    ∃ as, visualize pdf [kind] pages = .ok as ∧ List.Forall₂ (FrameOf pdf (0, 0, 1)) (pages.flatMap shown) as := by
  have key : ∀ p, drawKind pdf kind p = drawAll (drawBoundingBox pdf blue) (shown p) := by
    intro p
    simp only [boxesOf, List.mem_cons, Prod.mk.injEq, List.not_mem_nil, or_false] at hk
    rcases hk with ⟨rfl, rfl⟩ | ⟨rfl, rfl⟩ | ⟨rfl, rfl⟩ | ⟨rfl, rfl⟩ | ⟨rfl, rfl⟩ | ⟨rfl, rfl⟩
    · rfl
    · rfl
    · rfl
    · rfl
    · rfl
    · exact vi_drawAll_flatMap _ _ _
  obtain ⟨as, h1, h2⟩ := vi_boxes pdf blue (pages.flatMap shown) (by
    intro b hb
    obtain ⟨p, hp, hb⟩ := List.mem_flatMap.mp hb
    exact h p hp b hb)
  refine ⟨as, ?_, h2⟩
  unfold visualize
  have : drawAll (drawKind pdf kind) pages = .ok as := by
    rw [show drawKind pdf kind = fun p => drawAll (drawBoundingBox pdf blue) (shown p) from funext key, vi_drawAll_flatMap, h1]
  rw [drawAll, this]
  simp [Outcome.bind, drawAll]

/-- **C72 (frames are visible).** The frame of a well-formed box encloses the box, extends it by at most 1 and is at least 1 (minus the tolerance) wide and high, so that lines are visible, too. -/
theorem c72_frame_visible (H : ℚ) (b : Box) (r : Rect) (h : Frames H b r) (h1 : b.leftX ≤ b.rightX) (h2 : b.upperY ≤ b.lowerY) :
    r.x1 = b.leftX ∧ b.rightX ≤ r.x2 ∧ r.x2 ≤ b.rightX + 1 ∧ r.y1 = H - b.lowerY ∧ H - b.upperY ≤ r.y2 ∧ r.y2 ≤ H - b.upperY + 1 ∧
    1 - tol ≤ r.x2 - r.x1 ∧ 1 - tol ≤ r.y2 - r.y1 := by
  have t := tol_pos
  have a1 : |b.rightX - b.leftX| = b.rightX - b.leftX := abs_of_nonneg (by linarith)
  have a2 : |b.lowerY - b.upperY| = b.lowerY - b.upperY := abs_of_nonneg (by linarith)
  obtain ⟨l, bo, ⟨ri1, ri2⟩, to1, to2⟩ := h
  rw [a1] at ri1 ri2
  rw [a2] at to1 to2
  rw [l, bo]
  have hx : (r.x2 = b.rightX + 1) ∨ (r.x2 = b.rightX ∧ 1 - tol ≤ b.rightX - b.leftX) := by
    rcases lt_or_ge (b.rightX - b.leftX) (1 - tol) with h | h
    · exact Or.inl (ri1 h)
    · exact Or.inr ⟨ri2 h, h⟩
  have hy : (r.y2 = H - b.upperY + 1) ∨ (r.y2 = H - b.upperY ∧ 1 - tol ≤ b.lowerY - b.upperY) := by
    rcases lt_or_ge (b.lowerY - b.upperY) (1 - tol) with h | h
    · exact Or.inl (to1 h)
    · exact Or.inr ⟨to2 h, h⟩
  rcases hx with hx | ⟨hx, hx'⟩ <;> rcases hy with hy | ⟨hy, hy'⟩ <;> rw [hx, hy] <;>
    refine ⟨rfl, ?_, ?_, rfl, ?_, ?_, ?_, ?_⟩ <;> linarith

/-- **C72 (texts).** Printable ASCII texts are written as the same texts in UTF-16. -/
theorem c72_text (pdf : Pdf) (h : Pdf.Ascii pdf) (s : Text.Str) (hs : Plain s) : convertToUtf16 pdf s = utf16 s := by
  unfold convertToUtf16 utf16
  show 254 :: 255 :: _ = _
  congr 2
  apply List.flatMap_congr
  intro c hc
  obtain ⟨h1, h2⟩ := hs c hc
  have e1 : c.toNat % 256 = c.toNat := by omega
  have e2 : c.toNat % 65536 = c.toNat := by omega
  simp only [e1, h _ h1 h2, e2]
  have : c.toNat / 256 % 256 = c.toNat / 256 := by omega
  rw [this]

theorem vi_decimal (i : ℕ) : Plain (decimal i) := by
  intro c hc
  unfold decimal at hc
  rw [Nat.repr_eq_ofList_toDigits, String.toList_ofList] at hc
  have := Nat.isDigit_of_mem_toDigits (by norm_num) (by norm_num) hc
  simp only [Char.isDigit, Bool.and_eq_true, decide_eq_true_iff] at this
  have h1 : (48 : UInt32).toNat ≤ c.val.toNat := this.1
  have h2 : c.val.toNat ≤ (57 : UInt32).toNat := this.2
  have e1 : (48 : UInt32).toNat = 48 := rfl
  have e2 : (57 : UInt32).toNat = 57 := rfl
  show 32 ≤ c.val.toNat ∧ c.val.toNat < 127
  omega

theorem vi_roleName (r : Role) : Plain (Serialize.roleName r) := by
  cases r <;> (unfold Plain; decide +kernel)

theorem vi_lineOf (n : ℤ) (m : Mark) : lineOf ⟨n, m⟩ = match m with | .line x1 y1 x2 y2 _ c => some (n, (x1, y1), (x2, y2), c) | _ => none := by
  cases m <;> rfl

theorem vi_circleOf (n : ℤ) (m : Mark) : circleOf ⟨n, m⟩ = match m with | .circle r c _ => some (n, r, c) | _ => none := by
  cases m <;> rfl

theorem vi_squareOf (n : ℤ) (m : Mark) : squareOf ⟨n, m⟩ = match m with | .square r c _ => some (n, r, c) | _ => none := by
  cases m <;> rfl

theorem vi_textOf (ap : List Char) (n : ℤ) (m : Mark) :
    textOf ap ⟨n, m⟩ = match m with | .text r a t => if a = ap then some (n, r, t) else none | _ => none := by
  cases m <;> rfl

theorem vi_white : indexAppearance = white := rfl

theorem vi_midpoint (H : ℚ) (b : Box) : midpoint H b = center H b := by
  unfold midpoint center
  simp only [Prod.mk.injEq]
  constructor <;> ring

/-- What is drawn of the blocks. -/
theorem vi_blocks (pdf : Pdf) (ha : Pdf.Ascii pdf) (cs : Scheme) (p : DrawnPage) (h : ∀ b ∈ p.blocks, Pdf.Has pdf b.1.pageNum) :
    ∃ frames roles, drawBlocks pdf cs p = .ok (frames ++ roles) ∧
      List.Forall₂ (fun (b : Box × Role) a => FrameOf pdf cs.primary b.1 a) p.blocks frames ∧
      roles.map (textOf blueText) = p.blocks.map fun (b : Box × Role) =>
        let y := pdf.mediaHeight b.1.pageNum - b.1.upperY
        some (b.1.pageNum, (⟨b.1.leftX, y, b.1.leftX + 100, y + 7⟩ : Rect), utf16 (Serialize.roleName b.2)) := by
  have h1 : ∃ frames, drawAll (fun b : Box × Role => drawBoundingBox pdf cs b.1) p.blocks = .ok frames ∧
      List.Forall₂ (fun (b : Box × Role) a => FrameOf pdf cs.primary b.1 a) p.blocks frames := by
    generalize p.blocks = bs at h
    induction bs with
    | nil => exact ⟨[], rfl, .nil⟩
    | cons b bs ih =>
      obtain ⟨as, h1, h2⟩ := ih fun x hx => h x (by simp [hx])
      refine ⟨⟨b.1.pageNum, .square (boxRect (pdf.mediaHeight b.1.pageNum) b.1) cs.primary none⟩ :: as, ?_, .cons ⟨rfl, _, rfl, vi_frames _ _⟩ h2⟩
      rw [drawAll, vi_frame (h b (by simp)), h1]
      rfl
  have h2 : ∃ roles, drawAll (drawRole pdf) p.blocks = .ok roles ∧
      roles.map (textOf blueText) = p.blocks.map fun (b : Box × Role) =>
        let y := pdf.mediaHeight b.1.pageNum - b.1.upperY
        some (b.1.pageNum, (⟨b.1.leftX, y, b.1.leftX + 100, y + 7⟩ : Rect), utf16 (Serialize.roleName b.2)) := by
    generalize p.blocks = bs at h
    clear h1
    induction bs with
    | nil => exact ⟨[], rfl, rfl⟩
    | cons b bs ih =>
      obtain ⟨as, h1, h2⟩ := ih fun x hx => h x (by simp [hx])
      rw [drawAll, vi_role (h b (by simp)), h1]
      refine ⟨_, rfl, ?_⟩
      rw [List.map_append, h2, List.map_cons]
      have : roleAppearance = blueText := rfl
      simp [textOf, this, c72_text pdf ha _ (vi_roleName b.2)]
  obtain ⟨frames, f1, f2⟩ := h1
  obtain ⟨roles, r1, r2⟩ := h2
  refine ⟨frames, roles, ?_, f2, r2⟩
  unfold drawBlocks
  rw [f1, r1]; rfl

theorem vi_single (pdf : Pdf) (kind : String) (p : DrawnPage) (as : List Annot) (h : drawKind pdf kind p = .ok as) : visualize pdf [kind] [p] = .ok as := by
  show drawAll (fun kind => drawAll (drawKind pdf kind) [p]) [kind] = _
  have : drawAll (drawKind pdf kind) [p] = .ok as := by
    rw [drawAll, h]
    simp [Outcome.bind, drawAll]
  rw [drawAll, this]
  simp [Outcome.bind, drawAll]

/-- **C72 (text blocks).** For every block of every page, the option draws a red frame, and above its left upper corner its role. -/
theorem c72_text_blocks (pdf : Pdf) (ha : Pdf.Ascii pdf) (p : DrawnPage) (h : ∀ b ∈ p.blocks, Pdf.Has pdf b.1.pageNum) :
    ∃ frames roles, visualize pdf ["visualize-text-blocks"] [p] = .ok (frames ++ roles) ∧
      List.Forall₂ (fun (b : Box × Role) a => FrameOf pdf (1, 0, 0) b.1 a) p.blocks frames ∧
      roles.map (textOf blueText) = p.blocks.map fun (b : Box × Role) =>
        let y := pdf.mediaHeight b.1.pageNum - b.1.upperY
        some (b.1.pageNum, (⟨b.1.leftX, y, b.1.leftX + 100, y + 7⟩ : Rect), utf16 (Serialize.roleName b.2)) := by
  obtain ⟨frames, roles, h1, h2, h3⟩ := vi_blocks pdf ha red p h
  exact ⟨frames, roles, vi_single pdf _ p _ h1, h2, h3⟩

/-- What the loop of the reading order draws. -/
structure OrderDrawn (pdf : Pdf) (cs : Scheme) (H : ℚ) (n : ℤ) (i : ℕ) (prev : Box) (rest : List Box) (as : List Annot) : Prop where
  lines : as.filterMap lineOf = ((prev :: rest).zip rest).map fun q => (n, center H q.1, center H q.2, cs.secondary)
  circles : rest ≠ [] → as.filterMap circleOf = (prev :: rest).map fun b => (n, around (center H b), cs.primary)
  numbers : rest ≠ [] → as.filterMap (textOf white) = ((prev :: rest).zipIdx i).map fun q => (n, numberRect (center H q.1), utf16 (decimal q.2))

theorem vi_order (pdf : Pdf) (ha : Pdf.Ascii pdf) (cs : Scheme) (n : ℤ) (hn : Pdf.Has pdf n) :
    ∀ (rest : List Box) (i : ℕ) (prev : Box), (∀ b ∈ rest, b.pageNum = n) →
      ∃ as, orderLoop pdf cs i prev rest = .ok as ∧ OrderDrawn pdf cs (pdf.mediaHeight n) n i prev rest as := by
  intro rest
  induction rest with
  | nil =>
    intro i prev _
    exact ⟨[], rfl, by simp, fun h => absurd rfl h, fun h => absurd rfl h⟩
  | cons curr rest ih =>
    intro i prev h
    obtain ⟨as, h1, h2⟩ := ih (i + 1) curr fun b hb => h b (by simp [hb])
    have hc := h curr (by simp)
    unfold orderLoop
    rw [hc, vi_height hn]
    simp only [Outcome.bind]
    rw [h1]
    refine ⟨_, rfl, ?_, ?_, ?_⟩
    · simp only [vi_midpoint]
      rw [List.filterMap_append, h2.lines]
      by_cases hr : rest = []
      · subst hr; rfl
      · have : rest.isEmpty = false := by simpa using hr
        simp only [this]
        rfl
    · intro _
      simp only [vi_midpoint]
      rw [List.filterMap_append]
      by_cases hr : rest = []
      · subst hr
        have : as = [] := by cases h1; rfl
        subst this
        rfl
      · have : rest.isEmpty = false := by simpa using hr
        simp only [this]
        rw [h2.circles hr]
        rfl
    · intro _
      simp only [vi_midpoint]
      rw [List.filterMap_append]
      have e : ∀ (x : ℚ × ℚ) k, (indexCircle pdf cs n x.1 x.2 k).filterMap (textOf white) = [(n, numberRect x, utf16 (decimal k))] := by
        intro x k
        have q : (5 : ℚ) * (6 / 10) = 3 := by norm_num
        have q2 : convertToUtf16 pdf (Nat.repr k).toList = utf16 (decimal k) := c72_text pdf ha _ (vi_decimal k)
        unfold indexCircle
        simp only [q2, q]
        show List.filterMap _ [_, _] = _
        simp [List.filterMap_cons, vi_textOf, vi_white, numberRect]
      by_cases hr : rest = []
      · subst hr
        have : as = [] := by cases h1; rfl
        subst this
        simp only [List.isEmpty_nil, if_true, List.filterMap_append, e, List.filterMap_nil, List.append_nil]
        rfl
      · have : rest.isEmpty = false := by simpa using hr
        simp only [this, List.filterMap_append, e]
        rw [h2.numbers hr]
        rfl

/-- **C72 (reading order).** On a page with at least two blocks, lines join the centers of consecutive blocks, and a circle at the center of each block contains its position in the reading order. -/
theorem c72_reading_order (pdf : Pdf) (ha : Pdf.Ascii pdf) (cs : Scheme) (n : ℤ) (hn : Pdf.Has pdf n) (bs : List Box) (hb : ∀ b ∈ bs, b.pageNum = n)
    (h2 : 2 ≤ bs.length) :
    ∃ as, drawReadingOrder pdf cs bs = .ok as ∧
      as.filterMap lineOf = (bs.zip bs.tail).map (fun q => (n, center (pdf.mediaHeight n) q.1, center (pdf.mediaHeight n) q.2, cs.secondary)) ∧
      as.filterMap circleOf = bs.map (fun b => (n, around (center (pdf.mediaHeight n) b), cs.primary)) ∧
      as.filterMap (textOf white) = (bs.zipIdx 1).map (fun q => (n, numberRect (center (pdf.mediaHeight n) q.1), utf16 (decimal q.2))) := by
  match bs, h2, hb with
  | prev :: curr :: rest, _, hb =>
    obtain ⟨as, h1, h⟩ := vi_order pdf ha cs n hn (curr :: rest) 1 prev fun b hb' => hb b (by simp only [List.mem_cons] at hb' ⊢; tauto)
    exact ⟨as, h1, h.lines, h.circles (by simp), h.numbers (by simp)⟩

/-- **C72, refuted part.** A single block gets no number. -/
theorem c72_single_block_refuted (pdf : Pdf) (cs : Scheme) (b : Box) : drawReadingOrder pdf cs [b] = .ok [] := rfl

/-- Everything about the cuts that is drawn. -/
theorem vi_cuts (pdf : Pdf) (ha : Pdf.Ascii pdf) (cs : Scheme) :
    ∀ (cuts : List DrawnCut) (k : ℕ), (∀ c ∈ cuts, Pdf.Has pdf c.pageNum ∧ Plain c.id) →
      ∃ as, cutsLoop pdf cs k cuts = .ok as ∧
        as.filterMap lineOf = cuts.map (fun c => (c.pageNum, (c.x1, pdf.mediaHeight c.pageNum - c.y1), (c.x2, pdf.mediaHeight c.pageNum - c.y2),
          if c.isChosen then cs.primary else (7 / 10, 7 / 10, 7 / 10))) ∧
        as.filterMap squareOf = (cuts.filter (·.isChosen)).map (fun c => (c.pageNum, around (c.x1, pdf.mediaHeight c.pageNum - c.y1), cs.secondary)) ∧
        as.filterMap (textOf white) = ((cuts.filter (·.isChosen)).zipIdx (k + 1)).map (fun q =>
          (q.1.pageNum, numberRect (q.1.x1, pdf.mediaHeight q.1.pageNum - q.1.y1), utf16 (decimal q.2))) ∧
        (as.filterMap (textOf grayText)).map (fun t => (t.1, t.2.2)) = cuts.map (fun c => (c.pageNum, utf16 c.id)) := by
  intro cuts
  induction cuts with
  | nil => intro k _; exact ⟨[], rfl, rfl, rfl, rfl, rfl⟩
  | cons c cuts ih =>
    intro k h
    obtain ⟨hp, hid⟩ := h c (by simp)
    have q : (5 : ℚ) * (6 / 10) = 3 := by norm_num
    have q2 : ∀ k, convertToUtf16 pdf (Nat.toDigits 10 k) = utf16 (decimal k) := by
      intro k
      have := c72_text pdf ha _ (vi_decimal k)
      rw [← this]
      unfold decimal
      rw [Nat.repr_eq_ofList_toDigits, String.toList_ofList]
    have q3 := c72_text pdf ha _ hid
    have d1 : (indexAppearance = grayText) = False := by decide
    have d2 : (cutIdAppearance = white) = False := by decide
    have d3 : cutIdAppearance = grayText := rfl
    unfold cutsLoop
    rw [vi_height hp]
    simp only [Outcome.bind]
    cases hc : c.isChosen with
    | true =>
      obtain ⟨as, h1, h2, h3, h4, h5⟩ := ih (k + 1) fun x hx => h x (by simp [hx])
      simp only [if_true]
      rw [h1]
      refine ⟨_, rfl, ?_, ?_, ?_, ?_⟩
      · simp [List.filterMap_append, h2, List.filterMap_cons, vi_lineOf, hc]
      · simp [List.filterMap_append, h3, List.filterMap_cons, vi_squareOf, hc, around]
      · simp [List.filterMap_append, h4, List.filterMap_cons, vi_textOf, hc, vi_white, d2, q, q2, numberRect]
      · simp [List.filterMap_append, h5, List.filterMap_cons, vi_textOf, hc, d1, d3, q3]
    | false =>
      obtain ⟨as, h1, h2, h3, h4, h5⟩ := ih k fun x hx => h x (by simp [hx])
      simp only [Bool.false_eq_true, if_false]
      rw [h1]
      refine ⟨_, rfl, ?_, ?_, ?_, ?_⟩
      · simp [List.filterMap_append, h2, List.filterMap_cons, vi_lineOf, hc, gray]
      · simp [List.filterMap_append, h3, List.filterMap_cons, vi_squareOf, hc]
      · simp [List.filterMap_append, h4, List.filterMap_cons, vi_textOf, hc, d2]
      · simp [List.filterMap_append, h5, List.filterMap_cons, vi_textOf, d3, q3]

/-- **C72 (cuts).** Every cut is drawn as a line with its id; the chosen cuts are colored and numbered 1, 2, ... in their order, the others are gray and not numbered. -/
theorem c72_cuts (pdf : Pdf) (ha : Pdf.Ascii pdf) (cs : Scheme) (cuts : List DrawnCut) (h : ∀ c ∈ cuts, Pdf.Has pdf c.pageNum ∧ Plain c.id) :
    ∃ as, drawCuts pdf cs cuts = .ok as ∧
      as.filterMap lineOf = cuts.map (fun c => (c.pageNum, (c.x1, pdf.mediaHeight c.pageNum - c.y1), (c.x2, pdf.mediaHeight c.pageNum - c.y2),
        if c.isChosen then cs.primary else (7 / 10, 7 / 10, 7 / 10))) ∧
      as.filterMap squareOf = (cuts.filter (·.isChosen)).map (fun c => (c.pageNum, around (c.x1, pdf.mediaHeight c.pageNum - c.y1), cs.secondary)) ∧
      as.filterMap (textOf white) = ((cuts.filter (·.isChosen)).zipIdx 1).map (fun q =>
        (q.1.pageNum, numberRect (q.1.x1, pdf.mediaHeight q.1.pageNum - q.1.y1), utf16 (decimal q.2))) ∧
      (as.filterMap (textOf grayText)).map (fun t => (t.1, t.2.2)) = cuts.map (fun c => (c.pageNum, utf16 c.id)) :=
  vi_cuts pdf ha cs cuts 0 h

/-- **C72 (option for the cuts).** The two options for the cuts draw the cuts of the page segmentation and of the reading order detection, chosen ones in blue. -/
theorem c72_option_cuts (pdf : Pdf) (ha : Pdf.Ascii pdf) (p : DrawnPage) (kind : String) (cuts : List DrawnCut)
    (hk : (kind = "visualize-segment-cuts" ∧ cuts = p.segmentCuts) ∨ (kind = "visualize-reading-order-cuts" ∧ cuts = p.orderCuts))
    (h : ∀ c ∈ cuts, Pdf.Has pdf c.pageNum ∧ Plain c.id) :
    ∃ as, visualize pdf [kind] [p] = .ok as ∧
      as.filterMap lineOf = cuts.map (fun c => (c.pageNum, (c.x1, pdf.mediaHeight c.pageNum - c.y1), (c.x2, pdf.mediaHeight c.pageNum - c.y2),
        if c.isChosen then (0, 0, 1) else (7 / 10, 7 / 10, 7 / 10))) ∧
      as.filterMap squareOf = (cuts.filter (·.isChosen)).map (fun c => (c.pageNum, around (c.x1, pdf.mediaHeight c.pageNum - c.y1), (1 / 2, 1 / 2, 1))) ∧
      as.filterMap (textOf white) = ((cuts.filter (·.isChosen)).zipIdx 1).map (fun q =>
        (q.1.pageNum, numberRect (q.1.x1, pdf.mediaHeight q.1.pageNum - q.1.y1), utf16 (decimal q.2))) ∧
      (as.filterMap (textOf grayText)).map (fun t => (t.1, t.2.2)) = cuts.map (fun c => (c.pageNum, utf16 c.id)) := by
  obtain ⟨as, h1, h2⟩ := c72_cuts pdf ha blue cuts h
  refine ⟨as, vi_single pdf kind p as ?_, h2⟩
  rcases hk with ⟨rfl, rfl⟩ | ⟨rfl, rfl⟩
  · exact h1
  · exact h1

/-- **C72 (option for the reading order).** The option draws blue frames and the roles of the blocks, light blue lines between the centers of consecutive blocks, and circles with the positions in the reading order. -/
theorem c72_option_reading_order (pdf : Pdf) (ha : Pdf.Ascii pdf) (p : DrawnPage) (n : ℤ) (hn : Pdf.Has pdf n) (hb : ∀ b ∈ p.blocks, b.1.pageNum = n) (h2 : 2 ≤ p.blocks.length) :
    ∃ frames roles order, visualize pdf ["visualize-reading-order"] [p] = .ok (frames ++ roles ++ order) ∧
      List.Forall₂ (fun (b : Box × Role) a => FrameOf pdf (0, 0, 1) b.1 a) p.blocks frames ∧
      roles.map (textOf blueText) = (p.blocks.map fun (b : Box × Role) =>
        let y := pdf.mediaHeight b.1.pageNum - b.1.upperY
        some (b.1.pageNum, (⟨b.1.leftX, y, b.1.leftX + 100, y + 7⟩ : Rect), utf16 (Serialize.roleName b.2))) ∧
      order.filterMap lineOf = (p.blocks.zip p.blocks.tail).map (fun q => (n, center (pdf.mediaHeight n) q.1.1, center (pdf.mediaHeight n) q.2.1, (1 / 2, 1 / 2, 1))) ∧
      order.filterMap circleOf = p.blocks.map (fun b => (n, around (center (pdf.mediaHeight n) b.1), (0, 0, 1))) ∧
      order.filterMap (textOf white) = (p.blocks.zipIdx 1).map (fun q => (n, numberRect (center (pdf.mediaHeight n) q.1.1), utf16 (decimal q.2))) := by
  obtain ⟨frames, roles, h3, h4, h5⟩ := vi_blocks pdf ha blue p fun b hb' => by rw [hb b hb']; exact hn
  obtain ⟨order, e1, e2, e3, e4⟩ := c72_reading_order pdf ha blue n hn (p.blocks.map (·.1)) (by simpa using fun a b hab => hb _ hab) (by simpa using h2)
  refine ⟨frames, roles, order, vi_single pdf _ p _ ?_, h4, h5, ?_, ?_, ?_⟩
  · show ((drawBlocks pdf blue p).bind fun x => (drawReadingOrder pdf blue (p.blocks.map (·.1))).bind fun y => .ok (x ++ y)) = _
    rw [h3, e1]; rfl
  · rw [e2, ← List.map_tail, List.zip_map, List.map_map]; rfl
  · rw [e3, List.map_map]; rfl
  · rw [e4, List.zipIdx_map, List.map_map]; rfl

/-- **C72 (only what was asked for).** Each option adds its annotations and leaves the others alone; without an option nothing is drawn. -/
theorem c72_options (pdf : Pdf) (pages : List DrawnPage) (ks ls : List String) :
    visualize pdf [] pages = .ok [] ∧
    visualize pdf (ks ++ ls) pages = (visualize pdf ks pages).bind fun x => (visualize pdf ls pages).bind fun y => .ok (x ++ y) :=
  ⟨rfl, vi_drawAll_append _ _ _⟩

theorem vi_ok {α : Type} (f : α → Outcome (List Annot)) (as : List α) (h : ∀ a ∈ as, (f a).isOk = true) : (drawAll f as).isOk = true := by
  obtain ⟨xs, _, h2⟩ := vi_drawAll f (fun _ _ => True) as (fun a ha => by
    have := h a ha
    cases hf : f a with
    | ok x => exact ⟨x, rfl, trivial⟩
    | throw m => rw [hf] at this; cases this
    | ub m => rw [hf] at this; cases this)
  rw [h2]; rfl

theorem vi_bind_ok {α β : Type} {x : Outcome α} {f : α → Outcome β} (h1 : x.isOk = true) (h2 : ∀ a, (f a).isOk = true) : (x.bind f).isOk = true := by
  cases x with
  | ok a => exact h2 a
  | throw m => cases h1
  | ub m => cases h1

theorem vi_box_ok (pdf : Pdf) (cs : Scheme) (b : Box) (h : Pdf.Has pdf b.pageNum) : (drawBoundingBox pdf cs b).isOk = true := by
  unfold drawBoundingBox
  rw [vi_height h]; rfl

theorem vi_order_ok (pdf : Pdf) (cs : Scheme) : ∀ (rest : List Box) (i : ℕ) (prev : Box), (∀ b ∈ rest, Pdf.Has pdf b.pageNum) →
    (orderLoop pdf cs i prev rest).isOk = true := by
  intro rest
  induction rest with
  | nil => intro i prev _; rfl
  | cons c rest ih =>
    intro i prev h
    unfold orderLoop
    rw [vi_height (h c (by simp))]
    exact vi_bind_ok rfl fun _ => vi_bind_ok (ih _ _ fun b hb => h b (by simp [hb])) fun _ => rfl

theorem vi_cuts_ok (pdf : Pdf) (cs : Scheme) : ∀ (cuts : List DrawnCut) (k : ℕ), (∀ c ∈ cuts, Pdf.Has pdf c.pageNum) →
    (cutsLoop pdf cs k cuts).isOk = true := by
  intro cuts
  induction cuts with
  | nil => intro k _; rfl
  | cons c cuts ih =>
    intro k h
    unfold cutsLoop
    rw [vi_height (h c (by simp))]
    exact vi_bind_ok rfl fun _ => vi_bind_ok (ih _ fun b hb => h b (by simp [hb])) fun _ => rfl

/-- **C72 (no failure).** If every element knows its page and the PDF file has this page, every combination of options works. -/
theorem c72_no_failure (pdf : Pdf) (pages : List DrawnPage) (kinds : List String)
    (h : ∀ p ∈ pages, ∃ n, Pdf.Has pdf n ∧ OnPage n p) : (visualize pdf kinds pages).isOk = true := by
  refine vi_ok _ _ fun kind _ => vi_ok _ _ fun p hp => ?_
  obtain ⟨n, hn, h⟩ := h p hp
  have hb : ∀ (cs : Scheme) (bs : List Box), (∀ b ∈ bs, b.pageNum = n) → (drawAll (drawBoundingBox pdf cs) bs).isOk = true :=
    fun cs bs hbs => vi_ok _ _ fun b hb => vi_box_ok _ _ _ (by rw [hbs b hb]; exact hn)
  have hblocks : ∀ cs, (drawBlocks pdf cs p).isOk = true := by
    intro cs
    refine vi_bind_ok (vi_ok _ _ fun b hb => vi_box_ok _ _ _ (by rw [h.blocks b hb]; exact hn)) fun _ => ?_
    refine vi_bind_ok (vi_ok _ _ fun b hb => ?_) fun _ => rfl
    unfold drawRole
    rw [h.blocks b hb, vi_height hn]; rfl
  unfold drawKind
  split
  · exact hb _ _ h.characters
  · exact hb _ _ h.figures
  · exact hb _ _ h.shapes
  · exact hb _ _ h.graphics
  · exact hb _ _ h.words
  · exact vi_ok _ _ fun s hs => hb _ _ (h.lines s hs)
  · exact hblocks _
  · refine vi_ok _ _ fun s hs => ?_
    unfold drawSegment
    refine vi_bind_ok (vi_box_ok _ _ _ (by rw [h.segments s hs]; exact hn)) fun _ => ?_
    refine vi_bind_ok (vi_ok _ _ fun b _ => vi_box_ok _ _ _ ?_) fun _ => rfl
    show Pdf.Has pdf s.pos.pageNum
    rw [h.segments s hs]; exact hn
  · refine vi_bind_ok (hblocks _) fun _ => vi_bind_ok ?_ fun _ => rfl
    have hall : ∀ b ∈ p.blocks.map (·.1), Pdf.Has pdf b.pageNum := by
      intro b hb'
      obtain ⟨x, hx, rfl⟩ := List.mem_map.mp hb'
      rw [h.blocks x hx]; exact hn
    cases hbs : p.blocks.map (·.1) with
    | nil => rfl
    | cons b bs =>
      rw [hbs] at hall
      exact vi_order_ok pdf blue bs 1 b fun x hx => hall x (by simp [hx])
  · exact vi_cuts_ok _ _ _ _ fun c hc => by rw [h.segmentCuts c hc]; exact hn
  · exact vi_cuts_ok _ _ _ _ fun c hc => by rw [h.orderCuts c hc]; exact hn
  · rfl

/-- **C72 (necessity of the hypothesis).** An element with a page number outside of the file crashes the program. -/
theorem c72_missing_page (pdf : Pdf) (cs : Scheme) (b : Box) (h : ¬ Pdf.Has pdf b.pageNum) : (drawBoundingBox pdf cs b).isUb = true := by
  have e : pdf.height b.pageNum = .ub "page does not exist" := if_neg h
  unfold drawBoundingBox
  rw [e]; rfl

/-- A file with two pages. -/
def exPdf : Pdf := ⟨2, fun _ => 792, id⟩

/-- Non-vacuity: a page with two blocks and a thin line. -/
def exDrawn : DrawnPage where
  shapes := [{ pageNum := 1, leftX := 10, upperY := 20, rightX := 110, lowerY := 20 }]
  blocks := [({ pageNum := 1, leftX := 10, upperY := 30, rightX := 110, lowerY := 50 }, .title),
    ({ pageNum := 1, leftX := 10, upperY := 60, rightX := 110, lowerY := 80 }, .paragraph)]

example : Pdf.Has exPdf 1 ∧ Pdf.Ascii exPdf ∧ OnPage 1 exDrawn := by
  refine ⟨by unfold Pdf.Has exPdf; norm_num, fun b _ _ => rfl, ?_⟩
  constructor <;> simp [exDrawn]

example : (visualize exPdf ["visualize-shapes"] [exDrawn] = .ok [⟨1, .square ⟨10, 772, 110, 773⟩ (0, 0, 1) none⟩]) ∧
    ((match visualize exPdf ["visualize-reading-order"] [exDrawn] with | .ok as => as.filterMap lineOf | _ => []) =
      [(1, (60, 752), (60, 722), (1 / 2, 1 / 2, 1))]) := by
  decide +kernel

/-- Non-vacuity of the claims about single options: a page with two blocks and two cuts. -/
example : Pdf.Has exPdf 1 ∧ (∀ b ∈ exDrawn.blocks, b.1.pageNum = 1) ∧ 2 ≤ exDrawn.blocks.length ∧
    ∀ c ∈ [(⟨"ab".toList, .x, 1, 10, 20, 10, 90, true⟩ : DrawnCut), ⟨"cd".toList, .y, 1, 0, 50, 100, 50, false⟩], Pdf.Has exPdf c.pageNum ∧ Plain c.id := by
  refine ⟨by unfold Pdf.Has exPdf; norm_num, by simp [exDrawn], by decide, ?_⟩
  unfold Pdf.Has Plain exPdf
  simp

end Verif.Props

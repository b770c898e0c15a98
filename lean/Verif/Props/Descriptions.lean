import Verif.Spec.Descriptions
import Verif.Props.Jsonl

/-!
# C95: the descriptions of elements identify them
-/

namespace Verif.Props

open Verif.Text (Str)
open Verif.Descriptions Verif.Spec
open Verif.Serialize (Printer Role roleName)

/-! ## Cutting texts at a separator -/

theorem dc_cut {c : Char} {a b l x y : Str} (ha : c ∉ a) (hb : c ∉ b) (hl : l.head? = some c) (h : a ++ (l ++ x) = b ++ (l ++ y)) :
    a = b ∧ x = y := by
  induction a generalizing b with
  | nil =>
    cases b with
    | nil => exact ⟨rfl, List.append_cancel_left h⟩
    | cons d b =>
      cases l with
      | nil => simp at hl
      | cons e l =>
        simp only [List.head?_cons, Option.some.injEq] at hl
        subst hl
        simp only [List.nil_append, List.cons_append, List.cons.injEq] at h
        exact absurd (by simp [h.1]) hb
  | cons d a ih =>
    cases b with
    | nil =>
      cases l with
      | nil => simp at hl
      | cons e l =>
        simp only [List.head?_cons, Option.some.injEq] at hl
        subst hl
        simp only [List.nil_append, List.cons_append, List.cons.injEq] at h
        exact absurd (by simp [h.1]) ha
    | cons e b =>
      simp only [List.cons_append, List.cons.injEq] at h
      obtain ⟨rfl, h⟩ := h
      obtain ⟨rfl, h'⟩ := ih (fun hm => ha (List.mem_cons_of_mem _ hm)) (fun hm => hb (List.mem_cons_of_mem _ hm)) h
      exact ⟨rfl, h'⟩

/-- The same from the right: the parts after the last separator. -/
theorem dc_last {c : Char} {k a b x y : Str} (hk : c ∉ k) (ha : c ∉ a) (hb : c ∉ b) (h : (x ++ (c :: k)) ++ a = (y ++ (c :: k)) ++ b) :
    x = y ∧ a = b := by
  have h' : (k ++ a).reverse ++ ([c] ++ x.reverse) = (k ++ b).reverse ++ ([c] ++ y.reverse) := by
    have := congrArg List.reverse h
    simpa [List.reverse_append] using this
  obtain ⟨h1, h2⟩ := dc_cut (c := c) (l := [c]) (by simp [hk, ha]) (by simp [hk, hb]) rfl h'
  exact ⟨List.reverse_injective h2, List.append_cancel_left (List.reverse_injective h1)⟩

/-! ## Numbers contain no separators -/

theorem dc_number {s : Str} (h : IsNumber s) : ∀ c ∈ s, IsDigit c ∨ c ∈ ['-', '+', '.', 'e', 'E'] := by
  obtain ⟨sign, int, frac, exp, rfl, h1, h2, h3, h4⟩ := h
  intro c hc
  simp only [List.mem_append] at hc
  rcases hc with ((hc | hc) | hc) | hc
  · rcases h1 with rfl | rfl
    · simp at hc
    · right; simp at hc; simp [hc]
  · rcases h2 with rfl | ⟨d, ds, rfl, -, hd, hds⟩
    · left; simp at hc; subst hc; decide
    · left
      rcases List.mem_cons.1 hc with rfl | hc
      · exact hd
      · exact hds c hc
  · rcases h3 with rfl | ⟨ds, rfl, -, hds⟩
    · simp at hc
    · rcases List.mem_cons.1 hc with rfl | hc
      · right; simp
      · exact Or.inl (hds c hc)
  · rcases h4 with rfl | ⟨e, sg, ds, rfl, he, hsg, -, hds⟩
    · simp at hc
    · rcases List.mem_cons.1 hc with rfl | hc
      · right; rcases he with rfl | rfl <;> simp
      · rcases List.mem_append.1 hc with hc | hc
        · right
          rcases hsg with rfl | rfl | rfl
          · simp at hc
          · simp at hc; simp [hc]
          · simp at hc; simp [hc]
        · exact Or.inl (hds c hc)

/-- The separators of descriptions. -/
def dcSeps : Str := [';', ',', '(', ')', '[', ']', '"', '=', '\n', ' ']

theorem dc_sep {s : Str} (h : IsNumber s) {c : Char} (hc : c ∈ dcSeps) : c ∉ s := by
  intro hm
  have h1 := dc_number h c hm
  simp only [dcSeps, List.mem_cons, List.not_mem_nil, or_false] at hc
  rcases hc with rfl | rfl | rfl | rfl | rfl | rfl | rfl | rfl | rfl | rfl <;> revert h1 <;> decide

theorem dc_int {P : Printer} (hP : PrinterContract P) (n : ℤ) {c : Char} (hc : c ∈ dcSeps) : c ∉ P.int n := dc_sep (hP.int n) hc
theorem dc_dbl {P : Printer} (hP : PrinterContract P) (x : ℚ) {c : Char} (hc : c ∈ dcSeps) : c ∉ P.dbl x := dc_sep (hP.dbl x) hc

/-! ## Positions -/

/-- A short position followed by something that is empty or begins with a semicolon. -/
theorem dc_posShort {P : Printer} (hP : PrinterContract P) (hi : Function.Injective P.int) {a b : Box} {x y : Str}
    (h : posShort P a ++ ("; fn=".toList ++ x) = posShort P b ++ ("; fn=".toList ++ y)) : PrintedSamePlace P a b ∧ x = y := by
  unfold posShort at h
  simp only [List.append_assoc] at h
  have h := List.append_cancel_left h
  obtain ⟨e1, h⟩ := dc_cut (c := ';') (dc_int hP _ (by decide)) (dc_int hP _ (by decide)) (by decide) h
  obtain ⟨e2, h⟩ := dc_cut (c := ';') (dc_dbl hP _ (by decide)) (dc_dbl hP _ (by decide)) (by decide) h
  obtain ⟨e3, h⟩ := dc_cut (c := ';') (dc_dbl hP _ (by decide)) (dc_dbl hP _ (by decide)) (by decide) h
  obtain ⟨e4, h⟩ := dc_cut (c := ';') (dc_dbl hP _ (by decide)) (dc_dbl hP _ (by decide)) (by decide) h
  obtain ⟨e5, h⟩ := dc_cut (c := ';') (dc_dbl hP _ (by decide)) (dc_dbl hP _ (by decide)) (by decide) h
  exact ⟨⟨hi e1, e2, e3, e4, e5⟩, h⟩

theorem dc_posShort' {P : Printer} (hP : PrinterContract P) (hi : Function.Injective P.int) {a b : Box}
    (h : posShort P a = posShort P b) : PrintedSamePlace P a b :=
  (dc_posShort hP hi (x := []) (y := []) (by rw [h])).1

theorem dc_posLong {P : Printer} (hP : PrinterContract P) (hi : Function.Injective P.int) {a b : Box} {x y : Str}
    (h : posLong P a ++ x = posLong P b ++ y) : (PrintedSamePlace P a b ∧ a.rotation = b.rotation ∧ a.wMode = b.wMode) ∧ x = y := by
  unfold posLong at h
  simp only [List.append_assoc] at h
  have h := List.append_cancel_left h
  obtain ⟨e1, h⟩ := dc_cut (c := ';') (dc_int hP _ (by decide)) (dc_int hP _ (by decide)) (by decide) h
  obtain ⟨e2, h⟩ := dc_cut (c := ';') (dc_dbl hP _ (by decide)) (dc_dbl hP _ (by decide)) (by decide) h
  obtain ⟨e3, h⟩ := dc_cut (c := ';') (dc_dbl hP _ (by decide)) (dc_dbl hP _ (by decide)) (by decide) h
  obtain ⟨e4, h⟩ := dc_cut (c := ';') (dc_dbl hP _ (by decide)) (dc_dbl hP _ (by decide)) (by decide) h
  obtain ⟨e5, h⟩ := dc_cut (c := ';') (dc_dbl hP _ (by decide)) (dc_dbl hP _ (by decide)) (by decide) h
  obtain ⟨e6, h⟩ := dc_cut (c := ';') (dc_int hP _ (by decide)) (dc_int hP _ (by decide)) (by decide) h
  obtain ⟨e7, h⟩ := dc_cut (c := ')') (dc_int hP _ (by decide)) (dc_int hP _ (by decide)) (by decide) h
  exact ⟨⟨⟨hi e1, e2, e3, e4, e5⟩, hi e6, hi e7⟩, h⟩

/-! ## Code points -/

/-- Two numbers followed by different separators. -/
theorem dc_clash {c d : Char} {a b x y : Str} (h1 : c ∉ a) (h2 : d ∉ a) (h3 : c ∉ b) (h4 : d ∉ b) (hcd : c ≠ d) (h : a ++ (c :: x) = b ++ (d :: y)) :
    False := by
  induction a generalizing b with
  | nil =>
    cases b with
    | nil => exact hcd (List.cons.inj h).1
    | cons e b => exact h3 (by rw [(List.cons.inj h).1]; simp)
  | cons e a ih =>
    cases b with
    | nil => exact h2 (by rw [(List.cons.inj h).1]; simp)
    | cons f b =>
      exact ih (fun hm => h1 (List.mem_cons_of_mem _ hm)) (fun hm => h2 (List.mem_cons_of_mem _ hm))
        (fun hm => h3 (List.mem_cons_of_mem _ hm)) (fun hm => h4 (List.mem_cons_of_mem _ hm)) (List.cons.inj h).2

theorem dc_unicodes {P : Printer} (hP : PrinterContract P) (hi : Function.Injective P.int) {us vs : List ℕ} {x y : Str}
    (h : unicodesOut P us ++ ("]; text=\"".toList ++ x) = unicodesOut P vs ++ ("]; text=\"".toList ++ y)) : us = vs ∧ x = y := by
  have hne : ∀ n : ℤ, P.int n ≠ [] := by
    intro n hn
    obtain ⟨sign, int, frac, exp, he, -, h2, -, -⟩ := hP.int n
    rw [hn] at he
    have := (List.append_eq_nil_iff.1 (List.append_eq_nil_iff.1 (List.append_eq_nil_iff.1 he.symm).1).1).2
    rcases h2 with rfl | ⟨d, ds, rfl, -⟩ <;> simp at this
  have hnil : ∀ (ws : List ℕ) (z : Str), ws ≠ [] → ("]; text=\"".toList ++ x) ≠ unicodesOut P ws ++ z ∧
      ("]; text=\"".toList ++ y) ≠ unicodesOut P ws ++ z := by
    intro ws z hw
    have : ∃ d t, unicodesOut P ws = d :: t ∧ d ≠ ']' := by
      have key : ∀ (n : ℤ) (r : Str), ∃ d t, P.int n ++ r = d :: t ∧ d ≠ ']' := by
        intro n r
        cases hp : P.int n with
        | nil => exact absurd hp (hne n)
        | cons d t =>
          refine ⟨d, t ++ r, rfl, ?_⟩
          rintro rfl
          exact dc_int hP n (c := ']') (by decide) (by rw [hp]; simp)
      match ws, hw with
      | [u], _ => obtain ⟨d, t, h1, h2⟩ := key u []; exact ⟨d, t, by rw [← h1]; simp [unicodesOut], h2⟩
      | u :: v :: us, _ =>
        obtain ⟨d, t, h1, h2⟩ := key u (", ".toList ++ unicodesOut P (v :: us))
        exact ⟨d, t, by rw [← h1]; simp [unicodesOut], h2⟩
    obtain ⟨d, t, h1, h2⟩ := this
    rw [h1]
    constructor <;> (intro he; exact h2 (List.cons.inj he).1.symm)
  clear hne
  induction us generalizing vs with
  | nil =>
    cases vs with
    | nil => exact ⟨rfl, List.append_cancel_left h⟩
    | cons v vs => exact absurd h (hnil (v :: vs) _ (by simp)).1
  | cons u us ih =>
    cases vs with
    | nil => exact absurd h.symm (hnil (u :: us) _ (by simp)).2
    | cons v vs =>
      cases us with
      | nil =>
        cases vs with
        | nil =>
          obtain ⟨e, h⟩ := dc_cut (c := ']') (dc_int hP _ (by decide)) (dc_int hP _ (by decide)) (by decide) h
          exact ⟨by rw [Int.ofNat_inj.1 (hi e)], h⟩
        | cons w vs =>
          exfalso
          simp only [unicodesOut, List.append_assoc] at h
          exact dc_clash (c := ']') (d := ',') (dc_int hP u (by decide)) (dc_int hP u (by decide)) (dc_int hP v (by decide)) (dc_int hP v (by decide)) (by decide) h
      | cons u' us =>
        cases vs with
        | nil =>
          exfalso
          simp only [unicodesOut, List.append_assoc] at h
          exact dc_clash (c := ',') (d := ']') (dc_int hP u (by decide)) (dc_int hP u (by decide)) (dc_int hP v (by decide)) (dc_int hP v (by decide)) (by decide) h
        | cons w vs =>
          simp only [unicodesOut, List.append_assoc] at h
          obtain ⟨e, h⟩ := dc_cut (c := ',') (dc_int hP _ (by decide)) (dc_int hP _ (by decide)) (by decide) h
          obtain ⟨e', h⟩ := ih h
          exact ⟨by rw [Int.ofNat_inj.1 (hi e), e'], h⟩

/-! ## Kinds -/

/-- The name of a kind in short descriptions. -/
def dcShortName : Kind → Str
  | .char => "char".toList
  | .word => "word".toList
  | .line => "line".toList
  | .block => "block".toList
  | .figure => "figure".toList
  | .shape => "shape".toList
  | .graphic => "graphic".toList
  | .segment => "segment".toList

/-- The name of a kind in long descriptions. -/
def dcLongName : Kind → Str
  | .char => "PdfCharacter".toList
  | .word => "PdfWord".toList
  | .line => "PdfTextLine".toList
  | .block => "PdfTextBlock".toList
  | .figure => "PdfFigure".toList
  | .shape => "PdfShape".toList
  | .graphic => "PdfGraphic".toList
  | .segment => "PdfPageSegment".toList

/-- The description after `type: kind; `. -/
def dcShortRest (P : Printer) (e : Element) : Str :=
  posShort P e.pos ++
    (match e.kind with
     | .char | .word | .line | .block =>
       "; fn=".toList ++ (e.fontName ++ ("; fs=".toList ++ (P.dbl e.fontSize ++ ("; text=\"".toList ++ (e.text ++ "\"".toList)))))
     | .figure | .shape | .graphic | .segment => [])

theorem dc_toShort (P : Printer) (e : Element) :
    toShort P e = "type: ".toList ++ (dcShortName e.kind ++ ("; ".toList ++ dcShortRest P e)) := by
  have h1 : ∀ name, textShort P name e = "type: ".toList ++ (name.toList ++ ("; ".toList ++ (posShort P e.pos ++
      ("; fn=".toList ++ (e.fontName ++ ("; fs=".toList ++ (P.dbl e.fontSize ++ ("; text=\"".toList ++ (e.text ++ "\"".toList))))))))) := by
    intro name
    delta textShort
    simp only [List.append_assoc]
  have h2 : ∀ name, rectShort P name e = "type: ".toList ++ (name.toList ++ ("; ".toList ++ (posShort P e.pos ++ []))) := by
    intro name
    delta rectShort
    simp only [List.append_assoc, List.append_nil]
  obtain ⟨kind, pos, fn, fs, tx, co, op, us, lm, rm, ro, ce, em⟩ := e
  cases kind with
  | char => exact h1 "char"
  | word => exact h1 "word"
  | line => exact h1 "line"
  | block => exact h1 "block"
  | figure => exact h2 "figure"
  | shape => exact h2 "shape"
  | graphic => exact h2 "graphic"
  | segment => exact h2 "segment"

/-- The description after `Kind(`. -/
def dcLongRest (P : Printer) (e : Element) : Str :=
  match e.kind with
  | .char => "pos=".toList ++ (posLong P e.pos ++ ("; fontName=".toList ++ (e.fontName ++ ("; fontSize=".toList ++ (P.dbl e.fontSize ++
      ("; color=(".toList ++ (P.dbl e.color.1 ++ (", ".toList ++ (P.dbl e.color.2.1 ++ (", ".toList ++ (P.dbl e.color.2.2 ++
      ("); opacity=".toList ++ (P.dbl e.opacity ++ ("; unicodes=[".toList ++ (unicodesOut P e.unicodes ++
      ("]; text=\"".toList ++ (e.text ++ "\")".toList)))))))))))))))))
  | .word => "pos=".toList ++ (posLong P e.pos ++ ("; fontName=".toList ++ (e.fontName ++ ("; fontSize=".toList ++ (P.dbl e.fontSize ++
      ("; text=\"".toList ++ (e.text ++ "\")".toList)))))))
  | .line => "text=\"".toList ++ (e.text ++ ("\"; pos=".toList ++ (posLong P e.pos ++ ("; leftMargin=".toList ++ (P.dbl e.leftMargin ++
      ("; rightMargin=".toList ++ (P.dbl e.rightMargin ++ ("; fontName=".toList ++ (e.fontName ++ ("; fontSize=".toList ++ (P.dbl e.fontSize ++
      ")".toList)))))))))))
  | .block => "pos=".toList ++ (posLong P e.pos ++ ("; role=".toList ++ (roleName e.role ++ ("; isCentered=".toList ++ (bit e.isCentered ++
      ("; isEmphasized=".toList ++ (bit e.isEmphasized ++ ("; text=\"".toList ++ (e.text ++ "\")".toList)))))))))
  | .figure | .shape | .graphic => "pos=".toList ++ (posLong P e.pos ++ ")".toList)
  | .segment => "pos=".toList ++ (posLong P e.pos ++ "; ".toList)

theorem dc_toLong (P : Printer) (e : Element) : toLong P e = dcLongName e.kind ++ ("(".toList ++ dcLongRest P e) := by
  obtain ⟨kind, pos, fn, fs, tx, co, op, us, lm, rm, ro, ce, em⟩ := e
  cases kind with
  | char =>
    show charLong P _ = "PdfCharacter".toList ++ ("(".toList ++ _)
    delta charLong
    rw [show "PdfCharacter(pos=".toList = "PdfCharacter".toList ++ ("(".toList ++ "pos=".toList) by decide]
    simp only [List.append_assoc]
    rfl
  | word =>
    show wordLong P _ = "PdfWord".toList ++ ("(".toList ++ _)
    delta wordLong
    rw [show "PdfWord(pos=".toList = "PdfWord".toList ++ ("(".toList ++ "pos=".toList) by decide]
    simp only [List.append_assoc]
    rfl
  | line =>
    show lineLong P _ = "PdfTextLine".toList ++ ("(".toList ++ _)
    delta lineLong
    rw [show "PdfTextLine(text=\"".toList = "PdfTextLine".toList ++ ("(".toList ++ "text=\"".toList) by decide]
    simp only [List.append_assoc]
    rfl
  | block =>
    show blockLong P _ = "PdfTextBlock".toList ++ ("(".toList ++ _)
    delta blockLong
    rw [show "PdfTextBlock(pos=".toList = "PdfTextBlock".toList ++ ("(".toList ++ "pos=".toList) by decide]
    simp only [List.append_assoc]
    rfl
  | figure =>
    show rectLong P "PdfFigure" _ = "PdfFigure".toList ++ ("(".toList ++ _)
    delta rectLong
    rw [show "(pos=".toList = "(".toList ++ "pos=".toList by decide]
    simp only [List.append_assoc]
    rfl
  | shape =>
    show rectLong P "PdfShape" _ = "PdfShape".toList ++ ("(".toList ++ _)
    delta rectLong
    rw [show "(pos=".toList = "(".toList ++ "pos=".toList by decide]
    simp only [List.append_assoc]
    rfl
  | graphic =>
    show rectLong P "PdfGraphic" _ = "PdfGraphic".toList ++ ("(".toList ++ _)
    delta rectLong
    rw [show "(pos=".toList = "(".toList ++ "pos=".toList by decide]
    simp only [List.append_assoc]
    rfl
  | segment =>
    show segmentLong P _ = "PdfPageSegment".toList ++ ("(".toList ++ _)
    delta segmentLong
    rw [show "PdfPageSegment(pos=".toList = "PdfPageSegment".toList ++ ("(".toList ++ "pos=".toList) by decide]
    simp only [List.append_assoc]
    rfl

theorem dc_shortName {a b : Kind} (h : dcShortName a = dcShortName b) : a = b := by revert h; cases a <;> cases b <;> decide
theorem dc_shortName_sep (a : Kind) : ';' ∉ dcShortName a := by cases a <;> decide
theorem dc_longName {a b : Kind} (h : dcLongName a = dcLongName b) : a = b := by revert h; cases a <;> cases b <;> decide
theorem dc_longName_sep (a : Kind) : '(' ∉ dcLongName a := by cases a <;> decide
theorem dc_role {a b : Role} (h : roleName a = roleName b) : a = b := by revert h; cases a <;> cases b <;> decide
theorem dc_role_sep (a : Role) : ';' ∉ roleName a := by cases a <;> decide
theorem dc_bit {a b : Bool} (h : bit a = bit b) : a = b := by revert h; cases a <;> cases b <;> decide
theorem dc_bit_sep (a : Bool) : ';' ∉ bit a := by cases a <;> decide

/-! ## The theorems -/

/-- Two elements with the same short description are of the same kind, on the same page and at the same place (to the printed
precision) and, if they are elements with text, have the same font, font size and text - provided that font names contain no
semicolon. -/
theorem c95_short {P : Printer} (hP : PrinterContract P) (hi : Function.Injective P.int) {a b : Element}
    (ha : ';' ∉ a.fontName) (hb : ';' ∉ b.fontName) (h : toShort P a = toShort P b) : AgreeShort P a b := by
  rw [dc_toShort, dc_toShort] at h
  obtain ⟨e0, h⟩ := dc_cut (c := ';') (dc_shortName_sep _) (dc_shortName_sep _) (by decide) (List.append_cancel_left h)
  have e0 := dc_shortName e0
  refine ⟨e0, ?_⟩
  unfold dcShortRest at h
  rw [← e0] at h
  have htext : posShort P a.pos ++ ("; fn=".toList ++ (a.fontName ++ ("; fs=".toList ++ (P.dbl a.fontSize ++ ("; text=\"".toList ++ (a.text ++ "\"".toList)))))) =
      posShort P b.pos ++ ("; fn=".toList ++ (b.fontName ++ ("; fs=".toList ++ (P.dbl b.fontSize ++ ("; text=\"".toList ++ (b.text ++ "\"".toList)))))) →
      PrintedSamePlace P a.pos b.pos ∧ (HasText a.kind → a.fontName = b.fontName ∧ P.dbl a.fontSize = P.dbl b.fontSize ∧ a.text = b.text) := by
    intro h
    obtain ⟨hp, h⟩ := dc_posShort hP hi h
    obtain ⟨e1, h⟩ := dc_cut (c := ';') ha hb (by decide) h
    obtain ⟨e2, h⟩ := dc_cut (c := ';') (dc_dbl hP _ (by decide)) (dc_dbl hP _ (by decide)) (by decide) h
    exact ⟨hp, fun _ => ⟨e1, e2, List.append_cancel_right h⟩⟩
  cases hk : a.kind <;> rw [hk] at h htext <;> first
    | exact htext h
    | (simp only [List.append_nil] at h; exact ⟨dc_posShort' hP hi h, fun hf => hf.elim⟩)

/-- The description of a text line read from its end. -/
theorem dc_line {P : Printer} (hP : PrinterContract P) (hi : Function.Injective P.int) {t t' : Str} {p p' : Box} {l l' r r' : ℚ}
    {f f' : Str} {z z' : ℚ} (hf : ';' ∉ f) (hf' : ';' ∉ f')
    (h : t ++ ("\"; pos=".toList ++ (posLong P p ++ ("; leftMargin=".toList ++ (P.dbl l ++ ("; rightMargin=".toList ++ (P.dbl r ++
        ("; fontName=".toList ++ (f ++ ("; fontSize=".toList ++ (P.dbl z ++ ")".toList)))))))))) =
      t' ++ ("\"; pos=".toList ++ (posLong P p' ++ ("; leftMargin=".toList ++ (P.dbl l' ++ ("; rightMargin=".toList ++ (P.dbl r' ++
        ("; fontName=".toList ++ (f' ++ ("; fontSize=".toList ++ (P.dbl z' ++ ")".toList))))))))))) :
    t = t' ∧ (PrintedSamePlace P p p' ∧ p.rotation = p'.rotation ∧ p.wMode = p'.wMode) ∧ P.dbl l = P.dbl l' ∧ P.dbl r = P.dbl r' ∧ f = f' ∧
      P.dbl z = P.dbl z' := by
  delta posLong at h
  rw [show "\"; pos=".toList = ['"'] ++ "; pos=".toList by decide] at h
  simp only [← List.append_assoc] at h
  have h := List.append_cancel_right h
  obtain ⟨h, e1⟩ := dc_last (c := ';') (k := " fontSize=".toList) (by decide) (dc_dbl hP _ (by decide)) (dc_dbl hP _ (by decide)) h
  obtain ⟨h, e2⟩ := dc_last (c := ';') (k := " fontName=".toList) (by decide) hf hf' h
  obtain ⟨h, e3⟩ := dc_last (c := ';') (k := " rightMargin=".toList) (by decide) (dc_dbl hP _ (by decide)) (dc_dbl hP _ (by decide)) h
  obtain ⟨h, e4⟩ := dc_last (c := ';') (k := " leftMargin=".toList) (by decide) (dc_dbl hP _ (by decide)) (dc_dbl hP _ (by decide)) h
  have h := List.append_cancel_right h
  obtain ⟨h, e5⟩ := dc_last (c := ';') (k := " wMode=".toList) (by decide) (dc_int hP _ (by decide)) (dc_int hP _ (by decide)) h
  obtain ⟨h, e6⟩ := dc_last (c := ';') (k := " rotation=".toList) (by decide) (dc_int hP _ (by decide)) (dc_int hP _ (by decide)) h
  obtain ⟨h, e7⟩ := dc_last (c := ';') (k := " lowerY=".toList) (by decide) (dc_dbl hP _ (by decide)) (dc_dbl hP _ (by decide)) h
  obtain ⟨h, e8⟩ := dc_last (c := ';') (k := " rightX=".toList) (by decide) (dc_dbl hP _ (by decide)) (dc_dbl hP _ (by decide)) h
  obtain ⟨h, e9⟩ := dc_last (c := ';') (k := " upperY=".toList) (by decide) (dc_dbl hP _ (by decide)) (dc_dbl hP _ (by decide)) h
  obtain ⟨h, e10⟩ := dc_last (c := ';') (k := " leftX=".toList) (by decide) (dc_dbl hP _ (by decide)) (dc_dbl hP _ (by decide)) h
  rw [List.append_assoc _ "; pos=".toList, List.append_assoc _ "; pos=".toList] at h
  obtain ⟨h, e11⟩ := dc_last (c := ';') (k := " pos=PdfPosition(page=".toList) (by decide) (dc_int hP _ (by decide)) (dc_int hP _ (by decide)) h
  exact ⟨List.append_cancel_right h, ⟨⟨hi e11, e10, e9, e8, e7⟩, hi e6, hi e5⟩, e4, e3, e2, e1⟩

/-- Two elements with the same long description are of the same kind, at the same place, and agree in everything the description
is about - provided that font names contain no semicolon. -/
theorem c95_long {P : Printer} (hP : PrinterContract P) (hi : Function.Injective P.int) {a b : Element}
    (ha : ';' ∉ a.fontName) (hb : ';' ∉ b.fontName) (h : toLong P a = toLong P b) : AgreeLong P a b := by
  rw [dc_toLong, dc_toLong] at h
  obtain ⟨e0, h⟩ := dc_cut (c := '(') (dc_longName_sep _) (dc_longName_sep _) (by decide) h
  have e0 := dc_longName e0
  obtain ⟨kind, pos, fn, fs, tx, co, op, us, lm, rm, ro, ce, em⟩ := a
  obtain ⟨kind', pos', fn', fs', tx', co', op', us', lm', rm', ro', ce', em'⟩ := b
  simp only at e0 ha hb
  subst e0
  unfold AgreeLong
  cases kind with
  | char =>
    delta dcLongRest at h
    simp only at h
    obtain ⟨⟨hp, hr, hw⟩, h⟩ := dc_posLong hP hi (List.append_cancel_left h)
    obtain ⟨e1, h⟩ := dc_cut (c := ';') ha hb (by decide) (List.append_cancel_left h)
    obtain ⟨e2, h⟩ := dc_cut (c := ';') (dc_dbl hP _ (by decide)) (dc_dbl hP _ (by decide)) (by decide) h
    obtain ⟨e3, h⟩ := dc_cut (c := ',') (dc_dbl hP _ (by decide)) (dc_dbl hP _ (by decide)) (by decide) h
    obtain ⟨e4, h⟩ := dc_cut (c := ',') (dc_dbl hP _ (by decide)) (dc_dbl hP _ (by decide)) (by decide) h
    obtain ⟨e5, h⟩ := dc_cut (c := ')') (dc_dbl hP _ (by decide)) (dc_dbl hP _ (by decide)) (by decide) h
    obtain ⟨e6, h⟩ := dc_cut (c := ';') (dc_dbl hP _ (by decide)) (dc_dbl hP _ (by decide)) (by decide) h
    obtain ⟨e7, h⟩ := dc_unicodes hP hi h
    have e8 := List.append_cancel_right h
    exact ⟨rfl, hp, hr, hw, fun _ => e8, fun _ _ => ⟨e1, e2⟩, fun _ => ⟨e3, e4, e5, e6, e7⟩, nofun, nofun⟩
  | word =>
    delta dcLongRest at h
    simp only at h
    obtain ⟨⟨hp, hr, hw⟩, h⟩ := dc_posLong hP hi (List.append_cancel_left h)
    obtain ⟨e1, h⟩ := dc_cut (c := ';') ha hb (by decide) (List.append_cancel_left h)
    obtain ⟨e2, h⟩ := dc_cut (c := ';') (dc_dbl hP _ (by decide)) (dc_dbl hP _ (by decide)) (by decide) h
    have e8 := List.append_cancel_right h
    exact ⟨rfl, hp, hr, hw, fun _ => e8, fun _ _ => ⟨e1, e2⟩, nofun, nofun, nofun⟩
  | line =>
    delta dcLongRest at h
    simp only at h
    obtain ⟨e1, ⟨hp, hr, hw⟩, e2, e3, e4, e5⟩ := dc_line hP hi ha hb (List.append_cancel_left h)
    exact ⟨rfl, hp, hr, hw, fun _ => e1, fun _ _ => ⟨e4, e5⟩, nofun, fun _ => ⟨e2, e3⟩, nofun⟩
  | block =>
    delta dcLongRest at h
    simp only at h
    obtain ⟨⟨hp, hr, hw⟩, h⟩ := dc_posLong hP hi (List.append_cancel_left h)
    obtain ⟨e1, h⟩ := dc_cut (c := ';') (dc_role_sep _) (dc_role_sep _) (by decide) (List.append_cancel_left h)
    obtain ⟨e2, h⟩ := dc_cut (c := ';') (dc_bit_sep _) (dc_bit_sep _) (by decide) h
    obtain ⟨e3, h⟩ := dc_cut (c := ';') (dc_bit_sep _) (dc_bit_sep _) (by decide) h
    have e8 := List.append_cancel_right h
    exact ⟨rfl, hp, hr, hw, fun _ => e8, fun _ hn => absurd rfl hn, nofun, nofun, fun _ => ⟨dc_role e1, dc_bit e2, dc_bit e3⟩⟩
  | figure =>
    obtain ⟨⟨hp, hr, hw⟩, h⟩ := dc_posLong hP hi (List.append_cancel_left h)
    exact ⟨rfl, hp, hr, hw, fun hf => hf.elim, fun hf => hf.elim, nofun, nofun, nofun⟩
  | shape =>
    obtain ⟨⟨hp, hr, hw⟩, h⟩ := dc_posLong hP hi (List.append_cancel_left h)
    exact ⟨rfl, hp, hr, hw, fun hf => hf.elim, fun hf => hf.elim, nofun, nofun, nofun⟩
  | graphic =>
    obtain ⟨⟨hp, hr, hw⟩, h⟩ := dc_posLong hP hi (List.append_cancel_left h)
    exact ⟨rfl, hp, hr, hw, fun hf => hf.elim, fun hf => hf.elim, nofun, nofun, nofun⟩
  | segment =>
    obtain ⟨⟨hp, hr, hw⟩, h⟩ := dc_posLong hP hi (List.append_cancel_left h)
    exact ⟨rfl, hp, hr, hw, fun hf => hf.elim, fun hf => hf.elim, nofun, nofun, nofun⟩

theorem dc_unicodes_line {P : Printer} (hP : PrinterContract P) (us : List ℕ) : '\n' ∉ unicodesOut P us := by
  induction us with
  | nil => simp [unicodesOut]
  | cons u us ih =>
    cases us with
    | nil => exact dc_int hP u (by decide)
    | cons v us =>
      simp only [unicodesOut, List.mem_append, not_or]
      exact ⟨⟨dc_int hP u (by decide), by decide⟩, ih⟩

/-- A description contains a line break only if the font name or the text of the element contains one, so that a message of the
log stays on its line. -/
theorem c95_one_line {P : Printer} (hP : PrinterContract P) {e : Element} (hf : '\n' ∉ e.fontName) (ht : '\n' ∉ e.text) :
    '\n' ∉ toShort P e ∧ '\n' ∉ toLong P e := by
  have hi : ∀ n, '\n' ∉ P.int n := fun n => dc_int hP n (by decide)
  have hd : ∀ x, '\n' ∉ P.dbl x := fun x => dc_dbl hP x (by decide)
  have hu := dc_unicodes_line hP e.unicodes
  have hr : '\n' ∉ roleName e.role := by cases e.role <;> decide
  have hb : ∀ b, '\n' ∉ bit b := by decide
  have hpl : '\n' ∉ posLong P e.pos := by
    delta posLong
    simp only [List.mem_append, not_or]
    simp only [hi, hd, not_false_eq_true, true_and, and_true]
    decide
  have hps : '\n' ∉ posShort P e.pos := by
    delta posShort
    simp only [List.mem_append, not_or]
    simp only [hi, hd, not_false_eq_true, true_and, and_true]
    decide
  rw [dc_toShort, dc_toLong]
  constructor
  · have hn : '\n' ∉ dcShortName e.kind := by cases e.kind <;> decide
    simp only [List.mem_append, not_or]
    refine ⟨by decide, hn, by decide, ?_⟩
    delta dcShortRest
    cases e.kind <;> simp only [List.mem_append, not_or] <;> simp only [hps, hf, ht, hd, not_false_eq_true, true_and, and_true] <;> decide
  · have hn : '\n' ∉ dcLongName e.kind := by cases e.kind <;> decide
    simp only [List.mem_append, not_or]
    refine ⟨hn, by decide, ?_⟩
    delta dcLongRest
    cases e.kind <;> simp only [List.mem_append, not_or] <;>
      simp only [hpl, hf, ht, hd, hu, hr, hb, not_false_eq_true, true_and, and_true] <;> decide

theorem dc_getLast (a b : Str) (c : Char) (h : b.getLast? = some c) : (a ++ b).getLast? = some c := by
  simp [List.getLast?_append, h]

/-- The parenthesis after the name of the class is closed at the end of the description, except for page segments: their
description ends with a semicolon and a blank. -/
theorem c95_closed (P : Printer) (e : Element) : (toLong P e).getLast? = some ')' ↔ e.kind ≠ .segment := by
  obtain ⟨kind, pos, fn, fs, tx, co, op, us, lm, rm, ro, ce, em⟩ := e
  cases kind with
  | segment =>
    have : (segmentLong P ⟨.segment, pos, fn, fs, tx, co, op, us, lm, rm, ro, ce, em⟩).getLast? = some ' ' := by
      delta segmentLong
      exact dc_getLast _ _ _ (by decide)
    refine ⟨fun h => ?_, fun h => absurd rfl h⟩
    have h := this.symm.trans h
    simp at h
  | char =>
    refine ⟨fun _ => nofun, fun _ => ?_⟩
    show (charLong P _).getLast? = _
    delta charLong
    exact dc_getLast _ _ _ (by decide)
  | word =>
    refine ⟨fun _ => nofun, fun _ => ?_⟩
    show (wordLong P _).getLast? = _
    delta wordLong
    exact dc_getLast _ _ _ (by decide)
  | line =>
    refine ⟨fun _ => nofun, fun _ => ?_⟩
    show (lineLong P _).getLast? = _
    delta lineLong
    exact dc_getLast _ _ _ (by decide)
  | block =>
    refine ⟨fun _ => nofun, fun _ => ?_⟩
    show (blockLong P _).getLast? = _
    delta blockLong
    exact dc_getLast _ _ _ (by decide)
  | figure =>
    refine ⟨fun _ => nofun, fun _ => ?_⟩
    show (rectLong P "PdfFigure" _).getLast? = _
    delta rectLong
    exact dc_getLast _ _ _ (by decide)
  | shape =>
    refine ⟨fun _ => nofun, fun _ => ?_⟩
    show (rectLong P "PdfShape" _).getLast? = _
    delta rectLong
    exact dc_getLast _ _ _ (by decide)
  | graphic =>
    refine ⟨fun _ => nofun, fun _ => ?_⟩
    show (rectLong P "PdfGraphic" _).getLast? = _
    delta rectLong
    exact dc_getLast _ _ _ (by decide)

/-! ## Examples -/

/-- A way to print numbers that is exact for integers (one and as many zeros as the number says). -/
def dcPrinter : Printer where
  int n := (if n < 0 then ['-'] else []) ++ '1' :: List.replicate n.natAbs '0'
  dbl x := '1' :: List.replicate x.num.natAbs '0'

theorem dc_digits (n : ℕ) : IsNumber ('1' :: List.replicate n '0') := by
  refine ⟨[], '1' :: List.replicate n '0', [], [], by simp, Or.inl rfl, Or.inr ⟨'1', _, rfl, by decide, by decide, ?_⟩, Or.inl rfl, Or.inl rfl⟩
  intro c hc
  rw [List.eq_of_mem_replicate hc]
  decide

theorem dc_printer : PrinterContract dcPrinter := by
  refine ⟨fun n => ?_, fun x => dc_digits _⟩
  by_cases hn : n < 0
  · refine ⟨['-'], '1' :: List.replicate n.natAbs '0', [], [], by simp [dcPrinter, hn], Or.inr rfl, Or.inr ⟨'1', _, rfl, by decide, by decide, ?_⟩, Or.inl rfl, Or.inl rfl⟩
    intro c hc
    rw [List.eq_of_mem_replicate hc]
    decide
  · have : dcPrinter.int n = '1' :: List.replicate n.natAbs '0' := by simp [dcPrinter, hn]
    rw [this]
    exact dc_digits _

theorem dc_printer_exact : Function.Injective dcPrinter.int := by
  intro m n h
  have h : (if m < 0 then ['-'] else []) ++ '1' :: List.replicate m.natAbs '0' = (if n < 0 then ['-'] else []) ++ '1' :: List.replicate n.natAbs '0' := h
  by_cases hm : m < 0 <;> by_cases hn : n < 0
  · rw [if_pos hm, if_pos hn] at h
    have := congrArg List.length h
    simp at this
    omega
  · rw [if_pos hm, if_neg hn] at h
    exact absurd (List.cons.inj h).1 (by decide)
  · rw [if_neg hm, if_pos hn] at h
    exact absurd (List.cons.inj h).1 (by decide)
  · rw [if_neg hm, if_neg hn] at h
    have := congrArg List.length h
    simp at this
    omega

/-- An element with font `fn` and text `t` on the second page. -/
def dcElement (kind : Kind) (fn t : String) : Element :=
  { kind := kind, pos := ⟨2, 1, 0, 3, 1, 0, 0⟩, fontName := fn.toList, fontSize := 1, text := t.toList, color := (0, 0, 0),
    opacity := 1, unicodes := [1, 2], leftMargin := 0, rightMargin := 1, role := .title, isCentered := true, isEmphasized := false }

-- Concrete descriptions; the premises of the theorems can be met.
example : toShort dcPrinter (dcElement .word "F" "ab") = "type: word; p=100; leftX=10; upperY=1; rightX=1000; lowerY=10; fn=F; fs=10; text=\"ab\"".toList := by
  decide +kernel
example : toLong dcPrinter (dcElement .line "F" "ab") =
    "PdfTextLine(text=\"ab\"; pos=PdfPosition(page=100; leftX=10; upperY=1; rightX=1000; lowerY=10; rotation=1; wMode=1); leftMargin=1; rightMargin=10; fontName=F; fontSize=10)".toList := by
  decide +kernel
example : toLong dcPrinter (dcElement .char "F" "a") =
    "PdfCharacter(pos=PdfPosition(page=100; leftX=10; upperY=1; rightX=1000; lowerY=10; rotation=1; wMode=1); fontName=F; fontSize=10; color=(1, 1, 1); opacity=10; unicodes=[10, 100]; text=\"a\")".toList := by
  decide +kernel
example : toLong dcPrinter (dcElement .block "F" "a") =
    "PdfTextBlock(pos=PdfPosition(page=100; leftX=10; upperY=1; rightX=1000; lowerY=10; rotation=1; wMode=1); role=title; isCentered=1; isEmphasized=0; text=\"a\")".toList := by
  decide +kernel
example : toLong dcPrinter (dcElement .segment "" "") =
    "PdfPageSegment(pos=PdfPosition(page=100; leftX=10; upperY=1; rightX=1000; lowerY=10; rotation=1; wMode=1); ".toList := by
  decide +kernel
example : toShort dcPrinter (dcElement .figure "" "") = "type: figure; p=100; leftX=10; upperY=1; rightX=1000; lowerY=10".toList := by
  decide +kernel
example : PrinterContract dcPrinter ∧ Function.Injective dcPrinter.int ∧ ';' ∉ (dcElement .word "F" "a; b").fontName ∧
    '\n' ∉ (dcElement .word "F" "a; b").text := ⟨dc_printer, dc_printer_exact, by decide, by decide⟩

/-- A font name with a semicolon can make two words with different fonts and texts look alike. -/
theorem c95_semicolon_refuted : ¬ ∀ (P : Printer) (a b : Element), PrinterContract P → Function.Injective P.int →
    toShort P a = toShort P b → AgreeShort P a b := by
  intro h
  have := h dcPrinter (dcElement .word "A" "B; fs=10; text=\"C") (dcElement .word "A; fs=10; text=\"B" "C") dc_printer dc_printer_exact (by decide +kernel)
  exact absurd (this.2.2 trivial).1 (by decide)

end Verif.Props

import Verif.Spec.ParsedChars
import Verif.Props.ParsedBoxes

/-!
# C67: every recorded character carries what the PDF says
-/

namespace Verif.Props

open Verif Verif.Math Verif.Parsing Verif.Spec.Parsing
open Verif.Text (Str)

theorem pc_shows (charMap : Str → Option (ℕ × Str)) (f : StateFont) (ev : CharEvent)
    (hf : ev.font = some f) : Shows charMap f ev (charText charMap ev) := by
  have hn : charName ev = f.charName := by unfold charName; rw [hf]
  unfold charText
  rw [hn]
  refine ⟨?_, ?_⟩
  · intro n t h1 h2
    rw [if_pos h1, h2]
  · intro h
    have : (if ev.uLen = 1 then charMap f.charName else none) = none := by
      rcases h with h | h
      · rw [if_neg h]
      · rw [h]; split <;> rfl
    rw [this]
    refine ⟨fun t ht => by simp [ht], fun ht => by simp [ht]⟩

theorem pc_means (charMap : Str → Option (ℕ × Str)) (f : StateFont) (ev : CharEvent)
    (hf : ev.font = some f) : Means charMap f ev (charCodes charMap ev) := by
  have hn : charName ev = f.charName := by unfold charName; rw [hf]
  unfold charCodes
  rw [hn]
  refine ⟨?_, ?_⟩
  · intro n t h1 h2
    rw [if_pos h1, h2]
  · intro h
    have : (if ev.uLen = 1 then charMap f.charName else none) = none := by
      rcases h with h | h
      · rw [if_neg h]
      · rw [h]; split <;> rfl
    rw [this]

theorem pc_letterMatrix (f : StateFont) (ev : CharEvent) : LetterMatrix f ev (fontTransMat f ev) := by
  unfold LetterMatrix fontTransMat
  cases f.type3 <;> simp [times2]

theorem pc_quarterTurns (m : ℚ × ℚ × ℚ × ℚ) : QuarterTurns m (rotationOf m) := by
  unfold QuarterTurns rotationOf
  simp only [pb_larger, pb_smaller, decide_eq_true_iff, Bool.or_eq_true, zero_add, zero_sub]
  refine ⟨fun h => ?_, fun h => ?_⟩
  · rw [if_pos h]
    refine ⟨fun h1 => if_pos h1, fun h1 h2 => if_neg ?_⟩
    rintro (h3 | h3) <;> linarith
  · rw [if_neg (not_lt.mpr h)]
    exact ⟨fun h1 => if_pos h1, fun h1 => if_neg (not_lt.mpr h1)⟩

theorem pc_rotation_range (m : ℚ × ℚ × ℚ × ℚ) : rotationOf m = 0 ∨ rotationOf m = 1 ∨
    rotationOf m = 2 ∨ rotationOf m = 3 := by
  unfold rotationOf
  split <;> split <;> simp

theorem pc_turned (f : StateFont) (ev : CharEvent) : Turned f ev (charRotation f ev) := by
  refine ⟨_, _, pc_letterMatrix f ev, pc_quarterTurns _, ?_, ?_⟩
  · intro h; unfold charRotation; simp [h]
  · intro h
    unfold charRotation
    simp only [h, if_true]
    have := pc_rotation_range (fontTransMat f ev)
    refine ⟨fun _ => by omega, fun _ => by omega⟩

theorem pc_charRotation_range (f : StateFont) (ev : CharEvent) : charRotation f ev = 0 ∨
    charRotation f ev = 1 ∨ charRotation f ev = 2 ∨ charRotation f ev = 3 := by
  have h := pc_rotation_range (fontTransMat f ev)
  unfold charRotation
  generalize rotationOf (fontTransMat f ev) = q at h
  cases f.wMode
  · exact h
  · simp only [if_true]; omega

/-- The model's raw box as a rectangle. -/
def pcRect (b : RawBox) : Rect := ⟨b.leftX, b.upperY, b.rightX, b.lowerY, b.base⟩

theorem pc_metric (font : Font) (f : StateFont) (ev : CharEvent) :
    (f.wMode = false →
      pcRect (metricOf font f ev) = horizontalRect font f ev (charRotation f ev)) ∧
    (f.wMode = true → pcRect (metricOf font f ev) = verticalRect ev (charRotation f ev)) := by
  have h := c63_pen f ev
  have h1 : ((renderMatrix ev).m4, (renderMatrix ev).m5) = pen ev := h.1
  have h2 : ((nextMatrix f ev).m4, (nextMatrix f ev).m5) = nextPen f ev := h.2
  unfold metricOf
  have e1 : (renderMatrix ev).m4 = (pen ev).1 := by rw [← h1]
  have e2 : (renderMatrix ev).m5 = (pen ev).2 := by rw [← h1]
  have e3 : (nextMatrix f ev).m4 = (nextPen f ev).1 := by rw [← h2]
  have e4 : (nextMatrix f ev).m5 = (nextPen f ev).2 := by rw [← h2]
  rw [e1, e2, e3, e4]
  constructor <;> intro hw <;> rw [hw] <;>
    rcases pc_charRotation_range f ev with r | r | r | r <;> rw [r] <;>
    simp [metricBox, pcRect, horizontalRect, verticalRect]

theorem pc_render (ev : CharEvent) (p : ℚ × ℚ) : apply (renderMatrix ev) p = render ev p := by
  unfold renderMatrix concat textMatrix render apply
  ext <;> simp only <;> ring

theorem pc_tight (font : Font) (ev : CharEvent) (g : ℚ × ℚ × ℚ × ℚ) :
    pcRect (glyphBox font.info.fontMatrix (renderMatrix ev) g) = tightRect font ev g := by
  unfold tightRect
  simp only [← pc_render]
  unfold glyphBox pcRect
  generalize renderMatrix ev = trm
  simp only [apply, minimum_eq_min, maximum_eq_max, Rect.mk.injEq]
  refine ⟨?_, ?_, ?_, ?_, ?_⟩ <;> congr 1 <;> ring

theorem pc_drawn (font : Font) (f : StateFont) (ev : CharEvent) :
    Drawn font f ev (charRotation f ev) (pcRect (chooseBox (metricOf font f ev)
      ((font.glyphs f.charName).map (glyphBox font.info.fontMatrix (renderMatrix ev))))) := by
  obtain ⟨h1, h2⟩ := pc_metric font f ev
  refine ⟨pcRect (metricOf font f ev), h1, h2, ?_, ?_⟩
  · intro g hg hs
    rw [← pc_tight] at hs ⊢
    rw [hg]
    rw [Option.map_some, (c63_choice _ _).1]
    rcases hs with hs | hs
    · exact Or.inl hs
    · exact Or.inr hs
  · intro hs
    cases hg : font.glyphs f.charName with
    | none => rw [Option.map_none]; rfl
    | some g =>
      have := hs g hg
      rw [← pc_tight] at this
      rw [Option.map_some, (c63_choice _ _).2.1]
      · exact not_lt.mp fun h => this (Or.inl h)
      · exact not_lt.mp fun h => this (Or.inr h)

theorem pc_recorded (charMap : Str → Option (ℕ × Str)) (font : Font) (f : StateFont) (ev : CharEvent)
    (n : ℤ) (r : ℕ) (hf : ev.font = some f) :
    Recorded charMap font f ev (makeChar charMap font f ev n r) := by
  have hn : charName ev = f.charName := by unfold charName; rw [hf]
  refine ⟨hn, pc_shows charMap f ev hf, pc_means charMap f ev hf, rfl, rfl, ?_, pc_turned f ev, ?_⟩
  · unfold makeChar
    cases f.wMode <;> simp
  · refine ⟨_, pc_drawn font f ev, ?_⟩
    unfold makeChar pcRect
    rw [hn]
    exact ⟨rfl, rfl, rfl, rfl, rfl⟩

theorem pc_history_split (t : Tables) : ∀ (es : List Event) (s : State) (i : Item),
    i ∈ history t s es → ∃ a e b s1, es = a ++ e :: b ∧ run t s a = .ok s1 ∧
      drawnBy t s1 e = some i
  | [], _, _, h => by cases h
  | e :: es, s, i, h => by
    unfold history at h
    rcases List.mem_append.mp h with h | h
    · exact ⟨[], e, es, s, rfl, rfl, by simpa using h⟩
    · cases hs : step t s e with
      | ok s' =>
        rw [hs] at h
        obtain ⟨a, e', b, s1, h1, h2, h3⟩ := pc_history_split t es s' i h
        refine ⟨e :: a, e', b, s1, by rw [h1]; rfl, ?_, h3⟩
        unfold run; rw [hs]; exact h2
      | throw m => rw [hs] at h; cases h
      | ub m => rw [hs] at h; cases h

theorem pc_drawn_char (t : Tables) (s : State) (e : Event) (i : Item) (c : PChar)
    (h : drawnBy t s e = some i) (hc : i.elem = .char c) : ∃ ev f font, e = .drawChar ev ∧
      s.font = some font ∧ ev.font = some f ∧ i.clip = ev.clip.round ∧ i.page = s.pages.length ∧
      c = makeChar t.charMap font f ev ((s.page.map Page.pageNum).getD 0) s.numElements := by
  cases e with
  | startPage n clip => cases h
  | endPage => cases h
  | updateFont f => cases h
  | drawChar ev =>
    simp only [drawnBy] at h
    cases hf : s.font with
    | none => rw [hf] at h; cases h
    | some f =>
      cases he : ev.font with
      | none => rw [hf, he] at h; cases h
      | some g =>
        rw [hf, he] at h
        simp only at h
        split at h
        · cases h
        · have e := Option.some.inj h
          rw [← e] at hc
          have := Elem.char.inj hc
          refine ⟨ev, g, f, rfl, rfl, he, ?_, ?_, this.symm⟩ <;> rw [← e]
  | stroke ps clip =>
    simp only [drawnBy] at h
    have e := Option.some.inj h
    rw [← e] at hc; cases hc
  | drawGraphic m clip =>
    simp only [drawnBy] at h
    cases hg : graphicBox clip.round m with
    | none => rw [hg] at h; cases h
    | some b =>
      rw [hg] at h
      have e := Option.some.inj h
      rw [← e] at hc; cases hc

theorem pc_place_page (clip : Clip) (make : ℤ → ℕ → Elem) (s s' : State)
    (h : place clip make s = .ok s') : s'.page.map Page.pageNum = s.page.map Page.pageNum := by
  unfold place at h
  cases hp : s.page with
  | none => rw [hp] at h; cases h
  | some p =>
    rw [hp] at h
    have e := Outcome.ok.inj h
    subst e
    simp only [Option.map_some, route]
    split <;> rfl

theorem pc_step_page (t : Tables) (s s' : State) (e : Event) (h : step t s e = .ok s') :
    s'.page.map Page.pageNum = (lastPage [e]).orElse fun _ => s.page.map Page.pageNum := by
  cases e with
  | startPage n clip =>
    have e := Outcome.ok.inj h; subst e; rfl
  | endPage => have e := Outcome.ok.inj h; subst e; rfl
  | updateFont f =>
    simp only [step, updateFont] at h
    cases f with
    | none => have e := Outcome.ok.inj h; subst e; rfl
    | some f =>
      simp only at h
      split at h
      · have e := Outcome.ok.inj h; subst e; rfl
      · cases hp : parseFont t f with
        | ok new => rw [hp] at h; have e := Outcome.ok.inj h; subst e; rfl
        | throw m => rw [hp] at h; cases h
        | ub m => rw [hp] at h; cases h
  | drawChar ev =>
    simp only [step] at h
    show s'.page.map Page.pageNum = s.page.map Page.pageNum
    split at h
    · have e := Outcome.ok.inj h; subst e; rfl
    · split at h
      · have e := Outcome.ok.inj h; subst e; rfl
      · split at h
        · cases h
        · exact pc_place_page _ _ _ _ h
  | stroke ps clip =>
    simp only [step] at h
    exact pc_place_page _ _ _ _ h
  | drawGraphic m clip =>
    simp only [step] at h
    show s'.page.map Page.pageNum = s.page.map Page.pageNum
    split at h
    · have e := Outcome.ok.inj h; subst e; rfl
    · exact pc_place_page _ _ _ _ h

theorem pc_lastPage_cons (e : Event) (es : List Event) :
    lastPage (e :: es) = (lastPage es).orElse fun _ => lastPage [e] := by
  cases e <;> rfl

theorem pc_run_page (t : Tables) : ∀ (es : List Event) (s s' : State), run t s es = .ok s' →
    s'.page.map Page.pageNum = (lastPage es).orElse fun _ => s.page.map Page.pageNum
  | [], s, s', h => by have e := Outcome.ok.inj h; subst e; rfl
  | e :: es, s, s', h => by
    unfold run at h
    cases hs : step t s e with
    | ok s1 =>
      rw [hs] at h
      rw [pc_run_page t es s1 s' h, pc_step_page t s s1 e hs, pc_lastPage_cons e es]
      generalize lastPage [e] = x
      cases lastPage es <;> rfl
    | throw m => rw [hs] at h; cases h
    | ub m => rw [hs] at h; cases h

theorem pc_place_numbers (clip : Clip) (make : ℤ → ℕ → Elem) (s s' : State)
    (h : place clip make s = .ok s') :
    s'.docPages.map Page.pageNum = s.docPages.map Page.pageNum := by
  unfold place at h
  cases hp : s.page with
  | none => rw [hp] at h; cases h
  | some p =>
    rw [hp] at h
    have e := Outcome.ok.inj h
    subst e
    simp only [State.docPages, hp, Option.toList_some, List.map_append, List.map_cons, List.map_nil,
      route]
    split <;> rfl

theorem pc_step_numbers (t : Tables) (s s' : State) (e : Event) (h : step t s e = .ok s') :
    s.docPages.map Page.pageNum <+: s'.docPages.map Page.pageNum := by
  have hrefl : ∀ u : State, u.docPages.map Page.pageNum = s.docPages.map Page.pageNum →
      s.docPages.map Page.pageNum <+: u.docPages.map Page.pageNum := by
    intro u hu; rw [hu]
  cases e with
  | startPage n clip =>
    have e := Outcome.ok.inj h; subst e
    simp only [State.docPages, Option.toList_some, List.map_append]
    exact List.prefix_append _ _
  | endPage => have e := Outcome.ok.inj h; subst e; exact hrefl _ rfl
  | updateFont f =>
    simp only [step, updateFont] at h
    cases f with
    | none => have e := Outcome.ok.inj h; subst e; exact hrefl _ rfl
    | some f =>
      simp only at h
      split at h
      · have e := Outcome.ok.inj h; subst e; exact hrefl _ rfl
      · cases hp : parseFont t f with
        | ok new => rw [hp] at h; have e := Outcome.ok.inj h; subst e; exact hrefl _ rfl
        | throw m => rw [hp] at h; cases h
        | ub m => rw [hp] at h; cases h
  | drawChar ev =>
    simp only [step] at h
    split at h
    · have e := Outcome.ok.inj h; subst e; exact hrefl _ rfl
    · split at h
      · have e := Outcome.ok.inj h; subst e; exact hrefl _ rfl
      · split at h
        · cases h
        · exact hrefl _ (pc_place_numbers _ _ _ _ h)
  | stroke ps clip =>
    simp only [step] at h
    exact hrefl _ (pc_place_numbers _ _ _ _ h)
  | drawGraphic m clip =>
    simp only [step] at h
    split at h
    · have e := Outcome.ok.inj h; subst e; exact hrefl _ rfl
    · exact hrefl _ (pc_place_numbers _ _ _ _ h)

theorem pc_run_numbers (t : Tables) : ∀ (es : List Event) (s s' : State), run t s es = .ok s' →
    s.docPages.map Page.pageNum <+: s'.docPages.map Page.pageNum
  | [], s, s', h => by have e := Outcome.ok.inj h; subst e; exact List.prefix_refl _
  | e :: es, s, s', h => by
    unfold run at h
    cases hs : step t s e with
    | ok s1 =>
      rw [hs] at h
      exact (pc_step_numbers t s s1 e hs).trans (pc_run_numbers t es s1 s' h)
    | throw m => rw [hs] at h; cases h
    | ub m => rw [hs] at h; cases h

/-- **C67.** Every character on the pages of the document (or in their figures) was drawn by an event,
with a font, on the page started last before; it carries the name, the text, the font, the size, the
writing mode, the rotation and the rectangle that the event, the graphics state and the font's
information say, the number of the page, and as its rank the number of elements drawn before it. -/
theorem c67_character (t : Tables) (es : List Event) (s : State) (h : run t {} es = .ok s) :
    ∀ p ∈ s.docPages, ∀ c ∈ Page.allChars p,
      ∃ a ev b s1 f font, es = a ++ .drawChar ev :: b ∧ run t {} a = .ok s1 ∧
        s1.font = some font ∧ ev.font = some f ∧ Recorded t.charMap font f ev c ∧
        c.rank = drawnSoFar t a ∧ lastPage a = some c.pos.pageNum ∧ c.pos.pageNum = p.pageNum := by
  intro p hp c hc
  obtain ⟨k, hk⟩ := List.getElem?_of_mem hp
  obtain ⟨h1, _, _⟩ := c50_routing t es s h
  obtain ⟨i, hi, e⟩ := pa_allChars p _ (h1 k p hk) c hc
  obtain ⟨j, hj, e'⟩ := List.mem_map.mp hi
  obtain ⟨hj', hjk⟩ := List.mem_filter.mp hj
  obtain ⟨a, ev', b, s1, hes, hrun, hdraw⟩ := pc_history_split t es {} j hj'
  obtain ⟨ev, f, font, rfl, hfont, hev, _, hpage, hchar⟩ :=
    pc_drawn_char t s1 ev' j c hdraw (by rw [← e, ← e'])
  have hnum := pc_run_page t a {} s1 hrun
  have hranks := (pa_run t a {} s1 [] pa_init hrun).ranks
  have hlen := congrArg List.length hranks
  rw [List.nil_append, List.length_map, List.length_range] at hlen
  -- the page exists
  have hstep : ∃ s2, step t s1 (.drawChar ev) = .ok s2 ∧ run t s2 b = .ok s := by
    rw [hes, pa_run_append, hrun] at h
    change run t s1 (.drawChar ev :: b) = .ok s at h
    unfold run at h
    cases hs : step t s1 (.drawChar ev) with
    | ok s2 => rw [hs] at h; exact ⟨s2, rfl, h⟩
    | throw m => rw [hs] at h; cases h
    | ub m => rw [hs] at h; cases h
  obtain ⟨s2, hs2, hrest⟩ := hstep
  have hsome : ∃ q, s1.page = some q := by
    cases hq : s1.page with
    | some q => exact ⟨q, rfl⟩
    | none =>
      exfalso
      simp only [drawnBy, hfont, hev] at hdraw
      simp only [step, hfont, hev] at hs2
      by_cases hw : isWhitespace (charText t.charMap ev) = true
      · rw [if_pos hw] at hdraw; cases hdraw
      · rw [if_neg hw] at hs2
        simp only [place, hq] at hs2
        cases hs2
  obtain ⟨q, hq⟩ := hsome
  rw [hq] at hnum
  have hcnum : c.pos.pageNum = q.pageNum := by
    rw [hchar, hq]; rfl
  have hpre := pc_run_numbers t (.drawChar ev :: b) s1 s (by
    rw [hes, pa_run_append, hrun] at h; exact h)
  refine ⟨a, ev, b, s1, f, font, hes, hrun, hfont, hev, ?_, ?_, ?_, ?_⟩
  · rw [hchar]; exact pc_recorded _ _ _ _ _ _ hev
  · unfold drawnSoFar
    rw [hlen, hchar]; rfl
  · rw [hcnum]
    change some q.pageNum = _ at hnum
    rw [hnum]
    cases lastPage a with
    | none => rfl
    | some n => rfl
  · have hjk : j.page = k := by simpa using hjk
    rw [hcnum]
    obtain ⟨r, hr⟩ := hpre
    have h3 : (s1.docPages.map Page.pageNum)[k]? = some q.pageNum := by
      rw [← hjk, hpage]
      simp [State.docPages, hq]
    have h4 : (s.docPages.map Page.pageNum)[k]? = some q.pageNum := by
      rw [← hr]
      obtain ⟨hlt, _⟩ := List.getElem?_eq_some_iff.mp h3
      rw [List.getElem?_append_left hlt]; exact h3
    rw [List.getElem?_map, hk] at h4
    exact (Option.some.inj h4).symm

/-- The number of the page and the rank, the name, the text, the font, the size, the rotation and the
box of every character of the example of C50. -/
def exRecorded : List (ℤ × ℕ × Str × Str × Str × ℚ × ℤ × List ℚ) :=
  match run exTables {} exEvents with
  | .ok s => s.docPages.flatMap fun p => (Page.allChars p).map fun c =>
      (c.pos.pageNum, c.rank, c.name, c.text, c.fontName, c.fontSize, c.pos.rotation,
        [c.pos.leftX, c.pos.upperY, c.pos.rightX, c.pos.lowerY, c.base])
  | _ => []

set_option synthInstance.maxSize 1000 in
set_option synthInstance.maxHeartbeats 200000 in
/-- Non-vacuity: the example has a character at (100, 200) of the page 1 with its font's name. -/
example : exRecorded = [(1, 0, "A".toList, "A".toList, "ABCDEF+CMR10".toList, 10, 0,
    [100, 381 / 2, 105, 407 / 2, 200])] := by
  decide +kernel

end Verif.Props

import Verif.Spec.EndToEnd
import Verif.Props.ParsedChars
import Verif.Props.VisualizationRun
import Verif.Props.Pipeline

/-!
# C74, C75: the character map; from the drawing operations to the printed text
-/

namespace Verif.Props

open Verif Verif.Parsing Verif.Spec.Parsing Verif.Spec.EndToEnd Verif.EndToEnd
open Verif.Text (Str)
open Verif.Math
open Verif.Pipeline (Document env)
open Verif.Cli (Stage StageConfig Config)

/-! ## The pages of the parsed document -/

/-- The page's own boxes are rounded and numbered like the page. -/
structure PageFacts (p : Parsing.Page) : Prop where
  boxes : ∀ b ∈ Content.boxes p.content, RoundedBox 1 b ∧ b.pageNum = p.pageNum
  figures : ∀ f ∈ p.figures, RoundedBox 1 f.pos ∧ f.pos.pageNum = p.pageNum

theorem ee_push (c : Content) (e : Elem) (b : Box) : b ∈ Content.boxes (c.push e) → b ∈ Content.boxes c ∨ b = e.pos := by
  cases e <;> simp only [Content.push, Content.boxes, Elem.pos, List.map_append, List.mem_append, List.map_cons, List.map_nil, List.mem_singleton]
  all_goals
    rintro ((h | h) | h) <;> first
      | (rcases h with h | h)
      | skip
  all_goals simp only [h, true_or, or_true]

theorem ee_rounded_extend {b e : Box} (hb : RoundedBox 1 b) (he : RoundedBox 1 e) : RoundedBox 1 (b.extend e) := by
  refine ⟨?_, ?_, ?_, ?_⟩ <;> simp only [Box.extend, minimum_eq_min, maximum_eq_max]
  · exact pl_rounded_min hb.1 he.1
  · exact pl_rounded_min hb.2.1 he.2.1
  · exact pl_rounded_max hb.2.2.1 he.2.2.1
  · exact pl_rounded_max hb.2.2.2 he.2.2.2

theorem ee_addToFigures (n : ℤ) (clip : Clip) (e : Elem) (he : RoundedBox 1 e.pos) : ∀ (fs : List Figure),
    (∀ f ∈ fs, RoundedBox 1 f.pos ∧ f.pos.pageNum = n) → ∀ f ∈ addToFigures n clip e fs, RoundedBox 1 f.pos ∧ f.pos.pageNum = n
  | [], _, f, hf => by
    simp only [addToFigures, List.mem_singleton] at hf
    subst hf
    exact ⟨he, rfl⟩
  | g :: fs, h, f, hf => by
    unfold addToFigures at hf
    split at hf
    · rcases List.mem_cons.mp hf with rfl | hf
      · obtain ⟨h1, h2⟩ := h g List.mem_cons_self
        exact ⟨ee_rounded_extend h1 he, h2⟩
      · exact h f (List.mem_cons_of_mem _ hf)
    · rcases List.mem_cons.mp hf with rfl | hf
      · exact h f List.mem_cons_self
      · exact ee_addToFigures n clip e he fs (fun f hf => h f (List.mem_cons_of_mem _ hf)) f hf

theorem ee_route (clip : Clip) (e : Elem) (p : Parsing.Page) (h : PageFacts p) (he : RoundedBox 1 e.pos) (hn : e.pos.pageNum = p.pageNum) :
    PageFacts (route clip e p) := by
  unfold route
  split
  · refine ⟨?_, h.figures⟩
    intro b hb
    rcases ee_push _ _ _ hb with hb | rfl
    · exact h.boxes b hb
    · exact ⟨he, hn⟩
  · exact ⟨h.boxes, ee_addToFigures _ _ _ he _ h.figures⟩

theorem ee_place (clip : Clip) (make : ℤ → ℕ → Elem) (s s' : State) (h : place clip make s = .ok s')
    (hm : ∀ n r, RoundedBox 1 (make n r).pos ∧ (make n r).pos.pageNum = n) (hs : ∀ p ∈ s.docPages, PageFacts p) :
    (∀ p ∈ s'.docPages, PageFacts p) ∧ s'.docPages.map (fun p => (p.pageNum, p.clip)) = s.docPages.map fun p => (p.pageNum, p.clip) := by
  unfold place at h
  cases hp : s.page with
  | none => rw [hp] at h; cases h
  | some p =>
    rw [hp] at h
    have e := Outcome.ok.inj h
    subst e
    constructor
    · intro q hq
      simp only [State.docPages, Option.toList_some, List.mem_append, List.mem_singleton] at hq
      rcases hq with hq | rfl
      · exact hs q (List.mem_append_left _ hq)
      · exact ee_route _ _ _ (hs p (by simp [State.docPages, hp])) (hm _ _).1 (hm _ _).2
    · simp only [State.docPages, hp, Option.toList_some, List.map_append, List.map_cons, List.map_nil, route]
      split <;> rfl

theorem ee_makeChar (charMap : Str → Option (ℕ × Str)) (font : Font) (f : StateFont) (ev : CharEvent) (n : ℤ) (r : ℕ) :
    RoundedBox 1 (makeChar charMap font f ev n r).pos :=
  ⟨⟨_, rfl⟩, ⟨_, rfl⟩, ⟨_, rfl⟩, ⟨_, rfl⟩⟩

theorem ee_shapeBox (clip : Clip) (points : List (ℚ × ℚ)) (n : ℤ) : RoundedBox 1 (shapeBox clip points n) :=
  ⟨⟨_, rfl⟩, ⟨_, rfl⟩, ⟨_, rfl⟩, ⟨_, rfl⟩⟩

theorem ee_graphicBox (clip : Clip) (ctm : Mat) (b : Box) (h : graphicBox clip.round ctm = some b) : RoundedBox 1 b := by
  unfold graphicBox at h
  simp only at h
  split at h
  · cases h
  · have e := Option.some.inj h
    subst e
    have r : ∀ x : ℚ, ∃ y, roundTo x coordinatePrecision = roundTo y 1 := fun x => ⟨x, rfl⟩
    refine ⟨?_, ?_, ?_, ?_⟩ <;> simp only [minimum_eq_min, maximum_eq_max, Clip.round]
    · exact pl_rounded_max (pl_rounded_min (r _) (r _)) (r _)
    · exact pl_rounded_max (pl_rounded_min (r _) (r _)) (r _)
    · exact pl_rounded_min (pl_rounded_max (r _) (r _)) (r _)
    · exact pl_rounded_min (pl_rounded_max (r _) (r _)) (r _)

theorem ee_step (t : Tables) (s s' : State) (e : Event) (h : step t s e = .ok s') (hs : ∀ p ∈ s.docPages, PageFacts p) :
    (∀ p ∈ s'.docPages, PageFacts p) ∧
      s'.docPages.map (fun p => (p.pageNum, p.clip)) = s.docPages.map (fun p => (p.pageNum, p.clip)) ++ pageStarts [e] := by
  have same : ∀ u : State, u.docPages = s.docPages → pageStarts [e] = [] → (∀ p ∈ u.docPages, PageFacts p) ∧
      u.docPages.map (fun p => (p.pageNum, p.clip)) = s.docPages.map (fun p => (p.pageNum, p.clip)) ++ pageStarts [e] := by
    intro u hu he
    rw [hu, he, List.append_nil]
    exact ⟨hs, rfl⟩
  cases e with
  | startPage n clip =>
    have e := Outcome.ok.inj h; subst e
    constructor
    · intro p hp
      simp only [State.docPages, Option.toList_some, List.mem_append, List.mem_singleton] at hp
      rcases hp with hp | rfl
      · exact hs p (List.mem_append.mpr hp)
      · exact ⟨(by intro b hb; exact absurd hb List.not_mem_nil), (by intro f hf; exact absurd hf List.not_mem_nil)⟩
    · simp only [State.docPages, Option.toList_some, List.map_append, pageStarts, List.map_cons, List.map_nil]
  | endPage => have e := Outcome.ok.inj h; subst e; exact same _ rfl rfl
  | updateFont f =>
    simp only [step, updateFont] at h
    cases f with
    | none => have e := Outcome.ok.inj h; subst e; exact same _ rfl rfl
    | some f =>
      simp only at h
      split at h
      · have e := Outcome.ok.inj h; subst e; exact same _ rfl rfl
      · cases hp : parseFont t f with
        | ok new => rw [hp] at h; have e := Outcome.ok.inj h; subst e; exact same _ rfl rfl
        | throw m => rw [hp] at h; cases h
        | ub m => rw [hp] at h; cases h
  | drawChar ev =>
    simp only [step] at h
    split at h
    · have e := Outcome.ok.inj h; subst e; exact same _ rfl rfl
    · split at h
      · have e := Outcome.ok.inj h; subst e; exact same _ rfl rfl
      · split at h
        · cases h
        · obtain ⟨h1, h2⟩ := ee_place _ _ s s' h (fun n r => ⟨ee_makeChar _ _ _ _ _ _, rfl⟩) hs
          exact ⟨h1, by rw [h2]; simp [pageStarts]⟩
  | stroke ps clip =>
    simp only [step] at h
    obtain ⟨h1, h2⟩ := ee_place _ _ s s' h (fun n r => ⟨ee_shapeBox _ _ _, rfl⟩) hs
    exact ⟨h1, by rw [h2]; simp [pageStarts]⟩
  | drawGraphic m clip =>
    simp only [step] at h
    cases hg : graphicBox clip.round m with
    | none => rw [hg] at h; have e := Outcome.ok.inj h; subst e; exact same _ rfl rfl
    | some b =>
      rw [hg] at h
      have hb := ee_graphicBox clip m b hg
      obtain ⟨h1, h2⟩ := ee_place _ _ s s' h (fun n r => ⟨hb, rfl⟩) hs
      exact ⟨h1, by rw [h2]; simp [pageStarts]⟩

theorem ee_pageStarts_cons (e : Event) (es : List Event) : pageStarts (e :: es) = pageStarts [e] ++ pageStarts es := by
  cases e <;> rfl

theorem ee_run (t : Tables) : ∀ (es : List Event) (s s' : State), run t s es = .ok s' → (∀ p ∈ s.docPages, PageFacts p) →
    (∀ p ∈ s'.docPages, PageFacts p) ∧
      s'.docPages.map (fun p => (p.pageNum, p.clip)) = s.docPages.map (fun p => (p.pageNum, p.clip)) ++ pageStarts es
  | [], s, s', h, hs => by
    have e := Outcome.ok.inj h; subst e
    exact ⟨hs, by simp [pageStarts]⟩
  | e :: es, s, s', h, hs => by
    unfold run at h
    obtain ⟨s1, h1, h2⟩ := wi_bind h
    obtain ⟨g1, g2⟩ := ee_step t s s1 e h1 hs
    obtain ⟨g3, g4⟩ := ee_run t es s1 s' h2 g1
    refine ⟨g3, ?_⟩
    rw [g4, g2, ee_pageStarts_cons e es, List.append_assoc]

/-- **C75.** The parsed document has the pages that were started, in their order, with their numbers. -/
theorem c75_pages (t : Tables) (es : List Event) (s : State) (h : run t {} es = .ok s) :
    s.docPages.map (fun p => (p.pageNum, p.clip)) = pageStarts es := by
  have := (ee_run t es {} s h (by intro p hp; simp [State.docPages] at hp)).2
  simpa [State.docPages] using this

/-- **C75 (page sizes).** The pages that the stages see have the numbers of the pages in the PDF file, and the width and height of their (rounded) clip boxes. -/
theorem c75_page_sizes (t : Tables) (es : List Event) (s : State) (h : run t {} es = .ok s) :
    (toDocument s).pages.map (fun p => (p.pageNum, p.width, p.height)) =
      (pageStarts es).map fun q => (q.1, q.2.rightX - q.2.leftX, q.2.lowerY - q.2.upperY) := by
  rw [← c75_pages t es s h, List.map_map]
  unfold toDocument
  rw [List.map_map]
  rfl

theorem ee_facts (t : Tables) (es : List Event) (s : State) (h : run t {} es = .ok s) : ∀ p ∈ s.docPages, PageFacts p :=
  (ee_run t es {} s h (by intro p hp; simp [State.docPages] at hp)).1

/-- **C75.** The characters of a page are those drawn on it under its own clip box, in the order of drawing. -/
theorem c75_characters (t : Tables) (es : List Event) (s : State) (h : run t {} es = .ok s) (k : ℕ) (p : Parsing.Page) (hk : s.docPages[k]? = some p) :
    p.content.characters = pageChars t es k p.clip := by
  obtain ⟨h1, _, _⟩ := c50_routing t es s h
  have h2 := (h1 k p hk).1
  rw [h2]
  unfold contentOf onPage pageChars
  simp only
  generalize history t {} es = items
  induction items with
  | nil => rfl
  | cons i items ih =>
    rw [List.filterMap_cons, ← ih]
    by_cases hp : i.page = k
    · rw [List.filter_cons_of_pos (by simpa using hp), List.map_cons]
      by_cases hc : SameClip i.clip p.clip
      · rw [List.filter_cons_of_pos (by simpa using hc), List.map_cons, List.filterMap_cons]
        unfold charOn
        cases i.elem <;> simp [hp, hc]
      · rw [List.filter_cons_of_neg (by simpa using hc)]
        unfold charOn
        cases i.elem <;> simp [hc]
    · rw [List.filter_cons_of_neg (by simpa using hp)]
      unfold charOn
      cases i.elem <;> simp [hp]

theorem ee_start (t : Tables) (es : List Event) (s : State) (h : run t {} es = .ok s) (k : ℕ) (p : Parsing.Page) (hk : s.docPages[k]? = some p) :
    (pageStarts es)[k]? = some (p.pageNum, p.clip) := by
  rw [← c75_pages t es s h, List.getElem?_map, hk]; rfl

/-- **C75.** What the parser makes of characters within the pages is a document the stages can work on. -/
theorem c75_parsed (t : Tables) (es : List Event) (s : State) (h : run t {} es = .ok s) (hin : InPage t es) : ParsedDoc 1 (toDocument s) := by
  refine ⟨?_, ?_, ?_, ?_, ?_, rfl, rfl⟩
  · intro q hq c hc
    obtain ⟨p, hp, rfl⟩ := List.mem_map.mp hq
    obtain ⟨g, hg, rfl⟩ := List.mem_map.mp hc
    obtain ⟨k, hk⟩ := List.getElem?_of_mem hp
    have hb := (ee_facts t es s h p hp).boxes g.pos (by
      unfold Content.boxes
      exact List.mem_append_left _ (List.mem_append_left _ (List.mem_map_of_mem hg)))
    rw [c75_characters t es s h k p hk] at hg
    obtain ⟨h1, h2, h3, h4, h5⟩ := hin k _ _ (ee_start t es s h k p hk) g hg
    exact ⟨⟨hb.1, h1, h2, h3, h4⟩, h5⟩
  · intro q hq b hb
    obtain ⟨p, hp, rfl⟩ := List.mem_map.mp hq
    have hf := ee_facts t es s h p hp
    rcases List.mem_append.mp hb with hb | hb
    · rcases List.mem_append.mp hb with hb | hb
      · obtain ⟨f, hf', rfl⟩ := List.mem_map.mp hb
        exact (hf.figures f hf').1
      · exact (hf.boxes b (List.mem_append_right _ hb)).1
    · exact (hf.boxes b (List.mem_append_left _ (List.mem_append_right _ hb))).1
  all_goals
    intro q hq
    obtain ⟨p, hp, rfl⟩ := List.mem_map.mp hq
    rfl

/-- **C75.** If the pages are displayed in the order of their numbers, everything on the k-th page carries the number k. -/
theorem c75_numbered (t : Tables) (es : List Event) (s : State) (h : run t {} es = .ok s) (hN : NumberedFromOne es) :
    PagesNumbered (toDocument s) ∧ BoxesNumbered (toDocument s) := by
  have key : ∀ (k : ℕ) (q : Pipeline.Page), (toDocument s).pages[k]? = some q → ∃ p, s.docPages[k]? = some p ∧ q = toPage p ∧ p.pageNum = k + 1 ∧ PageFacts p := by
    intro k q hq
    simp only [toDocument, List.getElem?_map, Option.map_eq_some_iff] at hq
    obtain ⟨p, hp, rfl⟩ := hq
    exact ⟨p, hp, rfl, hN k _ _ (ee_start t es s h k p hp), ee_facts t es s h p (List.mem_of_getElem? hp)⟩
  constructor
  · intro k q hq
    obtain ⟨p, hp, rfl, hn, hf⟩ := key k q hq
    refine ⟨hn, ?_⟩
    intro c hc
    obtain ⟨g, hg, rfl⟩ := List.mem_map.mp hc
    rw [← hn]
    exact (hf.boxes g.pos (by
      unfold Content.boxes
      exact List.mem_append_left _ (List.mem_append_left _ (List.mem_map_of_mem hg)))).2
  · intro k q hq b hb
    obtain ⟨p, hp, rfl, hn, hf⟩ := key k q hq
    rw [← hn]
    rcases List.mem_append.mp hb with hb | hb
    · rcases List.mem_append.mp hb with hb | hb
      · obtain ⟨f, hf', rfl⟩ := List.mem_map.mp hb
        exact (hf.figures f hf').2
      · exact (hf.boxes b (List.mem_append_right _ hb)).2
    · exact (hf.boxes b (List.mem_append_left _ (List.mem_append_right _ hb))).2

/-! ## The character map -/

/-- The names whose entry in the map is broken. -/
def brokenNames : List String := ["controlNULL", "thumbs_up", "thumbs_up_alt", "thumbs_down", "thumbs_down_alt"]

set_option maxRecDepth 4000 in
theorem ee_literals : ∀ e ∈ CharMap.literals, e.1 ∉ brokenNames → CharMap.literalText e.2.2 = [Char.ofNat e.2.1] ∧ (Char.ofNat e.2.1).toNat = e.2.1 := by
  decide +kernel

/-- **C74 (partial).** If the map has an entry for the name of a character, the text of the entry is the character with the code point of the entry - apart from five names, for
which this is wrong. -/
theorem c74_char_map_partial (name : String) (code : ℕ) (text : Str) (hb : name ∉ brokenNames) (h : CharMap.charMap name.toList = some (code, text)) :
    ∃ c : Char, text = [c] ∧ c.toNat = code := by
  unfold CharMap.charMap at h
  rw [Option.map_eq_some_iff] at h
  obtain ⟨e, he, h2⟩ := h
  have hm := List.mem_of_find?_eq_some he
  have hn := List.find?_some he
  simp only [decide_eq_true_eq] at hn
  have hname : e.1 = name := String.toList_inj.mp hn
  simp only [Prod.mk.injEq] at h2
  obtain ⟨h3, h4⟩ := ee_literals e hm (by rw [hname]; exact hb)
  rw [← h2.1, ← h2.2]
  exact ⟨_, h3, h4⟩

/-- **C74 (finding).** A thumbs-up or thumbs-down sign is printed as the Greek letter U+1F44 followed by a Latin letter: `"\\u1F44E"` is not one character; and `controlNULL` has no
text at all. -/
theorem c74_broken_refuted :
    CharMap.charMap "thumbs_up".toList = some (0x1F44D, [Char.ofNat 0x1F44, 'D']) ∧
    CharMap.charMap "thumbs_up_alt".toList = some (0x1F44D, [Char.ofNat 0x1F44, 'D']) ∧
    CharMap.charMap "thumbs_down".toList = some (0x1F44E, [Char.ofNat 0x1F44, 'E']) ∧
    CharMap.charMap "thumbs_down_alt".toList = some (0x1F44E, [Char.ofNat 0x1F44, 'E']) ∧
    CharMap.charMap "controlNULL".toList = some (0, []) := by
  decide +kernel

set_option maxRecDepth 4000 in
/-- **C74.** A name has at most one meaning: entries for the same name agree, so it does not matter which of them the hash map keeps. -/
theorem c74_unambiguous : ∀ e ∈ CharMap.literals, ∀ e' ∈ CharMap.literals, e.1 = e'.1 → e = e' := by
  decide +kernel

/-- **C74 (partial).** A character of a parsed document whose name is in the map and that was drawn for a single code point has the text and the code point of the map. -/
theorem c74_in_document_partial (numbers : Str → List ℚ) (es : List Event) (s : State) (h : run ⟨CharMap.charMap, numbers⟩ {} es = .ok s) :
    ∀ p ∈ s.docPages, ∀ c ∈ Page.allChars p, ∃ a ev b, es = a ++ .drawChar ev :: b ∧
      ∀ (name : String) (code : ℕ) (text : Str), c.name = name.toList → name ∉ brokenNames → ev.uLen = 1 → CharMap.charMap name.toList = some (code, text) →
        c.unicodes = [code] ∧ ∃ ch : Char, c.text = [ch] ∧ ch.toNat = code := by
  intro p hp c hc
  obtain ⟨a, ev, b, s1, f, font, h1, h2, h3, h4, h5, _⟩ := c67_character _ es s h p hp c hc
  refine ⟨a, ev, b, h1, ?_⟩
  intro name code text hn hb hu hm
  have hm' : CharMap.charMap f.charName = some (code, text) := by rw [← h5.name, hn, hm]
  obtain ⟨ch, e1, e2⟩ := c74_char_map_partial name code text hb hm
  refine ⟨h5.codes.1 code text hu hm', ch, ?_, e2⟩
  rw [h5.text.1 code text hu hm', e1]

/-! ## Bytes -/

theorem ee_toNat_ofNat (n : ℕ) (h : n < 256) : (Char.ofNat n).toNat = n := by
  have hv : n.isValidChar := Or.inl (by omega)
  simp only [Char.ofNat, hv, dif_pos]
  rfl

theorem ee_bytes_char (c : Char) : (utf8Char c).map Char.toNat = (String.utf8EncodeChar c).map UInt8.toNat := by
  have hv : c.toNat < 1114112 := by
    have h := c.valid
    have e : c.toNat = c.val.toNat := rfl
    rcases h with h | h <;> omega
  have e : c.val.toNat = c.toNat := rfl
  unfold utf8Char String.utf8EncodeChar
  rw [e]
  generalize c.toNat = v at hv
  clear e
  have m : ∀ k, k < 256 → (UInt8.ofNat k).toNat = k := by intro k hk; simp; omega
  by_cases h1 : v < 0x80
  · rw [if_pos h1, if_pos (by omega)]
    simp only [List.map_cons, List.map_nil]
    rw [ee_toNat_ofNat _ (by omega), m _ (by omega)]
  by_cases h2 : v < 0x800
  · rw [if_neg h1, if_pos h2, if_neg (by omega), if_pos (by omega)]
    simp only [List.map_cons, List.map_nil]
    rw [ee_toNat_ofNat _ (by omega), ee_toNat_ofNat _ (by omega), m _ (by omega), m _ (by omega)]
    simp only [List.cons.injEq, and_true]
    omega
  by_cases h3 : v < 0x10000
  · rw [if_neg h1, if_neg h2, if_pos h3, if_neg (by omega), if_neg (by omega), if_pos (by omega)]
    simp only [List.map_cons, List.map_nil]
    rw [ee_toNat_ofNat _ (by omega), ee_toNat_ofNat _ (by omega), ee_toNat_ofNat _ (by omega), m _ (by omega), m _ (by omega), m _ (by omega)]
    simp only [List.cons.injEq, and_true]
    omega
  · rw [if_neg h1, if_neg h2, if_neg h3, if_neg (by omega), if_neg (by omega), if_neg (by omega)]
    simp only [List.map_cons, List.map_nil]
    rw [ee_toNat_ofNat _ (by omega), ee_toNat_ofNat _ (by omega), ee_toNat_ofNat _ (by omega), ee_toNat_ofNat _ (by omega), m _ (by omega), m _ (by omega), m _ (by omega), m _ (by omega)]
    simp only [List.cons.injEq, and_true]
    omega

/-- **C75.** The bytes of the texts are their UTF-8 encoding. -/
theorem c75_utf8 (t : Str) : (EndToEnd.utf8 t).map Char.toNat = bytes t := by
  unfold EndToEnd.utf8 bytes
  rw [List.map_flatMap]
  congr 1
  funext c
  exact ee_bytes_char c

/-! ## The whole run -/

theorem ee_seen (t : Tables) (skip : Bool) : ∀ (es : List Event) (b : Bool), Orderly t b es → Orderly t b (seen skip es) := by
  cases skip with
  | false => intro es b h; exact h
  | true =>
    intro es
    show ∀ b, Orderly t b es → Orderly t b (es.map withoutFontFile)
    induction es with
    | nil => intro b _; trivial
    | cons e es ih =>
      intro b h
      cases e with
      | startPage n clip => exact ih _ h
      | endPage => exact ih _ h
      | updateFont f =>
        cases f with
        | none => exact ⟨h.1, ih _ h.2⟩
        | some f =>
          refine ⟨?_, ih _ h.2⟩
          intro g hg
          cases Option.some.inj hg
          rfl
      | drawChar ev => exact ⟨h.1, h.2.1, ih _ h.2.2⟩
      | stroke ps clip => exact ⟨h.1, ih _ h.2⟩
      | drawGraphic m clip => exact ⟨h.1, ih _ h.2⟩

/-- The tables of the program. -/
def tablesOf (numbers : Str → List ℚ) : Tables := ⟨CharMap.charMap, numbers⟩

/-- The assumptions on the drawing operations: Poppler sends them in the right order, and the characters lie within their pages. -/
structure Drawable (numbers : Str → List ℚ) (cfg : Config) (events : List Event) : Prop where
  orderly : Orderly (tablesOf numbers) false events
  inPage : InPage (tablesOf numbers) (seen cfg.skipFontFiles events)

theorem ee_parse {numbers : Str → List ℚ} {cfg : Config} {events : List Event} (h : Drawable numbers cfg events) :
    ∃ s, run (tablesOf numbers) {} (seen cfg.skipFontFiles events) = .ok s ∧
      ∀ c d, parse numbers events c cfg.skipFontFiles d = .ok (toDocument s) := by
  obtain ⟨s, hs⟩ := c50_runs (tablesOf numbers) (seen cfg.skipFontFiles events) (ee_seen _ _ _ _ h.orderly)
  refine ⟨s, hs, ?_⟩
  intro c d
  unfold parse
  unfold tablesOf at hs
  rw [hs]; rfl

/-- **C75.** Whatever is drawn within the pages, the program does not fail, whatever stages are skipped - except that the role prediction may. -/
theorem c75_no_failure {lib : Pipeline.Lib} (hl : LibOk lib) {numbers : Str → List ℚ} {cfg : Config} {events : List Event} (h : Drawable numbers cfg events)
    (dur : ℕ → ℕ) (ts : Option (List (Str × ℕ))) :
    (∃ d' ts', Cli.process (env lib none (parse numbers events) dur) cfg ⟨{}, ts⟩ = .ok (0, ⟨d', ts'⟩)) ∨
    Enabled cfg .readingOrder ∧ ∃ d1,
      ((∃ m, Pipeline.predictRoles lib d1 = .throw m ∧ Cli.process (env lib none (parse numbers events) dur) cfg ⟨{}, ts⟩ = .throw m) ∨
       ∃ m, Pipeline.predictRoles lib d1 = .ub m ∧ Cli.process (env lib none (parse numbers events) dur) cfg ⟨{}, ts⟩ = .ub m) := by
  obtain ⟨s, h1, h2⟩ := ee_parse h
  exact c65_no_failure (by decide) hl _ _ _ _ _ _ (h2 _ _) (c75_parsed _ _ s h1 h.inPage)

/-- **C75.** A run of all stages that succeeds is one to which the claims about finished documents (C69, C72, C73) apply; its pages and everything on them are numbered if those of
the PDF are. -/
theorem c75_full_run {lib : Pipeline.Lib} (hl : LibOk lib) {numbers : Str → List ℚ} {cfg : Config} {events : List Event} (h : Drawable numbers cfg events)
    (hst : AllStages cfg) {dur : ℕ → ℕ} {ts ts' : Option (List (Str × ℕ))} {d' : Document}
    (hrun : Cli.process (env lib none (parse numbers events) dur) cfg ⟨{}, ts⟩ = .ok (0, ⟨d', ts'⟩)) :
    ∃ s, run (tablesOf numbers) {} (seen cfg.skipFontFiles events) = .ok s ∧ FullRun lib 1 cfg (toDocument s) d' ∧
      (NumberedFromOne (seen cfg.skipFontFiles events) → PagesNumbered (toDocument s) ∧ BoxesNumbered (toDocument s)) := by
  obtain ⟨s, h1, h2⟩ := ee_parse h
  exact ⟨s, h1, ⟨by decide, hl, hst, c75_parsed _ _ s h1 h.inPage, ⟨_, _, _, _, _, h2 _ _, hrun⟩⟩, c75_numbered _ _ s h1⟩

theorem ee_pageTexts (t : Tables) (es : List Event) (s : State) (h : run t {} es = .ok s) :
    (toDocument s).pages.map (fun p => p.characters.flatMap (·.text)) = (pageTexts t es).map EndToEnd.utf8 := by
  apply List.ext_getElem?
  intro k
  unfold pageTexts
  rw [← c75_pages t es s h]
  simp only [toDocument, List.map_map, List.getElem?_map, List.getElem?_mapIdx, Option.map_map]
  cases hk : s.docPages[k]? with
  | none => rfl
  | some p =>
    simp only [Option.map_some, Function.comp_apply, toPage, List.flatMap_map, toGlyph]
    rw [c75_characters t es s h k p hk]
    congr 1
    unfold EndToEnd.utf8
    rw [List.flatMap_assoc]

/-- **C75 (partial).** Without dehyphenation and merging of diacritical marks, the program prints exactly the visible characters that are drawn on the pages under their own clip boxes, in UTF-8;
each as often as it is drawn, in some order.  Missing: text drawn under another clip box (it is not printed, as part of a figure), and pages with interfering operators (C25). -/
theorem c75_text_partial {lib : Pipeline.Lib} (hl : LibOk lib) {numbers : Str → List ℚ} {cfg : Config} {events : List Event} (h : Drawable numbers cfg events)
    (hc : Complete cfg) (hdi : ¬ Enabled cfg .diacritics) (hde : ¬ Enabled cfg .dehyphenation) {dur : ℕ → ℕ} {ts ts' : Option (List (Str × ℕ))} {d' : Document}
    (hno : ∀ s, run (tablesOf numbers) {} (seen cfg.skipFontFiles events) = .ok s → ∀ p ∈ (toDocument s).pages, ∀ cs ws, DetectedWords lib cfg p cs ws → NoConflict ws)
    (hrun : Cli.process (env lib none (parse numbers events) dur) cfg ⟨{}, ts⟩ = .ok (0, ⟨d', ts'⟩)) :
    ((Serialize.plainText allRoles (Pipeline.toSDoc d')).filter visible).Perm
      ((((pageTexts (tablesOf numbers) (seen cfg.skipFontFiles events)).map EndToEnd.utf8).flatten).filter visible) := by
  obtain ⟨s, h1, h2⟩ := ee_parse h
  obtain ⟨texts, g1, g2⟩ := c65_plain_text_partial (d0 := toDocument s)
    ⟨by decide, hl, hc, c75_parsed _ _ s h1 h.inPage, hno s h1, ⟨_, _, _, _, _, h2 _ _, hrun⟩⟩ hde
  rw [← ee_pageTexts _ _ s h1]
  refine g2.trans (List.Perm.of_eq ?_)
  congr 2
  have hm : ∀ p ∈ (toDocument s).pages, ∀ c ∈ p.characters, c.markOf = none ∧ c.baseOf = none := by
    intro p hp c hc
    obtain ⟨q, _, rfl⟩ := List.mem_map.mp hp
    obtain ⟨g, _, rfl⟩ := List.mem_map.mp hc
    exact ⟨rfl, rfl⟩
  clear g2 hno
  generalize (toDocument s).pages = ps at g1 hm
  induction g1 with
  | nil => rfl
  | @cons p t ps ts hpt _ ih =>
    rw [List.map_cons, ih fun p hp => hm p (List.mem_cons_of_mem _ hp)]
    congr 1
    obtain ⟨cs, e1, e2⟩ := hpt
    rw [if_neg hdi] at e1
    subst e1
    rw [e2]
    have hm := hm p List.mem_cons_self
    rw [List.filter_eq_self.mpr fun c hc => by rw [(hm c hc).1]; rfl]
    rw [List.flatMap_def, List.flatMap_def]
    congr 1
    apply List.map_congr_left
    intro c hc
    rw [(hm c hc).2]; rfl

/-! ### Examples -/

/-- Drawing a character of the given name and text. -/
def eeChar (x y : ℚ) (clip : Clip) (name text : String) : Event := .drawChar
  { font := some { exFont with charName := name.toList }, uLen := 1, mapped := some text.toList, fontTrans := (10, 0, 0, -10)
    fontSize := 10, horizScaling := 1, rise := 0, textMat := (1, 0, 0, 1), curX := x, curY := y
    ctm := ⟨1, 0, 0, -1, 0, 800⟩, transformedFontSize := 10, clip := clip, codes := [65] }

/-- A page with two words, the second one a sign of the character map, and with a character in a figure. -/
def eeEvents : List Event :=
  [.startPage 1 ⟨0, 0, 600, 800⟩, .updateFont (some ⟨exParseGfx, none⟩), eeChar 100 600 ⟨0, 0, 600, 800⟩ "a" "a", eeChar 105 600 ⟨0, 0, 600, 800⟩ "b" "é",
   eeChar 120 600 ⟨0, 0, 600, 800⟩ "circlecopyrt" "?", eeChar 120 500 ⟨100, 100, 200, 400⟩ "c" "c", .endPage]

/-- The options of the example: neither diacritical marks nor hyphenated words are merged. -/
def eeConfig : Config := { plConfig with stage := fun st => { disabled := decide (st = .dehyphenation ∨ st = .diacritics) } }

/-- The check of the assumption on the coordinates. -/
def inPageCheck (t : Tables) (es : List Event) : Bool :=
  (pageStarts es).zipIdx.all fun p => (pageChars t es p.2 p.1.2).all fun c =>
    decide ((dblMin ≤ c.pos.leftX ∧ c.pos.leftX ≤ dblMax) ∧ (dblMin ≤ c.pos.upperY ∧ c.pos.upperY ≤ dblMax) ∧
      (dblMin ≤ c.pos.rightX ∧ c.pos.rightX ≤ dblMax) ∧ (dblMin ≤ c.pos.lowerY ∧ c.pos.lowerY ≤ dblMax) ∧ dblMin + tol < c.fontSize)

theorem ee_inPage {t : Tables} {es : List Event} (h : inPageCheck t es = true) : InPage t es := by
  intro k n clip hk c hc
  have h1 := List.all_eq_true.mp h ((n, clip), k) (List.mem_zipIdx_iff_getElem?.mpr hk)
  have h2 := List.all_eq_true.mp h1 c hc
  rw [decide_eq_true_eq] at h2
  exact h2

theorem eeEvents_drawable : Drawable (fun _ => []) eeConfig eeEvents := by
  refine ⟨⟨?_, ⟨rfl, rfl, rfl, rfl, rfl, rfl, rfl, rfl, trivial⟩⟩, ee_inPage ?_⟩
  · intro g hg
    cases Option.some.inj hg
    rfl
  · decide +kernel

/-- What the program prints for the example. -/
def eeOutput : Option Str :=
  match Cli.process (env refPipeline none (parse (fun _ => []) eeEvents) fun _ => 0) eeConfig ⟨{}, none⟩ with
  | .ok (_, r) => some (Serialize.plainText allRoles (Pipeline.toSDoc r.doc))
  | _ => none

/-- Non-vacuity: the example is printed, without the character in the figure. -/
example : eeOutput = some (EndToEnd.utf8 "aé ©\n".toList) := by decide +kernel

example : (pageTexts (tablesOf fun _ => []) (seen eeConfig.skipFontFiles eeEvents)) = ["aé©".toList] ∧ NumberedFromOne (seen eeConfig.skipFontFiles eeEvents) ∧
    CharMap.charMap "circlecopyrt".toList = some (0xA9, ['©']) := by
  refine ⟨by decide +kernel, ?_, by decide +kernel⟩
  intro k n c h
  cases k with
  | zero => cases Option.some.inj h; rfl
  | succ k => cases h

/-- Non-vacuity: the assumption of `c75_text_partial` on the operators is met by the example. -/
example (s : State) (hs : run (tablesOf fun _ => []) {} (seen eeConfig.skipFontFiles eeEvents) = .ok s) :
    ∀ p ∈ (toDocument s).pages, ∀ cs ws, DetectedWords refPipeline eeConfig p cs ws → NoConflict ws := by
  intro p hp cs ws hd
  obtain ⟨h1, a, h2⟩ := hd
  rw [if_neg (by decide)] at h1
  subst h1
  have key : (match run (tablesOf fun _ => []) {} (seen eeConfig.skipFontFiles eeEvents) with
      | .ok s => (toDocument s).pages.all fun p => noOperators (Words.detectWords refPipeline.lines.hash (Words.Active.reset p.pageNum) p.pageNum p.characters)
      | _ => false) = true := by decide +kernel
  rw [hs] at key
  have := List.all_eq_true.mp key p hp
  rw [h2] at this
  exact noOperators_spec this

end Verif.Props

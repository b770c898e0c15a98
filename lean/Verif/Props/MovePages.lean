import Verif.Props.MoveHierarchy
import Verif.Props.PipelineRun

/-!
# C81: moving the contents — the stage that detects the lines
-/

namespace Verif.Props

open Verif.Math Verif.Elements Verif.Counter Verif.Spec Verif.Words Verif.TextLines Verif.Pipeline
open Verif.PageSegmentation (PElem)

theorem mv_wordIds (dx dy : ℚ) (s : Segment) : (moveSegment dx dy s).wordIds = s.wordIds := by
  simp only [Segment.wordIds, moveSegment, List.filter_map, List.map_map, Function.comp_def, moveElem]
  rfl

theorem mv_segWords (dx dy : ℚ) (page : List Word) (s : Segment) :
    (moveSegment dx dy s).words (page.map (moveWord dx dy)) = (s.words page).map (moveWord dx dy) := by
  simp only [Segment.words, mv_wordIds, List.getElem?_map, List.map_filterMap]

theorem mv_linkLines (dx dy : ℚ) (n : ℕ) (ls : List Line) :
    linkLines n (ls.map (moveLine dx dy)) = (linkLines n ls).map fun l => { l with line := moveLine dx dy l.line } := by
  simp only [linkLines, mv_mapIdx_map, mv_map_mapIdx, List.length_map]

theorem mv_linkGroups (dx dy : ℚ) (gs : List (List Line)) : ∀ n : ℕ,
    linkGroups n (gs.map (List.map (moveLine dx dy))) = (linkGroups n gs).map fun l => { l with line := moveLine dx dy l.line } := by
  induction gs with
  | nil => intro n; rfl
  | cons g gs ih => intro n; simp only [List.map_cons, linkGroups, mv_linkLines, List.map_append, List.length_map, ih]

theorem mv_linkGroups_mem (gs : List (List Line)) : ∀ (n : ℕ), ∀ l ∈ linkGroups n gs, l.line ∈ gs.flatten := by
  induction gs with
  | nil => intro n l h; cases h
  | cons g gs ih =>
    intro n l h
    rw [linkGroups] at h
    rw [List.flatten_cons]
    rcases List.mem_append.mp h with h | h
    · obtain ⟨i, hi, rfl⟩ := List.mem_mapIdx.mp h
      exact List.mem_append_left _ (List.getElem_mem hi)
    · exact List.mem_append_right _ (ih _ l h)

theorem mv_linesOfSegment {n : ℕ} {dx dy : ℚ} {lib : Pipeline.Lib} (hk : ∃ k : ℤ, dx = k) (hl : SteadyLines dx dy lib.lines)
    (hs : LineSorts (PageWord n) (fun l => RoundedBox n l.pos) lib.lines) (acw : ℚ) (page : List Word)
    (hp : ∀ w ∈ page, mv_WordOk n dx dy w) (k : ℕ) (s : Segment) (hpos : Movable dx dy s.pos)
    (hlen : mv_weight ((s.words page).flatMap (wordGroup page)) < 2 ^ 32) :
    linesOfSegment lib acw (page.map (moveWord dx dy)) k (moveSegment dx dy s) =
      mapOk (fun r => (moveSegment dx dy r.1, r.2.map (moveTextLine dx dy))) (linesOfSegment lib acw page k s) ∧
    ∀ r, linesOfSegment lib acw page k s = .ok r → r.1.pos = s.pos ∧ ∀ l ∈ r.2, mv_LineOk n dx dy l.line ∧ l.base = {} := by
  unfold linesOfSegment
  rw [mv_segWords, List.isEmpty_map]
  by_cases he : (s.words page).isEmpty = true
  · rw [if_pos he, if_pos he]
    refine ⟨rfl, ?_⟩
    intro r h
    simp only [Outcome.ok.injEq] at h
    subst h
    exact ⟨rfl, by simp⟩
  · rw [if_neg he, if_neg he]
    have hmem : ∀ w ∈ s.words page, w ∈ page := by
      intro w hw
      obtain ⟨i, _, hi⟩ := List.mem_filterMap.mp hw
      exact List.mem_of_getElem? hi
    obtain ⟨h1, h2⟩ := mv_segmentLines hl hs acw page (s.words page) hp hmem hlen
    rw [h1]
    cases hg : segmentLines lib.lines acw page (s.words page) with
    | ok gs =>
      have hok := h2 gs hg
      have hboxes : (gs.map (List.map (moveLine dx dy))).flatten.map (fun x => x.pos) = (gs.flatten.map fun x => x.pos).map (moveBox dx dy) := by
        rw [← List.map_flatten, List.map_map, List.map_map]; rfl
      obtain ⟨t1, t2⟩ := mv_computeTrimBox hk (hl.counts dx (.inl rfl)) hpos (gs.flatten.map (·.pos)) (by
        intro b hb
        obtain ⟨l, hl', rfl⟩ := List.mem_map.mp hb
        exact ⟨(hok l hl').movable, (hok l hl').upright⟩)
      have hsp : (moveSegment dx dy s).pos = moveBox dx dy s.pos := rfl
      simp only [mapOk, Outcome.bind, hboxes, hsp, t1, mv_linkGroups]
      cases ht : computeTrimBox lib.lines.hash s.pos (gs.flatten.map (·.pos)) with
      | ok t =>
        have e := t2 t ht
        refine ⟨?_, ?_⟩
        · simp only [Outcome.ok.injEq, Prod.mk.injEq]
          refine ⟨?_, ?_⟩
          · simp only [moveSegment, List.map_map]; rfl
          · simp only [List.map_map]
            apply List.map_congr_left
            intro l _
            have hn : moveUnlessNew dx dy {} = {} := if_pos rfl
            simp only [Function.comp_apply, moveTextLine, Segment.seg, moveSeg, e, moveSegment, hn]
        · intro r h
          simp only [Outcome.ok.injEq] at h
          subst h
          refine ⟨rfl, ?_⟩
          intro l hl'
          obtain ⟨x, hx, rfl⟩ := List.mem_map.mp hl'
          exact ⟨hok _ (mv_linkGroups_mem gs k x hx), rfl⟩
      | throw m => exact ⟨rfl, fun _ h => by cases h⟩
      | ub m => exact ⟨rfl, fun _ h => by cases h⟩
    | throw m => exact ⟨rfl, fun _ h => by cases h⟩
    | ub m => exact ⟨rfl, fun _ h => by cases h⟩

theorem mv_linesOfSegments {n : ℕ} {dx dy : ℚ} {lib : Pipeline.Lib} (hk : ∃ k : ℤ, dx = k) (hl : SteadyLines dx dy lib.lines)
    (hs : LineSorts (PageWord n) (fun l => RoundedBox n l.pos) lib.lines) (acw : ℚ) (page : List Word)
    (hp : ∀ w ∈ page, mv_WordOk n dx dy w) (ss : List Segment) : ∀ (k : ℕ), (∀ s ∈ ss, Movable dx dy s.pos) →
    mv_weight ((ss.flatMap fun s => s.words page).flatMap (wordGroup page)) < 2 ^ 32 →
    linesOfSegments lib acw (page.map (moveWord dx dy)) k (ss.map (moveSegment dx dy)) =
      mapOk (fun r => (r.1.map (moveSegment dx dy), r.2.map (moveTextLine dx dy))) (linesOfSegments lib acw page k ss) ∧
    ∀ r, linesOfSegments lib acw page k ss = .ok r → (∀ s ∈ r.1, Movable dx dy s.pos) ∧ ∀ l ∈ r.2, mv_LineOk n dx dy l.line ∧ l.base = {} := by
  induction ss with
  | nil =>
    intro k _ _
    refine ⟨rfl, ?_⟩
    intro r h
    simp only [linesOfSegments, Outcome.ok.injEq] at h
    subst h
    exact ⟨by simp, by simp⟩
  | cons s ss ih =>
    intro k hpos hlen
    rw [List.flatMap_cons, List.flatMap_append, mv_weight_append] at hlen
    obtain ⟨h1, h2⟩ := mv_linesOfSegment hk hl hs acw page hp k s (hpos s (by simp)) (by omega)
    rw [List.map_cons, linesOfSegments, linesOfSegments, h1]
    cases hr : linesOfSegment lib acw page k s with
    | ok r =>
      obtain ⟨i1, i2⟩ := ih (k + r.2.length) (fun x hx => hpos x (by simp [hx])) (by omega)
      simp only [mapOk, Outcome.bind, List.length_map]
      rw [i1]
      obtain ⟨g1, g2⟩ := h2 r hr
      cases hr' : linesOfSegments lib acw page (k + r.2.length) ss with
      | ok r' =>
        obtain ⟨j1, j2⟩ := i2 r' hr'
        refine ⟨by simp only [mapOk, Outcome.bind, List.map_cons, List.map_append], ?_⟩
        intro x h
        simp only [Outcome.ok.injEq] at h
        subst h
        refine ⟨?_, ?_⟩
        · intro y hy
          rcases List.mem_cons.mp hy with rfl | hy
          · rw [g1]; exact hpos s (by simp)
          · exact j1 y hy
        · intro y hy
          rcases List.mem_append.mp hy with hy | hy
          · exact g2 y hy
          · exact j2 y hy
      | throw m => exact ⟨rfl, fun _ h => by cases h⟩
      | ub m => exact ⟨rfl, fun _ h => by cases h⟩
    | throw m => exact ⟨rfl, fun _ h => by cases h⟩
    | ub m => exact ⟨rfl, fun _ h => by cases h⟩

theorem mv_setHierarchy (dx dy acw : ℚ) (k : ℕ) (ls : List TextLine) :
    setHierarchy acw k (ls.map (moveTextLine dx dy)) = (setHierarchy acw k ls).map (moveTextLine dx dy) := by
  have h := mv_hierarchy (dx := dx) (dy := dy) (m := ls.length)
    (pos := fun i => ((ls[i]?).map fun l => l.line.pos).getD {})
    (pos' := fun i => (((ls.map (moveTextLine dx dy))[i]?).map fun l => l.line.pos).getD {}) (by
      intro i hi
      simp only [List.getElem?_map, List.getElem?_eq_getElem hi, Option.map_some, Option.getD_some]
      rfl) acw
  simp only [setHierarchy, List.length_map, h, mv_mapIdx_map, mv_map_mapIdx]
  rfl

/-- What is needed of a page before lines are detected on it. -/
structure mv_PageReady (n : ℕ) (dx dy : ℚ) (p : Page) : Prop where
  words : ∀ w ∈ p.words, mv_WordOk n dx dy w
  segments : ∀ s ∈ p.segments, Movable dx dy s.pos
  small : mv_weight ((p.segments.flatMap fun s => s.words p.words).flatMap (wordGroup p.words)) < 2 ^ 32

theorem mv_linesPages {n : ℕ} {dx dy : ℚ} {lib : Pipeline.Lib} (hk : ∃ k : ℤ, dx = k) (hl : SteadyLines dx dy lib.lines)
    (hs : LineSorts (PageWord n) (fun l => RoundedBox n l.pos) lib.lines) (acw : ℚ) (ps : List Page) : ∀ (k : ℕ),
    (∀ p ∈ ps, mv_PageReady n dx dy p) →
    linesPages lib acw k (ps.map (movePage dx dy)) =
      mapOk (fun r => (r.1.map (movePage dx dy), r.2.map (moveTextLine dx dy))) (linesPages lib acw k ps) ∧
    ∀ r, linesPages lib acw k ps = .ok r → ∀ l ∈ r.2, mv_LineOk n dx dy l.line ∧ l.base = {} := by
  induction ps with
  | nil =>
    intro k _
    refine ⟨rfl, ?_⟩
    intro r h
    simp only [linesPages, Outcome.ok.injEq] at h
    subst h
    simp
  | cons p ps ih =>
    intro k hp
    have h0 := hp p (by simp)
    obtain ⟨h1, h2⟩ := mv_linesOfSegments hk hl hs acw p.words h0.words p.segments k h0.segments h0.small
    have e1 : (movePage dx dy p).words = p.words.map (moveWord dx dy) := rfl
    have e2 : (movePage dx dy p).segments = p.segments.map (moveSegment dx dy) := rfl
    rw [List.map_cons, linesPages, linesPages, e1, e2, h1]
    cases hr : linesOfSegments lib acw p.words k p.segments with
    | ok r =>
      obtain ⟨i1, i2⟩ := ih (k + r.2.length) (fun x hx => hp x (by simp [hx]))
      simp only [mapOk, Outcome.bind, List.length_map]
      rw [i1]
      cases hr' : linesPages lib acw (k + r.2.length) ps with
      | ok r' =>
        refine ⟨by simp only [mapOk, Outcome.bind, List.map_cons, List.map_append, mv_setHierarchy]; rfl, ?_⟩
        intro x h
        simp only [Outcome.ok.injEq] at h
        subst h
        intro y hy
        rcases List.mem_append.mp hy with hy | hy
        · unfold setHierarchy at hy
          obtain ⟨i, hi, rfl⟩ := List.mem_mapIdx.mp hy
          have hx := (h2 r hr).2 r.2[i] (List.getElem_mem hi)
          exact ⟨hx.1, hx.2⟩
        · exact i2 r' hr' y hy
      | throw m => exact ⟨rfl, fun _ h => by cases h⟩
      | ub m => exact ⟨rfl, fun _ h => by cases h⟩
    | throw m => exact ⟨rfl, fun _ h => by cases h⟩
    | ub m => exact ⟨rfl, fun _ h => by cases h⟩

theorem mv_linesStage {n : ℕ} {dx dy : ℚ} {lib : Pipeline.Lib} (hk : ∃ k : ℤ, dx = k) (hl : SteadyLines dx dy lib.lines)
    (hs : LineSorts (PageWord n) (fun l => RoundedBox n l.pos) lib.lines) (d : Document) (hd : ∀ p ∈ d.pages, mv_PageReady n dx dy p) :
    linesStage lib (moveDoc dx dy d) = mapOk (moveDoc dx dy) (linesStage lib d) ∧
    ∀ d', linesStage lib d = .ok d' → ∀ l ∈ d'.lines, mv_LineOk n dx dy l.line ∧ l.base = {} := by
  obtain ⟨h1, h2⟩ := mv_linesPages hk hl hs d.stats.avgCharWidth d.pages 0 hd
  have e1 : (moveDoc dx dy d).stats = d.stats := rfl
  have e2 : (moveDoc dx dy d).pages = d.pages.map (movePage dx dy) := rfl
  unfold linesStage
  rw [e1, e2, h1]
  cases hr : linesPages lib d.stats.avgCharWidth 0 d.pages with
  | ok r =>
    refine ⟨rfl, ?_⟩
    intro d' h
    simp only [Outcome.bind, Outcome.ok.injEq] at h
    subst h
    exact h2 r hr
  | throw m => exact ⟨rfl, fun _ h => by cases h⟩
  | ub m => exact ⟨rfl, fun _ h => by cases h⟩

/-! ## Sub- and superscripts -/

theorem mv_scriptStep (dx dy mf b : ℚ) (c : Glyph) {box box' : Box} (hb : mv_StartBox dx dy box box') (hc : Movable dx dy c.pos) :
    ∃ box1 box1', Scripts.scriptStep mf b box c = ((Scripts.scriptStep mf b box c).1, box1) ∧
      Scripts.scriptStep mf (b + dy) box' (moveGlyph dx dy c) = (moveGlyph dx dy (Scripts.scriptStep mf b box c).1, box1') ∧
      mv_StartBox dx dy box1 box1' := by
  have e1 : (moveGlyph dx dy c).fontSize = c.fontSize := rfl
  have e2 : (moveGlyph dx dy c).base = c.base + dy := rfl
  have e3 : (moveGlyph dx dy c).pos = moveBox dx dy c.pos := rfl
  simp only [Scripts.scriptStep, e1, e2, mv_smaller, mv_larger]
  by_cases h1 : (smaller c.fontSize mf Scripts.fsTol && smaller c.base b Scripts.baseTol) = true
  · simp only [h1, if_true]; exact ⟨_, _, rfl, rfl, hb⟩
  · simp only [h1, Bool.false_eq_true, if_false]
    by_cases h2 : (smaller c.fontSize mf Scripts.fsTol && larger c.base b Scripts.baseTol) = true
    · simp only [h2, if_true]; exact ⟨_, _, rfl, rfl, hb⟩
    · simp only [h2, Bool.false_eq_true, if_false]
      refine ⟨_, _, rfl, rfl, ?_⟩
      rw [e3]
      rcases hb with ⟨hf, rfl⟩ | ⟨hm, rfl⟩
      · exact .inr ⟨mv_movable_first hf hc, mv_extend_first hf hc⟩
      · exact .inr ⟨mv_movable_extend hm hc, mv_extend dx dy _ _⟩

theorem mv_scriptChars (dx dy mf b : ℚ) (cs : List Glyph) : ∀ {box box' : Box}, mv_StartBox dx dy box box' → (∀ c ∈ cs, Movable dx dy c.pos) →
    (Scripts.scriptChars mf (b + dy) box' (cs.map (moveGlyph dx dy))).1 = (Scripts.scriptChars mf b box cs).1.map (moveGlyph dx dy) ∧
    mv_StartBox dx dy (Scripts.scriptChars mf b box cs).2 (Scripts.scriptChars mf (b + dy) box' (cs.map (moveGlyph dx dy))).2 := by
  induction cs with
  | nil => intro box box' hb _; exact ⟨rfl, hb⟩
  | cons c cs ih =>
    intro box box' hb hc
    obtain ⟨b1, b1', h1, h2, h3⟩ := mv_scriptStep dx dy mf b c hb (hc c (by simp))
    obtain ⟨i1, i2⟩ := ih h3 (fun x hx => hc x (by simp [hx]))
    rw [List.map_cons, Scripts.scriptChars, Scripts.scriptChars, h1, h2]
    simp only [List.map_cons, i1]
    exact ⟨trivial, i2⟩

theorem mv_scriptWords (dx dy mf b : ℚ) (ws : List Word) : ∀ {box box' : Box}, mv_StartBox dx dy box box' →
    (∀ w ∈ ws, ∀ c ∈ w.chars, Movable dx dy c.pos) →
    (Scripts.scriptWords mf (b + dy) box' (ws.map (moveWord dx dy))).1 = (Scripts.scriptWords mf b box ws).1.map (moveWord dx dy) ∧
    mv_StartBox dx dy (Scripts.scriptWords mf b box ws).2 (Scripts.scriptWords mf (b + dy) box' (ws.map (moveWord dx dy))).2 := by
  induction ws with
  | nil => intro box box' hb _; exact ⟨rfl, hb⟩
  | cons w ws ih =>
    intro box box' hb hc
    obtain ⟨c1, c2⟩ := mv_scriptChars dx dy mf b w.chars hb (hc w (by simp))
    obtain ⟨i1, i2⟩ := ih c2 (fun x hx => hc x (by simp [hx]))
    have e : (moveWord dx dy w).chars = w.chars.map (moveGlyph dx dy) := rfl
    rw [List.map_cons, Scripts.scriptWords, Scripts.scriptWords, e]
    simp only [List.map_cons, i1, c1]
    exact ⟨rfl, i2⟩

theorem mv_start_new {dx dy : ℚ} {box box' : Box} (h : mv_StartBox dx dy box box') (hd : box.rotation = 0 ∧ box.wMode = 0 ∧ box.pageNum = -1) :
    box' = moveUnlessNew dx dy box := by
  unfold moveUnlessNew
  rcases h with ⟨hf, rfl⟩ | ⟨hm, rfl⟩
  · obtain ⟨h1, h2, h3, h4⟩ := hf
    obtain ⟨d1, d2, d3⟩ := hd
    have : box' = {} := by
      cases box'
      simp only at h1 h2 h3 h4 d1 d2 d3
      subst h1 h2 h3 h4 d1 d2 d3
      rfl
    rw [if_pos this]
  · split
    · rename_i he
      rw [mv_movable_iff] at hm
      rw [he] at hm ⊢
      obtain ⟨⟨-, -, -, a4⟩, ⟨-, -, b3, -⟩, ⟨-, -, -, c4⟩, ⟨-, -, d3, -⟩⟩ := hm
      have ex : dx = 0 := by simp only at a4 b3; linarith
      have ey : dy = 0 := by simp only at c4 d3; linarith
      subst ex ey
      simp only [moveBox, add_zero]
    · rfl

theorem mv_scriptChars_keep (mf b : ℚ) (cs : List Glyph) : ∀ box : Box, (Scripts.scriptChars mf b box cs).2.rotation = box.rotation ∧
    (Scripts.scriptChars mf b box cs).2.wMode = box.wMode ∧ (Scripts.scriptChars mf b box cs).2.pageNum = box.pageNum ∧
    (Scripts.scriptChars mf b box cs).1.map (fun c => (c.pos, c.base)) = cs.map (fun c => (c.pos, c.base)) := by
  induction cs with
  | nil => intro box; exact ⟨rfl, rfl, rfl, rfl⟩
  | cons c cs ih =>
    intro box
    rw [Scripts.scriptChars]
    have hs : (Scripts.scriptStep mf b box c).2.rotation = box.rotation ∧ (Scripts.scriptStep mf b box c).2.wMode = box.wMode ∧
        (Scripts.scriptStep mf b box c).2.pageNum = box.pageNum ∧ (Scripts.scriptStep mf b box c).1.pos = c.pos ∧
        (Scripts.scriptStep mf b box c).1.base = c.base := by
      unfold Scripts.scriptStep
      split
      · exact ⟨rfl, rfl, rfl, rfl, rfl⟩
      · split <;> exact ⟨rfl, rfl, rfl, rfl, rfl⟩
    obtain ⟨s1, s2, s3, s4, s5⟩ := hs
    obtain ⟨i1, i2, i3, i4⟩ := ih (Scripts.scriptStep mf b box c).2
    simp only
    refine ⟨by rw [i1, s1], by rw [i2, s2], by rw [i3, s3], ?_⟩
    simp only [List.map_cons, i4, s4, s5]

theorem mv_scriptWords_keep (mf b : ℚ) (ws : List Word) : ∀ box : Box, (Scripts.scriptWords mf b box ws).2.rotation = box.rotation ∧
    (Scripts.scriptWords mf b box ws).2.wMode = box.wMode ∧ (Scripts.scriptWords mf b box ws).2.pageNum = box.pageNum := by
  induction ws with
  | nil => intro box; exact ⟨rfl, rfl, rfl⟩
  | cons w ws ih =>
    intro box
    rw [Scripts.scriptWords]
    obtain ⟨s1, s2, s3, _⟩ := mv_scriptChars_keep mf b w.chars box
    obtain ⟨i1, i2, i3⟩ := ih (Scripts.scriptChars mf b box w.chars).2
    simp only
    exact ⟨by rw [i1, s1], by rw [i2, s2], by rw [i3, s3]⟩

theorem mv_scriptLine {n : ℕ} {dx dy : ℚ} (mf : ℚ) {l : Line} (hl : mv_LineOk n dx dy l) :
    Scripts.scriptLine mf (moveLine dx dy l) = (moveLine dx dy (Scripts.scriptLine mf l).1, moveUnlessNew dx dy (Scripts.scriptLine mf l).2) := by
  obtain ⟨h1, h2⟩ := mv_scriptWords dx dy mf l.base l.words (box := {}) (box' := {}) (.inl ⟨⟨rfl, rfl, rfl, rfl⟩, rfl⟩)
    (fun w hw => (hl.words w hw).glyphs)
  obtain ⟨k1, k2, k3⟩ := mv_scriptWords_keep mf l.base l.words {}
  have e := mv_start_new h2 ⟨k1, k2, k3⟩
  have eb : (moveLine dx dy l).base = l.base + dy := rfl
  have ew : (moveLine dx dy l).words = l.words.map (moveWord dx dy) := rfl
  unfold Scripts.scriptLine
  rw [eb, ew]
  simp only [h1, e]
  rfl

end Verif.Props

import Verif.Props.MoveSegments
import Verif.Props.MoveBlocks
import Verif.Props.MoveOrder

/-!
# C81: moving the contents — the stages
-/

namespace Verif.Props

open Verif.Math Verif.Elements Verif.Counter Verif.Spec Verif.Words Verif.TextLines Verif.Pipeline
open Verif.PageSegmentation (PElem)
open Verif.ReadingOrder (RElem Role)

/-- What is needed of a document between the stages. -/
structure mv_DocOk (n : ℕ) (dx dy : ℚ) (d : Document) : Prop where
  glyphs : ∀ p ∈ d.pages, ∀ c ∈ p.characters, Movable dx dy c.pos ∧ c.pos.rotation ≠ 1 ∧ c.pos.rotation ≠ 3
  boxes : ∀ p ∈ d.pages, ∀ b ∈ p.figures ++ p.graphics ++ p.shapes, Movable dx dy b
  words : ∀ p ∈ d.pages, ∀ w ∈ p.words, mv_WordOk n dx dy w
  segments : ∀ p ∈ d.pages, ∀ s ∈ p.segments, Movable dx dy s.pos
  lines : ∀ l ∈ d.lines, mv_LineOk n dx dy l.line
  bases : (∀ l ∈ d.lines, l.base = {}) ∨ (∀ l ∈ d.lines, Movable dx dy l.base)
  links : mv_Linked d.lines.length (blocksState d)
  blocks : ∀ p ∈ d.pages, ∀ b ∈ p.blocks, Movable dx dy b.block.pos

/-! ## Statistics of the glyphs -/

theorem mv_glyphSums (dx dy : ℚ) (cs : List Glyph) : ∀ s : Statistics.GlyphSums,
    (cs.map (moveGlyph dx dy)).foldl Statistics.glyphStep s = cs.foldl Statistics.glyphStep s := by
  induction cs with
  | nil => intro s; rfl
  | cons c cs ih =>
    intro s
    have e : (moveGlyph dx dy c).pos = moveBox dx dy c.pos := rfl
    have : Statistics.glyphStep s (moveGlyph dx dy c) = Statistics.glyphStep s c := by
      unfold Statistics.glyphStep
      rw [e, mv_width, mv_height]
      rfl
    rw [List.map_cons, List.foldl_cons, List.foldl_cons, this, ih]

theorem mv_glyphStatistics (dx dy : ℚ) (h : HashOrder) (st : Statistics.Stats) (ps : List (List Glyph)) :
    Statistics.glyphStatistics h st (ps.map (List.map (moveGlyph dx dy))) = Statistics.glyphStatistics h st ps := by
  have : ∀ s : Statistics.GlyphSums, (ps.map (List.map (moveGlyph dx dy))).foldl (fun s page => page.foldl Statistics.glyphStep s) s =
      ps.foldl (fun s page => page.foldl Statistics.glyphStep s) s := by
    induction ps with
    | nil => intro s; rfl
    | cons p ps ih => intro s; rw [List.map_cons, List.foldl_cons, List.foldl_cons, mv_glyphSums, ih]
  simp only [Statistics.glyphStatistics, this]

theorem mv_glyphStage (dx dy : ℚ) (lib : Pipeline.Lib) (d : Document) :
    glyphStage lib (moveDoc dx dy d) = mapOk (moveDoc dx dy) (glyphStage lib d) := by
  have e : ((moveDoc dx dy d).pages.map (·.characters)) = (d.pages.map (·.characters)).map (List.map (moveGlyph dx dy)) := by
    simp only [moveDoc, List.map_map]; rfl
  have es : (moveDoc dx dy d).stats = d.stats := rfl
  unfold glyphStage
  rw [e, es, mv_glyphStatistics]
  cases Statistics.glyphStatistics lib.lines.hash d.stats (d.pages.map (·.characters)) <;> rfl

theorem mv_glyphStage_ok {n : ℕ} {dx dy : ℚ} {lib : Pipeline.Lib} {d d' : Document} (h : mv_DocOk n dx dy d) (hd : glyphStage lib d = .ok d') :
    mv_DocOk n dx dy d' := by
  unfold glyphStage at hd
  cases hs : Statistics.glyphStatistics lib.lines.hash d.stats (d.pages.map (·.characters)) with
  | throw m => rw [hs] at hd; cases hd
  | ub m => rw [hs] at hd; cases hd
  | ok s =>
    rw [hs] at hd
    simp only [Outcome.bind, Outcome.ok.injEq] at hd
    subst hd
    exact ⟨h.glyphs, h.boxes, h.words, h.segments, h.lines, h.bases, h.links, h.blocks⟩

/-! ## Steps on the pages -/

theorem mv_mapPages {dx dy : ℚ} {f : Page → Outcome Page} (ps : List Page)
    (hf : ∀ p ∈ ps, f (movePage dx dy p) = mapOk (movePage dx dy) (f p)) :
    mapPages f (ps.map (movePage dx dy)) = mapOk (List.map (movePage dx dy)) (mapPages f ps) := by
  induction ps with
  | nil => rfl
  | cons p ps ih =>
    rw [List.map_cons, mapPages, mapPages, hf p (by simp), ih fun q hq => hf q (by simp [hq])]
    cases f p with
    | throw m => rfl
    | ub m => rfl
    | ok p' =>
      simp only [mapOk, Outcome.bind]
      cases mapPages f ps <;> rfl

theorem mv_mapPages_mem {f : Page → Outcome Page} (ps : List Page) : ∀ {ps' : List Page}, mapPages f ps = .ok ps' →
    ∀ p' ∈ ps', ∃ p ∈ ps, f p = .ok p' := by
  induction ps with
  | nil => intro ps' h; simp only [mapPages, Outcome.ok.injEq] at h; subst h; simp
  | cons p ps ih =>
    intro ps' h
    rw [mapPages] at h
    cases hp : f p with
    | throw m => rw [hp] at h; cases h
    | ub m => rw [hp] at h; cases h
    | ok p1 =>
      rw [hp] at h
      cases hq : mapPages f ps with
      | throw m => rw [hq] at h; cases h
      | ub m => rw [hq] at h; cases h
      | ok ps1 =>
        rw [hq] at h
        simp only [Outcome.bind, Outcome.ok.injEq] at h
        subst h
        intro x hx
        rcases List.mem_cons.mp hx with rfl | hx
        · exact ⟨p, by simp, hp⟩
        · obtain ⟨q, hq1, hq2⟩ := ih hq x hx
          exact ⟨q, by simp [hq1], hq2⟩

/-! ## Diacritical marks -/

theorem mv_attach (dx dy : ℚ) (compose : List ℕ → Text.Str) (cs : List Glyph) (i b u : ℕ) (cur base : Glyph) :
    Diacritics.attach compose (cs.map (moveGlyph dx dy)) i b u (moveGlyph dx dy cur) (moveGlyph dx dy base) =
      (Diacritics.attach compose cs i b u cur base).map (moveGlyph dx dy) := by
  have e : (moveGlyph dx dy base).pos.extend (moveGlyph dx dy cur).pos = moveBox dx dy (base.pos.extend cur.pos) := mv_extend dx dy _ _
  unfold Diacritics.attach
  rw [e, List.map_set, List.map_set]
  rfl

theorem mv_diacriticsStep (dx dy : ℚ) (compose : List ℕ → Text.Str) (cs : List Glyph) (i : ℕ) :
    Diacritics.step compose (cs.map (moveGlyph dx dy)) i = mapOk (List.map (moveGlyph dx dy)) (Diacritics.step compose cs i) := by
  have er : ∀ (p : Option Glyph) (c : Glyph), Diacritics.prevRatio (p.map (moveGlyph dx dy)) (moveGlyph dx dy c) = Diacritics.prevRatio p c := by
    intro p c
    cases p with
    | none => rfl
    | some p => exact mv_maxX dx dy _ _
  have en : ∀ (p : Option Glyph) (c : Glyph), Diacritics.nextRatio (moveGlyph dx dy c) (p.map (moveGlyph dx dy)) = Diacritics.nextRatio c p := by
    intro p c
    cases p with
    | none => rfl
    | some p => exact mv_maxX dx dy _ _
  unfold Diacritics.step
  simp only [List.getElem?_map]
  have ep : (if i > 0 then Option.map (moveGlyph dx dy) cs[i - 1]? else none) = (if i > 0 then cs[i - 1]? else none).map (moveGlyph dx dy) := by
    split <;> rfl
  rw [ep]
  generalize (if i > 0 then cs[i - 1]? else none) = prev
  cases cs[i]? with
  | none => rfl
  | some cur =>
    have em : Diacritics.markUnicode (moveGlyph dx dy cur) = Diacritics.markUnicode cur := rfl
    simp only [Option.map_some, em, er, en]
    cases Diacritics.markUnicode cur with
    | none => rfl
    | some u =>
      simp only
      by_cases h1 : (equal (Diacritics.prevRatio prev cur) 0 tol && equal (Diacritics.nextRatio cur cs[i + 1]?) 0 tol) = true
      · rw [if_pos h1, if_pos h1]; rfl
      · rw [if_neg h1, if_neg h1]
        by_cases h2 : larger (Diacritics.prevRatio prev cur) (Diacritics.nextRatio cur cs[i + 1]?) tol = true
        · rw [if_pos h2, if_pos h2]
          cases prev with
          | none => rfl
          | some base => simp only [Option.map_some, mapOk, Outcome.bind, mv_attach]
        · rw [if_neg h2, if_neg h2]
          cases cs[i + 1]? with
          | none => rfl
          | some base => simp only [Option.map_some, mapOk, Outcome.bind, mv_attach]

theorem mv_diacritics (dx dy : ℚ) (compose : List ℕ → Text.Str) (cs : List Glyph) :
    Diacritics.processPage compose (cs.map (moveGlyph dx dy)) = mapOk (List.map (moveGlyph dx dy)) (Diacritics.processPage compose cs) := by
  have : ∀ k, Diacritics.run compose (cs.map (moveGlyph dx dy)) k = mapOk (List.map (moveGlyph dx dy)) (Diacritics.run compose cs k) := by
    intro k
    induction k with
    | zero => rfl
    | succ k ih =>
      rw [Diacritics.run, Diacritics.run, ih]
      cases Diacritics.run compose cs k with
      | throw m => rfl
      | ub m => rfl
      | ok s => simp only [mapOk, Outcome.bind]; exact mv_diacriticsStep dx dy compose s k
  unfold Diacritics.processPage
  rw [List.length_map, this]

theorem mv_diacriticsStage (dx dy : ℚ) (lib : Pipeline.Lib) (d : Document) :
    diacriticsStage lib (moveDoc dx dy d) = mapOk (moveDoc dx dy) (diacriticsStage lib d) := by
  unfold diacriticsStage
  have e : (moveDoc dx dy d).pages = d.pages.map (movePage dx dy) := rfl
  rw [e, mv_mapPages]
  · cases mapPages (fun p => (Diacritics.processPage lib.compose p.characters).bind fun cs => .ok { p with characters := cs }) d.pages <;> rfl
  · intro p _
    have ec : (movePage dx dy p).characters = p.characters.map (moveGlyph dx dy) := rfl
    rw [ec, mv_diacritics]
    cases Diacritics.processPage lib.compose p.characters <;> rfl

theorem mv_diacriticsStage_ok {n : ℕ} {dx dy : ℚ} {lib : Pipeline.Lib} {d d' : Document} (h : mv_DocOk n dx dy d)
    (hd : diacriticsStage lib d = .ok d') : mv_DocOk n dx dy d' := by
  unfold diacriticsStage at hd
  cases hs : mapPages (fun p => (Diacritics.processPage lib.compose p.characters).bind fun cs => .ok { p with characters := cs }) d.pages with
  | throw m => rw [hs] at hd; cases hd
  | ub m => rw [hs] at hd; cases hd
  | ok ps =>
    rw [hs] at hd
    simp only [Outcome.bind, Outcome.ok.injEq] at hd
    subst hd
    have hm := mv_mapPages_mem d.pages hs
    have key : ∀ p' ∈ ps, ∃ p ∈ d.pages, p' = { p with characters := p'.characters } ∧
        ∀ c ∈ p'.characters, Movable dx dy c.pos ∧ c.pos.rotation ≠ 1 ∧ c.pos.rotation ≠ 3 := by
      intro p' hp'
      obtain ⟨p, hp, e⟩ := hm p' hp'
      obtain ⟨out, h1, h2⟩ := pl_diacritics_keep (P := fun c => Movable dx dy c.pos ∧ c.pos.rotation ≠ 1 ∧ c.pos.rotation ≠ 3)
        ⟨fun _ _ hc => hc, fun b c _ _ hb hc => ⟨mv_movable_extend hb.1 hc.1, hb.2⟩⟩ lib.compose p.characters (h.glyphs p hp)
      rw [h1] at e
      simp only [Outcome.bind, Outcome.ok.injEq] at e
      subst e
      exact ⟨p, hp, rfl, h2⟩
    refine ⟨fun p' hp' => ?_, fun p' hp' => ?_, fun p' hp' => ?_, fun p' hp' => ?_, h.lines, h.bases, h.links, fun p' hp' => ?_⟩
    all_goals obtain ⟨p, hp, e, hc⟩ := key p' hp'
    · exact hc
    · rw [e]; exact h.boxes p hp
    · rw [e]; exact h.words p hp
    · rw [e]; exact h.segments p hp
    · rw [e]; exact h.blocks p hp

/-! ## Words -/

theorem mv_wordsStage {n : ℕ} {dx dy : ℚ} (lib : Pipeline.Lib) {d : Document} (h : mv_DocOk n dx dy d) :
    wordsStage lib (moveDoc dx dy d) = mapOk (moveDoc dx dy) (wordsStage lib d) := by
  unfold wordsStage
  have e : (moveDoc dx dy d).pages = d.pages.map (movePage dx dy) := rfl
  rw [e, mv_mapPages]
  · cases mapPages (wordsPage lib) d.pages <;> rfl
  · intro p hp
    have ec : (movePage dx dy p).characters = p.characters.map (moveGlyph dx dy) := rfl
    have en : (movePage dx dy p).pageNum = p.pageNum := rfl
    have hw := mv_detectWords (dx := dx) (dy := dy) lib.lines.hash (Active.reset p.pageNum) (Active.reset p.pageNum) p.pageNum p.characters
      (fun c hc => (h.glyphs p hp c hc).1)
    unfold wordsPage
    rw [ec, en]
    cases h1 : detectWords lib.lines.hash (Active.reset p.pageNum) p.pageNum (p.characters.map (moveGlyph dx dy)) with
    | throw m =>
      rw [h1] at hw
      cases h2 : detectWords lib.lines.hash (Active.reset p.pageNum) p.pageNum p.characters with
      | throw m' => rw [h2] at hw; simp only [mapOk, Outcome.bind] at hw ⊢; exact congrArg Outcome.throw (by injection hw)
      | ub m' => rw [h2] at hw; cases hw
      | ok r => rw [h2] at hw; cases hw
    | ub m =>
      rw [h1] at hw
      cases h2 : detectWords lib.lines.hash (Active.reset p.pageNum) p.pageNum p.characters with
      | throw m' => rw [h2] at hw; cases hw
      | ub m' => rw [h2] at hw; simp only [mapOk, Outcome.bind] at hw ⊢; exact congrArg Outcome.ub (by injection hw)
      | ok r => rw [h2] at hw; cases hw
    | ok r =>
      rw [h1] at hw
      cases h2 : detectWords lib.lines.hash (Active.reset p.pageNum) p.pageNum p.characters with
      | throw m' => rw [h2] at hw; cases hw
      | ub m' => rw [h2] at hw; cases hw
      | ok r' =>
        rw [h2] at hw
        simp only [mapOk, Outcome.bind, Outcome.ok.injEq] at hw ⊢
        rw [hw, mv_stacked]
        rfl

theorem mv_wordRotation {h : HashOrder} {cs : List Glyph} {w : Word} (hw : createWord h cs = .ok w) : ∃ c ∈ cs, w.pos.rotation = c.pos.rotation := by
  unfold createWord at hw
  cases cs with
  | nil => cases hw
  | cons c cs =>
    refine ⟨c, by simp, ?_⟩
    simp only at hw
    revert hw
    cases mostFreqOr h [] [] ((c :: cs).map (·.fontName)) with
    | throw m => intro hw; cases hw
    | ub m => intro hw; cases hw
    | ok a =>
      cases mostFreqOr h 0 (-1) ((c :: cs).map (·.fontSize)) with
      | throw m => intro hw; cases hw
      | ub m => intro hw; cases hw
      | ok b =>
        intro hw
        simp only [Outcome.bind, Outcome.ok.injEq] at hw
        subst hw
        rfl

theorem mv_wordsStage_ok {n : ℕ} {dx dy : ℚ} {lib : Pipeline.Lib} {d d' : Document} (h : mv_DocOk n dx dy d)
    (hg : ∀ p ∈ d.pages, ∀ c ∈ p.characters, GoodGlyph n c) (hd : wordsStage lib d = .ok d') : mv_DocOk n dx dy d' := by
  unfold wordsStage at hd
  cases hs : mapPages (wordsPage lib) d.pages with
  | throw m => rw [hs] at hd; cases hd
  | ub m => rw [hs] at hd; cases hd
  | ok ps =>
    rw [hs] at hd
    simp only [Outcome.bind, Outcome.ok.injEq] at hd
    subst hd
    have hm := mv_mapPages_mem d.pages hs
    have key : ∀ p' ∈ ps, ∃ p ∈ d.pages, p' = { p with words := p'.words } ∧ ∀ w ∈ p'.words, mv_WordOk n dx dy w := by
      intro p' hp'
      obtain ⟨p, hp, e⟩ := hm p' hp'
      obtain ⟨ws, a', h1, h2, h3, _, h5⟩ := pl_words lib.lines.hash (Active.reset p.pageNum) p.pageNum p.characters (hg p hp)
      unfold wordsPage at e
      rw [h1] at e
      simp only [Outcome.bind, Outcome.ok.injEq] at e
      subst e
      refine ⟨p, hp, rfl, ?_⟩
      intro w hw
      obtain ⟨v, hv, q1, q2, rfl⟩ := pl_merge_mem ws h2 hw
      obtain ⟨b1, b2, b3, b4, b5⟩ := h5 v hv
      have hch : ∀ c ∈ v.chars, Movable dx dy c.pos ∧ c.pos.rotation ≠ 1 ∧ c.pos.rotation ≠ 3 := by
        intro c hc
        have : c ∈ (ws.map (·.chars)).flatten := List.mem_flatten.mpr ⟨_, List.mem_map.mpr ⟨v, hv, rfl⟩, hc⟩
        rw [h3] at this
        exact h.glyphs p hp c (List.mem_of_mem_filter this)
      obtain ⟨i, hi⟩ := List.getElem?_of_mem hv
      obtain ⟨v', h6, h7⟩ := c24_page_words lib.lines.hash _ a' p.pageNum p.characters ws h1 i v hi
      obtain ⟨m1, m2, m3⟩ := mv_createWord_movable (fun c hc => (hch c hc).1) h6
      obtain ⟨c, hc, hrot⟩ := mv_wordRotation h6
      have epos : v.pos = v'.pos := by rw [h7]
      exact ⟨pl_pageWord b1, by simp only; rw [epos]; exact m1, by simp only; rw [epos, hrot]; exact (hch c hc).2, b3, fun c hc => (hch c hc).1⟩
    refine ⟨fun p' hp' => ?_, fun p' hp' => ?_, fun p' hp' => ?_, fun p' hp' => ?_, h.lines, h.bases, h.links, fun p' hp' => ?_⟩
    all_goals obtain ⟨p, hp, e, hc⟩ := key p' hp'
    · rw [e]; exact h.glyphs p hp
    · rw [e]; exact h.boxes p hp
    · exact hc
    · rw [e]; exact h.segments p hp
    · rw [e]; exact h.blocks p hp

/-! ## Statistics of the words -/

theorem mv_wordStep (dx dy mf : ℚ) (p : Option Word) (w : Word) (k : Statistics.WordCounts) :
    Statistics.wordStep mf (p.map (moveWord dx dy)) (moveWord dx dy w) k = Statistics.wordStep mf p w k := by
  have e : (moveWord dx dy w).pos = moveBox dx dy w.pos := rfl
  have e1 : (moveWord dx dy w).fontSize = w.fontSize := rfl
  have e2 : (moveBox dx dy w.pos).rotation = w.pos.rotation := rfl
  have e3 : (moveBox dx dy w.pos).wMode = w.pos.wMode := rfl
  unfold Statistics.wordStep
  cases p with
  | none => simp only [Option.map_none, e, e1, mv_height]
  | some p =>
    have f : (moveWord dx dy p).pos = moveBox dx dy p.pos := rfl
    have f1 : (moveWord dx dy p).fontSize = p.fontSize := rfl
    have f2 : (moveBox dx dy p.pos).rotation = p.pos.rotation := rfl
    have f3 : (moveBox dx dy p.pos).wMode = p.pos.wMode := rfl
    simp only [Option.map_some, e, e1, e2, e3, f, f1, f2, f3, mv_height, mv_maxY, mv_hgap, mv_vgap]

theorem mv_wordLoop (dx dy mf : ℚ) (ws : List Word) : ∀ (p : Option Word) (k : Statistics.WordCounts),
    Statistics.wordLoop mf (p.map (moveWord dx dy)) (ws.map (moveWord dx dy)) k = Statistics.wordLoop mf p ws k := by
  induction ws with
  | nil => intro p k; rfl
  | cons w ws ih =>
    intro p k
    rw [List.map_cons, Statistics.wordLoop, Statistics.wordLoop, mv_wordStep]
    exact ih (some w) _

theorem mv_wordStatistics (dx dy : ℚ) (h : HashOrder) (st : Statistics.Stats) (ps : List (List Word)) :
    Statistics.wordStatistics h st (ps.map (List.map (moveWord dx dy))) = Statistics.wordStatistics h st ps := by
  have : ∀ s : Statistics.WordCounts, (ps.map (List.map (moveWord dx dy))).foldl (fun k page => Statistics.wordLoop st.mostFreqFontSize none page k) s =
      ps.foldl (fun k page => Statistics.wordLoop st.mostFreqFontSize none page k) s := by
    induction ps with
    | nil => intro s; rfl
    | cons p ps ih =>
      intro s
      have := mv_wordLoop dx dy st.mostFreqFontSize p none s
      rw [Option.map_none] at this
      rw [List.map_cons, List.foldl_cons, List.foldl_cons, this, ih]
  simp only [Statistics.wordStatistics, this]

theorem mv_wordStatsStage (dx dy : ℚ) (lib : Pipeline.Lib) (d : Document) :
    wordStatsStage lib (moveDoc dx dy d) = mapOk (moveDoc dx dy) (wordStatsStage lib d) := by
  have e : ((moveDoc dx dy d).pages.map (·.words)) = (d.pages.map (·.words)).map (List.map (moveWord dx dy)) := by
    simp only [moveDoc, List.map_map]; rfl
  have es : (moveDoc dx dy d).stats = d.stats := rfl
  unfold wordStatsStage
  rw [e, es, mv_wordStatistics]
  cases Statistics.wordStatistics lib.lines.hash d.stats (d.pages.map (·.words)) <;> rfl

theorem mv_wordStatsStage_ok {n : ℕ} {dx dy : ℚ} {lib : Pipeline.Lib} {d d' : Document} (h : mv_DocOk n dx dy d) (hd : wordStatsStage lib d = .ok d') :
    mv_DocOk n dx dy d' := by
  unfold wordStatsStage at hd
  cases hs : Statistics.wordStatistics lib.lines.hash d.stats (d.pages.map (·.words)) with
  | throw m => rw [hs] at hd; cases hd
  | ub m => rw [hs] at hd; cases hd
  | ok s =>
    rw [hs] at hd
    simp only [Outcome.bind, Outcome.ok.injEq] at hd
    subst hd
    exact ⟨h.glyphs, h.boxes, h.words, h.segments, h.lines, h.bases, h.links, h.blocks⟩

/-! ## Segmentation -/

theorem mv_pageElems (dx dy : ℚ) (p : Page) : pageElems (movePage dx dy p) = movePageElems dx dy (pageElems p) := by
  simp only [pageElems, movePage, movePageElems, mv_mapIdx_map, mv_map_mapIdx]
  rfl

theorem mv_pageElems_ok {n : ℕ} {dx dy : ℚ} {p : Page} (hw : ∀ w ∈ p.words, mv_WordOk n dx dy w)
    (hb : ∀ b ∈ p.figures ++ p.graphics ++ p.shapes, Movable dx dy b ∧ RoundedBox n b) :
    ∀ e ∈ PageSegmentation.pageElements (pageElems p), RoundedBox n e.pos ∧ Movable dx dy e.pos := by
  intro e he
  have he' : e ∈ (pageElems p).words ++ (pageElems p).figures ++ (pageElems p).graphics ++ (pageElems p).shapes := he
  simp only [List.mem_append] at he'
  rcases he' with ((he | he) | he) | he <;> obtain ⟨i, hi, rfl⟩ := List.mem_mapIdx.mp he <;> simp only
  · have := hw _ (List.getElem_mem hi)
    exact ⟨this.page.rounded, this.movable⟩
  · have := hb p.figures[i] (by simp); exact ⟨this.2, this.1⟩
  · have := hb p.graphics[i] (by simp); exact ⟨this.2, this.1⟩
  · have := hb p.shapes[i] (by simp); exact ⟨this.2, this.1⟩

theorem mv_permOn_and {α : Type} {P Q : α → Prop} {s : List α → List α} (h : PermOn P s) : PermOn (fun a => P a ∧ Q a) s :=
  fun l hl => h l fun e he => (hl e he).1

theorem mv_segmentPage {n : ℕ} (hn : n ≤ 3) {dx dy : ℚ} {lib : Pipeline.Lib} (hl : LibContract PElem.pos lib.seg)
    (hs : SteadyCuts (moveElem dx dy) lib.seg) (st : Statistics.Stats) {p : Page} (hw : ∀ w ∈ p.words, mv_WordOk n dx dy w)
    (hb : ∀ b ∈ p.figures ++ p.graphics ++ p.shapes, Movable dx dy b ∧ RoundedBox n b) :
    segmentPage lib st (movePage dx dy p) = movePage dx dy (segmentPage lib st p) ∧
    ((∀ s ∈ p.segments, Movable dx dy s.pos) → ∀ s ∈ (segmentPage lib st p).segments, Movable dx dy s.pos) := by
  obtain ⟨hx, hy⟩ := c17_sorts_are_permutations hl hn
  have hQ : ∀ a : PElem, (RoundedBox n a.pos ∧ Movable dx dy a.pos) → Movable dx dy a.pos := fun _ h => h.2
  have h1 := mv_processPage (docStats st) hs hQ (mv_permOn_and hx) (mv_permOn_and hy) (mv_pageElems_ok hw hb)
  have h2 := mv_processPage_movable (docStats st) hQ (mv_permOn_and hx) (mv_permOn_and hy) (mv_pageElems_ok hw hb)
  constructor
  · unfold segmentPage
    rw [mv_pageElems, h1]
    have ht : ∀ g : PageSegmentation.Segment, ({ elements := (moveGroup dx dy g).elements, pos := (moveGroup dx dy g).pos } : Segment) =
        moveSegment dx dy { elements := g.elements, pos := g.pos } := by
      intro g
      unfold moveSegment
      simp only
      have : moveTrim dx dy (dblMax, dblMax, dblMin, dblMin) = (dblMax, dblMax, dblMin, dblMin) := if_pos rfl
      rw [this]
      rfl
    simp only [movePage, List.map_append, List.map_map, Function.comp_def, ht]
  · intro hseg s hs'
    unfold segmentPage at hs'
    simp only at hs'
    rcases List.mem_append.mp hs' with hm | hm
    · exact hseg s hm
    · obtain ⟨g, hg, rfl⟩ := List.mem_map.mp hm
      exact (h2 g hg).1

theorem mv_segmentationStage {n : ℕ} (hn : n ≤ 3) {dx dy : ℚ} {lib : Pipeline.Lib} (hl : LibContract PElem.pos lib.seg)
    (hs : SteadyCuts (moveElem dx dy) lib.seg) {d : Document} (h : mv_DocOk n dx dy d) (hb : BoxesOk n d) :
    segmentationStage lib (moveDoc dx dy d) = mapOk (moveDoc dx dy) (segmentationStage lib d) ∧
    ∀ d', segmentationStage lib d = .ok d' → mv_DocOk n dx dy d' := by
  have key : ∀ p ∈ d.pages, _ := fun p hp => mv_segmentPage hn hl hs d.stats (h.words p hp) fun b hbm => ⟨h.boxes p hp b hbm, hb p hp b hbm⟩
  constructor
  · unfold segmentationStage
    simp only [mapOk, Outcome.bind, Outcome.ok.injEq]
    unfold moveDoc
    simp only [List.map_map]
    congr 1
    apply List.map_congr_left
    intro p hp
    exact (key p hp).1
  · intro d' hd
    unfold segmentationStage at hd
    simp only [Outcome.ok.injEq] at hd
    subst hd
    refine ⟨fun p' hp' => ?_, fun p' hp' => ?_, fun p' hp' => ?_, fun p' hp' => ?_, h.lines, h.bases, h.links, fun p' hp' => ?_⟩
    all_goals obtain ⟨p, hp, rfl⟩ := List.mem_map.mp hp'
    · exact h.glyphs p hp
    · exact h.boxes p hp
    · exact h.words p hp
    · exact (key p hp).2 (h.segments p hp)
    · exact h.blocks p hp

end Verif.Props

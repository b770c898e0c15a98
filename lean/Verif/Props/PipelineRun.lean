import Verif.Props.PipelineStages
import Verif.Props.PageSegmentation
import Verif.Props.ReadingOrder

/-!
# C65: what every stage preserves
-/

namespace Verif.Props

open Verif.Math Verif.Elements Verif.Spec Verif.Words Verif.TextLines Verif.Pipeline Verif.Counter
open Verif.PageSegmentation (PElem DocStats PageElems)
open Verif.ReadingOrder (RElem Role)

/-- Which of the stages that build up the text have run. -/
structure Ran where
  marks : Bool
  words : Bool
  segments : Bool
  lines : Bool
  blocks : Bool

/-- A block has the font of one of its lines. -/
def FontOfLine (ls : List TextLine) (b : TextBlocks.Block) : Prop :=
  ∃ i ∈ b.lines, ∃ l, ls[i]? = some l ∧ l.line.fontName = b.fontName

/-- The state of a page; `p0` is the page as it was parsed, `ls` are the lines of the document. -/
structure PageInv (lib : Pipeline.Lib) (n : ℕ) (R : Ran) (ls : List TextLine) (p0 p : Page) : Prop where
  num : p.pageNum = p0.pageNum
  figures : p.figures = p0.figures
  graphics : p.graphics = p0.graphics
  shapes : p.shapes = p0.shapes
  chars : if R.marks then Diacritics.processPage lib.compose p0.characters = .ok p.characters
    else p.characters = p0.characters
  glyphs : ∀ c ∈ p.characters, GoodGlyph n c
  words : if R.words then ∃ ws a, detectWords lib.lines.hash (Active.reset p.pageNum) p.pageNum p.characters = .ok (ws, a) ∧
      p.words = mergeStackedMathSymbols ws else p.words = []
  good : ∀ w ∈ p.words, GoodWord n w
  segments : if R.segments then (p.segments.flatMap (·.wordIds)).Perm (List.range p.words.length) else p.segments = []
  lines : if R.lines then ∀ h k, (sWordsAt h k ls (p.segments.flatMap (·.lines))).Perm
      (if R.segments then (p.words.flatMap (wordGroup p.words)).map (toSWord h k) else [])
    else ∀ s ∈ p.segments, s.lines = []
  blocks : if R.blocks then (p.blocks.flatMap (·.block.lines)).Perm (p.segments.flatMap (·.lines)) ∧
      ∀ b ∈ p.blocks, PageBox n b.block.pos ∧ b.block.lines ≠ [] ∧ (b.block.lines.length < 2 ^ 32 → FontOfLine ls b.block) else p.blocks = []

/-- The state of the document. -/
structure DocInv (lib : Pipeline.Lib) (n : ℕ) (R : Ran) (d0 d : Document) : Prop where
  pages : List.Forall₂ (PageInv lib n R d.lines) d0.pages d.pages
  ranks : (d.pages.flatMap fun p => p.segments.flatMap (·.lines)) = List.range d.lines.length
  good : ∀ l ∈ d.lines, GoodLine n l.line
  hyphens : d.hyphens = d0.hyphens
  fonts : d.fontInfos = d0.fontInfos

/-- What the stages need of the C++ library: its sorts sort. -/
structure LibOk (lib : Pipeline.Lib) : Prop where
  lines : LineLibContract lib.lines
  seg : LibContract PElem.pos lib.seg
  order : LibContract RElem.pos lib.order
  sortTop : SortContract topFirst lib.sortTop

theorem pl_forall₂_imp {α β : Type} {R S : α → β → Prop} {l : List α} {m : List β} (h : List.Forall₂ R l m)
    (hi : ∀ a b, a ∈ l → R a b → S a b) : List.Forall₂ S l m := forall₂_mem h hi

theorem pl_forall₂_mapR {α β γ : Type} {R : α → β → Prop} {S : α → γ → Prop} (f : β → γ) {l : List α} {m : List β}
    (h : List.Forall₂ R l m) (hi : ∀ a b, a ∈ l → R a b → S a (f b)) : List.Forall₂ S l (m.map f) := by
  apply pl_forall₂_map
  exact forall₂_mem h hi

/-- A step on the pages. -/
theorem pl_stepPages {f : Page → Outcome Page} {R S : Page → Page → Prop} {l m : List Page}
    (h : List.Forall₂ R l m) (hf : ∀ p0 ∈ l, ∀ p, R p0 p → ∃ p', f p = .ok p' ∧ S p0 p') :
    ∃ m', mapPages f m = .ok m' ∧ List.Forall₂ S l m' := by
  induction h with
  | nil => exact ⟨[], rfl, .nil⟩
  | cons hab _ ih =>
    obtain ⟨p', h1, h2⟩ := hf _ (by simp) _ hab
    obtain ⟨m', h3, h4⟩ := ih fun p0 hp0 => hf p0 (by simp [hp0])
    refine ⟨p' :: m', ?_, .cons h2 h4⟩
    rw [mapPages, h1]
    simp only [Outcome.bind]
    rw [h3]

/-! ## The stages -/

theorem pl_glyphStage {lib : Pipeline.Lib} {n : ℕ} {R : Ran} {d0 d : Document} (h : DocInv lib n R d0 d) :
    ∃ d', glyphStage lib d = .ok d' ∧ DocInv lib n R d0 d' := by
  obtain ⟨s, hs⟩ := pl_glyphStats lib.lines.hash d.stats (d.pages.map (·.characters))
  refine ⟨{ d with stats := s }, ?_, ⟨h.pages, h.ranks, h.good, h.hyphens, h.fonts⟩⟩
  unfold glyphStage; rw [hs]; rfl

theorem pl_wordStatsStage {lib : Pipeline.Lib} {n : ℕ} {R : Ran} {d0 d : Document} (h : DocInv lib n R d0 d) :
    ∃ d', wordStatsStage lib d = .ok d' ∧ DocInv lib n R d0 d' := by
  obtain ⟨s, hs⟩ := pl_wordStats lib.lines.hash d.stats (d.pages.map (·.words))
  refine ⟨{ d with stats := s }, ?_, ⟨h.pages, h.ranks, h.good, h.hyphens, h.fonts⟩⟩
  unfold wordStatsStage; rw [hs]; rfl

theorem pl_lineStatsStage {lib : Pipeline.Lib} {n : ℕ} {R : Ran} {d0 d : Document} (h : DocInv lib n R d0 d) :
    ∃ d', lineStatsStage lib d = .ok d' ∧ DocInv lib n R d0 d' := by
  obtain ⟨s, hs⟩ := pl_lineStats lib.lines d.stats (d.pages.flatMap fun p => p.segments.map (basedLines d))
  refine ⟨{ d with stats := s }, ?_, ⟨h.pages, h.ranks, h.good, h.hyphens, h.fonts⟩⟩
  unfold lineStatsStage; rw [hs]; rfl

theorem pl_noLines {lib : Pipeline.Lib} {n : ℕ} {R : Ran} {d0 : Document} {ls : List TextLine} {ps : List Page} (hl : R.lines = false)
    (h : List.Forall₂ (PageInv lib n R ls) d0.pages ps) : (ps.flatMap fun p => p.segments.flatMap (·.lines)) = [] := by
  rw [List.flatMap_eq_nil_iff]
  intro p hp
  obtain ⟨p0, _, hi⟩ := pl_forall₂_right h p hp
  rw [List.flatMap_eq_nil_iff]
  have := hi.lines
  rw [hl] at this
  simpa using this

theorem pl_diacriticsStage {lib : Pipeline.Lib} {n : ℕ} {d0 d : Document} (h : DocInv lib n ⟨false, false, false, false, false⟩ d0 d) :
    ∃ d', diacriticsStage lib d = .ok d' ∧ DocInv lib n ⟨true, false, false, false, false⟩ d0 d' := by
  have hp := h.pages
  obtain ⟨ps, h1, h2⟩ := pl_stepPages (f := fun p => (Diacritics.processPage lib.compose p.characters).bind fun cs =>
    .ok { p with characters := cs }) (S := PageInv lib n ⟨true, false, false, false, false⟩ d.lines) hp (by
      intro p0 _ p hi
      obtain ⟨out, g1, g2⟩ := pl_diacritics lib.compose p.characters hi.glyphs
      refine ⟨{ p with characters := out }, by rw [g1]; rfl, ?_⟩
      refine ⟨hi.num, hi.figures, hi.graphics, hi.shapes, ?_, g2, hi.words, hi.good, hi.segments, hi.lines, hi.blocks⟩
      have := hi.chars
      simp only [Bool.false_eq_true, if_false] at this
      rw [← this]; simpa using g1)
  refine ⟨{ d with pages := ps }, by unfold diacriticsStage; rw [h1]; rfl, ⟨h2, ?_, h.good, h.hyphens, h.fonts⟩⟩
  have hr := h.ranks
  rw [pl_noLines rfl h.pages] at hr
  simp only
  rw [pl_noLines rfl h2]; exact hr

theorem pl_wordsStage {lib : Pipeline.Lib} {n : ℕ} {m : Bool} {d0 d : Document} (h : DocInv lib n ⟨m, false, false, false, false⟩ d0 d) :
    ∃ d', wordsStage lib d = .ok d' ∧ DocInv lib n ⟨m, true, false, false, false⟩ d0 d' := by
  obtain ⟨ps, h1, h2⟩ := pl_stepPages (f := wordsPage lib)
    (S := PageInv lib n ⟨m, true, false, false, false⟩ d.lines) h.pages (by
      intro p0 _ p hi
      obtain ⟨ws, a, g1, g2, g3, g4, g5⟩ := pl_words lib.lines.hash (Active.reset p.pageNum) p.pageNum p.characters hi.glyphs
      refine ⟨{ p with words := mergeStackedMathSymbols ws }, by unfold wordsPage; rw [g1]; rfl, ?_⟩
      refine ⟨hi.num, hi.figures, hi.graphics, hi.shapes, hi.chars, hi.glyphs, ⟨ws, a, g1, rfl⟩, ?_, ?_, hi.lines, hi.blocks⟩
      · intro w hw
        obtain ⟨v, hv, q1, q2, rfl⟩ := pl_merge_mem ws g2 hw
        exact ⟨(g5 v hv).1, (g5 v hv).2.1⟩
      · have := hi.segments
        simpa using this)
  refine ⟨{ d with pages := ps }, by unfold wordsStage; rw [h1]; rfl, ⟨h2, ?_, h.good, h.hyphens, h.fonts⟩⟩
  have hr := h.ranks
  rw [pl_noLines rfl h.pages] at hr
  simp only
  rw [pl_noLines rfl h2]; exact hr

/-- The elements of a page. -/
theorem pl_wordIds (l : List PElem) (p : Page) (hl : l.Perm ((pageElems p).words ++ (pageElems p).figures ++ (pageElems p).graphics ++ (pageElems p).shapes)) :
    ((l.filter fun e => e.kind = .word).map (·.uid)).Perm (List.range p.words.length) := by
  refine ((hl.filter _).map _).trans (List.Perm.of_eq ?_)
  have hnone : ∀ (k : PageSegmentation.Kind) (bs : List Box), k ≠ .word →
      (bs.mapIdx fun i b => (⟨k, i, b, -1⟩ : PElem)).filter (fun e => e.kind = .word) = [] := by
    intro k bs hk
    rw [List.filter_eq_nil_iff]
    intro e he
    obtain ⟨i, hi, rfl⟩ := List.mem_mapIdx.mp he
    simpa using hk
  rw [List.filter_append, List.filter_append, List.filter_append]
  simp only [pageElems]
  rw [hnone .figure p.figures (by decide), hnone .graphic p.graphics (by decide), hnone .shape p.shapes (by decide)]
  simp only [List.append_nil]
  rw [List.filter_eq_self.mpr]
  · apply List.ext_getElem?
    intro i
    simp only [List.getElem?_map, List.getElem?_mapIdx, List.getElem?_range']
    by_cases hi : i < p.words.length
    · rw [List.getElem?_eq_getElem hi, List.getElem?_range hi]; rfl
    · rw [List.getElem?_eq_none (by omega), List.getElem?_eq_none (by simp; omega)]; rfl
  · intro e he
    obtain ⟨i, hi, rfl⟩ := List.mem_mapIdx.mp he
    simp

theorem pl_segmentPage {lib : Pipeline.Lib} {n : ℕ} (hn : n ≤ 3) (hl : LibContract PElem.pos lib.seg) (st : Statistics.Stats) (p : Page)
    (hs : p.segments = []) (hw : ∀ w ∈ p.words, GoodWord n w) (hb : ∀ b ∈ p.figures ++ p.graphics ++ p.shapes, RoundedBox n b) :
    ((segmentPage lib st p).segments.flatMap (·.wordIds)).Perm (List.range p.words.length) ∧
    ∀ s ∈ (segmentPage lib st p).segments, s.lines = [] := by
  obtain ⟨hx, hy⟩ := c17_sorts_are_permutations hl hn
  have hQ : ∀ e ∈ (pageElems p).words ++ (pageElems p).figures ++ (pageElems p).graphics ++ (pageElems p).shapes, RoundedBox n e.pos := by
    intro e he
    simp only [List.mem_append] at he
    rcases he with ((he | he) | he) | he <;> obtain ⟨i, hi, rfl⟩ := List.mem_mapIdx.mp he <;> simp only
    · exact (hw _ (List.getElem_mem hi)).1.rounded
    all_goals exact hb _ (by simp)
  obtain ⟨h1, _⟩ := c21_segments_cover (docStats st) lib.seg hx hy (pageElems p) hQ
  constructor
  · have h2 := pl_wordIds _ p h1
    refine List.Perm.trans (List.Perm.of_eq ?_) h2
    unfold segmentPage
    simp only [hs, List.nil_append, List.flatMap_map]
    generalize PageSegmentation.processPage (docStats st) lib.seg (pageElems p) = gs
    induction gs with
    | nil => rfl
    | cons g gs ih =>
      rw [List.flatMap_cons, ih, List.map_cons, List.flatten_cons, List.filter_append, List.map_append]
      rfl
  · intro s hs'
    unfold segmentPage at hs'
    simp only [hs, List.nil_append] at hs'
    obtain ⟨g, _, rfl⟩ := List.mem_map.mp hs'
    rfl

/-- What is required of the boxes of figures, graphics and shapes. -/
def BoxesOk (n : ℕ) (d : Document) : Prop := ∀ p ∈ d.pages, ∀ b ∈ p.figures ++ p.graphics ++ p.shapes, RoundedBox n b

theorem pl_segmentationStage {lib : Pipeline.Lib} {n : ℕ} (hn : n ≤ 3) (hl : LibOk lib) {m w : Bool} {d0 d : Document} (hb : BoxesOk n d0)
    (h : DocInv lib n ⟨m, w, false, false, false⟩ d0 d) :
    ∃ d', segmentationStage lib d = .ok d' ∧ DocInv lib n ⟨m, w, true, false, false⟩ d0 d' := by
  have h2 : List.Forall₂ (PageInv lib n ⟨m, w, true, false, false⟩ d.lines) d0.pages (d.pages.map (segmentPage lib d.stats)) := by
    refine pl_forall₂_mapR _ h.pages ?_
    intro p0 p hp0 hi
    have hs : p.segments = [] := by simpa using hi.segments
    obtain ⟨g1, g2⟩ := pl_segmentPage hn hl.seg d.stats p hs hi.good (by
      rw [hi.figures, hi.graphics, hi.shapes]; exact hb p0 hp0)
    exact ⟨hi.num, hi.figures, hi.graphics, hi.shapes, hi.chars, hi.glyphs, hi.words, hi.good, g1, g2, hi.blocks⟩
  refine ⟨{ d with pages := d.pages.map (segmentPage lib d.stats) }, rfl, ⟨h2, ?_, h.good, h.hyphens, h.fonts⟩⟩
  have hr := h.ranks
  rw [pl_noLines rfl h.pages] at hr
  simp only
  rw [pl_noLines rfl h2]; exact hr

/-! ## Lines -/

theorem pl_allWords (page : List Word) : (List.range page.length).filterMap (page[·]?) = page := by
  induction page with
  | nil => rfl
  | cons w ws ih =>
    rw [List.length_cons, List.range_succ_eq_map, List.filterMap_cons]
    simp only [List.getElem?_cons_zero, List.filterMap_map]
    congr 1

theorem pl_segmentWords (p : Page) (h : (p.segments.flatMap (·.wordIds)).Perm (List.range p.words.length)) :
    (p.segments.flatMap fun s => s.words p.words).Perm p.words := by
  have h1 : (p.segments.flatMap fun s => s.words p.words) = (p.segments.flatMap (·.wordIds)).filterMap (p.words[·]?) := by
    generalize p.segments = ss
    induction ss with
    | nil => rfl
    | cons s ss ih => rw [List.flatMap_cons, List.flatMap_cons, List.filterMap_append, ih]; rfl
  rw [h1]
  refine (h.filterMap _).trans (List.Perm.of_eq (pl_allWords _))

theorem pl_linesStage {lib : Pipeline.Lib} {n : ℕ} (hn : n ≤ 3) (hl : LibOk lib) {m w s : Bool} {d0 d : Document}
    (h : DocInv lib n ⟨m, w, s, false, false⟩ d0 d) :
    ∃ d', linesStage lib d = .ok d' ∧ DocInv lib n ⟨m, w, s, true, false⟩ d0 d' := by
  have hs := c26_sorts_are_permutations hl.lines hn
  obtain ⟨ps', tls, h1, h2, h3, h4⟩ := pl_linesPages hs d.stats.avgCharWidth d.pages [] (by
      intro p hp
      obtain ⟨p0, _, hi⟩ := pl_forall₂_right h.pages p hp
      exact hi.good) (by
      intro p hp
      obtain ⟨p0, _, hi⟩ := pl_forall₂_right h.pages p hp
      simpa using hi.lines)
  have h3 := h3 []
  simp only [List.nil_append, List.append_nil] at h3
  refine ⟨{ d with pages := ps', lines := tls }, by unfold linesStage; rw [show (0 : ℕ) = ([] : List TextLine).length from rfl, h1]; rfl, ⟨?_, ?_, h4, h.hyphens, h.fonts⟩⟩
  · refine pl_forall₂_trans ?_ h.pages h3
    intro p0 p p' hi hlo
    obtain ⟨hsame, helems, htext⟩ := hlo
    generalize p'.segments = ss at hsame helems htext
    subst hsame
    refine ⟨hi.num, hi.figures, hi.graphics, hi.shapes, hi.chars, hi.glyphs, hi.words, hi.good, ?_, ?_, hi.blocks⟩
    · have hids : ss.flatMap (·.wordIds) = p.segments.flatMap (·.wordIds) := by
        have := congrArg (List.flatMap fun es : List PElem => (es.filter fun e => e.kind = .word).map (·.uid)) helems
        rw [List.flatMap_map, List.flatMap_map] at this
        exact this
      have hseg := hi.segments
      cases s with
      | true => simp only [if_true] at hseg ⊢; rw [hids]; exact hseg
      | false =>
        simp only [Bool.false_eq_true, if_false] at hseg ⊢
        rw [hseg] at helems
        simpa using helems
    · simp only [if_true]
      intro hy k
      have hseg := hi.segments
      cases s with
      | true =>
        simp only [if_true] at hseg ⊢
        exact (htext.trans ((pl_segmentWords p hseg).flatMap_right _)).map _
      | false =>
        simp only [Bool.false_eq_true, if_false] at hseg ⊢
        rw [hseg] at htext
        exact htext.map _
  · simp only
    rw [h2, List.range_eq_range']; rfl

theorem pl_scriptsStage {lib : Pipeline.Lib} {n : ℕ} {R : Ran} {d0 d : Document} (h : DocInv lib n R d0 d) :
    ∃ d', scriptsStage d = .ok d' ∧ DocInv lib n R d0 d' := by
  refine ⟨_, rfl, ⟨?_, ?_, ?_, h.hyphens, h.fonts⟩⟩
  · refine pl_forall₂_imp h.pages ?_
    intro p0 p _ hi
    refine ⟨hi.num, hi.figures, hi.graphics, hi.shapes, hi.chars, hi.glyphs, hi.words, hi.good, hi.segments, ?_, ?_⟩
    · have := hi.lines
      split
      · next hr =>
        rw [if_pos hr] at this
        intro hy k
        simp only
        rw [pl_scripts_words]
        exact this hy k
      · next hr => rw [if_neg hr] at this; exact this
    · have := hi.blocks
      split
      · next hr =>
        rw [if_pos hr] at this
        refine ⟨this.1, ?_⟩
        intro b hb
        obtain ⟨g1, g2, g3⟩ := this.2 b hb
        refine ⟨g1, g2, fun hlt => ?_⟩
        obtain ⟨i, hi', l, hl, e⟩ := g3 hlt
        refine ⟨i, hi', _, by rw [List.getElem?_map, hl]; rfl, ?_⟩
        exact e
      · next hr => rw [if_neg hr] at this; exact this
  · simp only [List.length_map]; exact h.ranks
  · intro l hl
    obtain ⟨x, hx, rfl⟩ := List.mem_map.mp hl
    exact pl_scriptLine_good _ (h.good x hx)

theorem pl_linesFromSegments {lib : Pipeline.Lib} {n : ℕ} {R : Ran} {d0 d : Document} (h : DocInv lib n R d0 d) :
    DocInv lib n R d0 (linesFromSegments d) := by
  refine ⟨?_, ?_, h.good, h.hyphens, h.fonts⟩
  · refine pl_forall₂_mapR _ h.pages ?_
    intro p0 p _ hi
    exact ⟨hi.num, hi.figures, hi.graphics, hi.shapes, hi.chars, hi.glyphs, hi.words, hi.good, hi.segments, hi.lines, hi.blocks⟩
  · unfold linesFromSegments
    simp only [List.flatMap_map]
    exact h.ranks

/-! ## Blocks -/

theorem pl_blockBox {n : ℕ} {d : TextBlocks.Doc} {b : TextBlocks.Block} (hm : Made d b) (hg : ∀ i ∈ b.lines, PageBox n (d.line i).pos) :
    PageBox n b.pos := by
  cases hb : b.lines with
  | nil => exact absurd hb hm.nonempty
  | cons f fs =>
    rw [hm.box f (by rw [hb]; rfl)]
    refine pl_hull (by simp [hb]) rfl rfl rfl rfl ?_
    intro e he
    simp only [List.map_map, List.mem_map, Function.comp_apply] at he
    obtain ⟨i, hi, rfl⟩ := he
    exact pl_norm (hg i hi)

theorem pl_blocksStage {lib : Pipeline.Lib} {n : ℕ} {m w s l : Bool} {d0 d : Document}
    (h : DocInv lib n ⟨m, w, s, l, false⟩ d0 d) :
    ∃ d', blocksStage lib d = .ok d' ∧ DocInv lib n ⟨m, w, s, l, true⟩ d0 d' := by
  have hflat : (d.pages.map fun p => p.segments.map (·.lines)).flatten.flatten = List.range d.lines.length := by
    rw [← h.ranks]
    generalize d.pages = ps
    induction ps with
    | nil => rfl
    | cons p ps ih =>
      rw [List.map_cons, List.flatten_cons, List.flatten_append, ih, List.flatMap_cons, List.flatMap_def (l := p.segments)]
  obtain ⟨s1, s', bss, h1, h2, _⟩ := process_spec lib.lines.hash (blocksDoc lib d) (blocksState d)
    (d.pages.map fun p => p.segments.map (·.lines)) (by rw [hflat]; exact List.nodup_range)
  have hgood : ∀ i, i < d.lines.length → PageBox n ((blocksDoc lib d).line i).pos := by
    intro i hi
    simp only [blocksDoc, List.getElem?_eq_getElem hi, Option.map_some, Option.getD_some]
    exact (h.good _ (List.getElem_mem hi)).box
  have hsub : ∀ p ∈ d.pages, ∀ i ∈ p.segments.flatMap (·.lines), i < d.lines.length := by
    intro p hp i hi
    have : i ∈ List.range d.lines.length := by
      rw [← h.ranks]; exact List.mem_flatMap.mpr ⟨p, hp, hi⟩
    exact List.mem_range.mp this
  have hzip : ∀ (all : List ℕ) (ps0 ps : List Page) (bss : List (List TextBlocks.Block)), List.Forall₂ (PageInv lib n ⟨m, w, s, l, false⟩ d.lines) ps0 ps →
      (∀ p ∈ ps, p ∈ d.pages) →
      List.Forall₂ (PageOf (blocksDoc lib d) all (blocksState d) s1 s') (ps.map fun p => p.segments.map (·.lines)) bss →
      List.Forall₂ (PageInv lib n ⟨m, w, s, l, true⟩ d.lines) ps0 (List.zipWith (fun (p : Page) bs =>
        { p with blocks := p.blocks ++ bs.map fun b => (⟨b, lib.uninitialised⟩ : TextBlock) }) ps bss) ∧
      (List.zipWith (fun (p : Page) bs =>
        { p with blocks := p.blocks ++ bs.map fun b => (⟨b, lib.uninitialised⟩ : TextBlock) }) ps bss).flatMap (fun p => p.segments.flatMap (·.lines)) =
        ps.flatMap fun p => p.segments.flatMap (·.lines) := by
    intro all ps0 ps bss ha
    induction ha generalizing bss with
    | nil => intro _ hb; cases hb; exact ⟨.nil, rfl⟩
    | @cons p0 p ps0 ps hi _ ih =>
      intro hmem hb
      cases hb with
      | @cons _ bs _ bss hpo hb =>
        obtain ⟨g1, g2⟩ := ih bss (fun q hq => hmem q (by simp [hq])) hb
        refine ⟨.cons ?_ g1, ?_⟩
        · obtain ⟨pbs, hp, hf⟩ := hpo
          have hcov : bs.flatMap (·.lines) = p.segments.flatMap (·.lines) := by
            obtain ⟨gss, q1, q2⟩ := hf.split
            have q3 : gss.flatten.flatten.flatten = (pbs.flatten).flatMap (·.lines) := by
              clear q1 hf hp
              induction q2 with
              | nil => rfl
              | cons hab _ ih =>
                rw [List.flatten_cons, List.flatten_append, List.flatten_append, ih, FinalOf.flatten hab, List.flatten_cons, List.flatMap_append]
            rw [List.flatMap_def, q1, q3, prelim_cover hp, List.flatMap_def]
          have hbl : p.blocks = [] := by simpa using hi.blocks
          refine ⟨hi.num, hi.figures, hi.graphics, hi.shapes, hi.chars, hi.glyphs, hi.words, hi.good, hi.segments, hi.lines, ?_⟩
          simp only [if_true, hbl, List.nil_append, List.flatMap_map]
          refine ⟨List.Perm.of_eq hcov, ?_⟩
          intro b hb'
          obtain ⟨x, hx, rfl⟩ := List.mem_map.mp hb'
          have hxl : ∀ i ∈ x.lines, i < d.lines.length := fun i hi' => hsub p (hmem p (by simp)) i (by
            rw [← hcov]
            exact List.mem_flatMap.mpr ⟨x, hx, hi'⟩)
          refine ⟨pl_blockBox (hf.made x hx) fun i hi' => hgood i (hxl i hi'), (hf.made x hx).nonempty, ?_⟩
          intro hlt
          have hm := ((hf.made x hx).font hlt).1.1
          rw [List.map_map] at hm
          obtain ⟨i, hi', e⟩ := List.mem_map.mp hm
          refine ⟨i, hi', d.lines[i]'(hxl i hi'), List.getElem?_eq_getElem (hxl i hi'), ?_⟩
          rw [← e]
          simp only [Function.comp_apply, blocksDoc, List.getElem?_eq_getElem (hxl i hi'), Option.map_some, Option.getD_some]
        · rw [List.zipWith_cons_cons, List.flatMap_cons, List.flatMap_cons, g2]
  obtain ⟨g1, g2⟩ := hzip _ d0.pages d.pages bss h.pages (fun _ hp => hp) h2
  have hrun : blocksStage lib d = .ok { d with pages := List.zipWith (fun (p : Page) bs =>
      { p with blocks := p.blocks ++ bs.map fun b => (⟨b, lib.uninitialised⟩ : TextBlock) }) d.pages bss } := by
    unfold blocksStage; rw [h1]; rfl
  refine ⟨_, hrun, ⟨g1, ?_, h.good, h.hyphens, h.fonts⟩⟩
  simp only
  rw [g2]; exact h.ranks

/-! ## Roles and reading order -/

theorem pl_predictLoop_length (data : List (Option ℚ)) (y : ℕ) : ∀ (k i : ℕ) (rs : List ℕ),
    Roles.predictLoop data y k i = .ok rs → rs.length = k := by
  intro k
  induction k with
  | zero => intro i rs h; simp only [Roles.predictLoop, Outcome.ok.injEq] at h; subst h; rfl
  | succ k ih =>
    intro i rs h
    rw [Roles.predictLoop] at h
    cases ha : Roles.argmaxLoop data (i * y) y 0 0 0 with
    | ok r =>
      rw [ha] at h
      simp only [Outcome.bind] at h
      cases hr : Roles.predictLoop data y k (i + 1) with
      | ok rs' =>
        rw [hr] at h
        simp only [Outcome.ok.injEq] at h
        subst h
        simp [ih (i + 1) rs' hr]
      | throw m => rw [hr] at h; cases h
      | ub m => rw [hr] at h; cases h
    | throw m => rw [ha] at h; cases h
    | ub m => rw [ha] at h; cases h

theorem pl_predictRoles_length {lib : Pipeline.Lib} {d : Document} {rs : List Role} (h : predictRoles lib d = .ok rs) :
    rs.length = (d.pages.flatMap (·.blocks)).length := by
  unfold predictRoles at h
  simp only at h
  generalize (Roles.layoutTensor lib.classes (fun f => (d.fontInfos f).map fun i => (i.weight, i.isItalic)) (d.pages.map (featurePage lib d))) = o1 at h
  cases o1 with
  | throw m => cases h
  | ub m => cases h
  | ok t =>
    simp only [Outcome.bind] at h
    cases hn : lib.network t (d.pages.map (featurePage lib d)) with
    | throw m => rw [hn] at h; cases h
    | ub m => rw [hn] at h; cases h
    | ok out =>
      rw [hn] at h
      simp only [Outcome.bind] at h
      unfold Roles.predict at h
      cases hp : Roles.predictLoop out.2 out.1 (d.pages.flatMap (·.blocks)).length 0 with
      | throw m => rw [hp] at h; cases h
      | ub m => rw [hp] at h; cases h
      | ok ks =>
        rw [hp] at h
        simp only [Outcome.bind] at h
        split at h
        · simp only [Outcome.ok.injEq] at h
          subst h
          simp [pl_predictLoop_length _ _ _ _ _ hp]
        · cases h

/-- The blocks of a page, apart from their roles. -/
structure Roled (p p' : Page) : Prop where
  same : p' = { p with blocks := p'.blocks }
  blocks : p'.blocks.map (·.block) = p.blocks.map (·.block)

theorem pl_assignRoles (ps : List Page) : ∀ rs : List Role, rs.length = (ps.flatMap (·.blocks)).length →
    List.Forall₂ Roled ps (assignRoles ps rs) := by
  induction ps with
  | nil => intro rs _; exact .nil
  | cons p ps ih =>
    intro rs h
    rw [List.flatMap_cons, List.length_append] at h
    refine .cons ⟨rfl, ?_⟩ (ih _ (by rw [List.length_drop]; omega))
    apply List.ext_getElem?
    intro i
    simp only [List.getElem?_map, List.getElem?_zipWith]
    by_cases hi : i < p.blocks.length
    · rw [List.getElem?_eq_getElem hi, List.getElem?_take_of_lt hi, List.getElem?_eq_getElem (by omega)]
      rfl
    · rw [List.getElem?_eq_none (by omega)]

theorem pl_blockElems (p : Page) : (orderElems p).blocks.filterMap (blockOf p.blocks) = p.blocks := by
  unfold orderElems
  simp only
  have : ∀ (bs pre : List TextBlock),
      ((bs.mapIdx fun i b => RElem.block (i + pre.length) b.role b.block.pos).filterMap (blockOf (pre ++ bs))) = bs := by
    intro bs
    induction bs with
    | nil => intro pre; rfl
    | cons b bs ih =>
      intro pre
      rw [List.mapIdx_cons, List.filterMap_cons]
      have h0 : blockOf (pre ++ b :: bs) (RElem.block (0 + pre.length) b.role b.block.pos) = some b := by
        simp [blockOf]
      rw [h0]
      simp only
      congr 1
      have := ih (pre ++ [b])
      rw [List.append_assoc, List.singleton_append] at this
      simp only [List.length_append, List.length_singleton] at this
      refine Eq.trans ?_ this
      congr 1
      congr 1
      funext i b
      simp only [RElem.block.injEq, and_true]
      omega
  have h := this p.blocks []
  simpa using h

theorem pl_orderPage {lib : Pipeline.Lib} {n : ℕ} (hn : n ≤ 3) (hl : LibOk lib) (st : Statistics.Stats) (p : Page)
    (hb : ∀ b ∈ p.blocks, PageBox n b.block.pos) (hf : ∀ b ∈ p.figures ++ p.graphics ++ p.shapes, RoundedBox n b) :
    (orderPage lib st p).blocks.Perm p.blocks := by
  obtain ⟨hx, hy⟩ := c17_sorts_are_permutations hl.order hn
  have h := c33_permutation ⟨st.avgCharWidth, st.avgCharHeight⟩ lib.order lib.sortTop hx hy hl.sortTop (orderElems p).blocks
    (orderElems p).figures (orderElems p).shapes (by
      intro e he
      obtain ⟨i, hi, rfl⟩ := List.mem_mapIdx.mp he
      rfl) (by
      intro e he
      rcases List.mem_append.mp he with he | he <;> obtain ⟨i, hi, rfl⟩ := List.mem_mapIdx.mp he <;> rfl) (by
      intro e he
      simp only [List.mem_append] at he
      rcases he with (he | he) | he <;> obtain ⟨i, hi, rfl⟩ := List.mem_mapIdx.mp he
      · exact (hb _ (List.getElem_mem hi)).rounded
      all_goals exact hf _ (by simp [RElem.pos]))
  have h2 := h.filterMap (blockOf p.blocks)
  rw [pl_blockElems] at h2
  exact h2

theorem pl_orderStage {lib : Pipeline.Lib} {n : ℕ} (hn : n ≤ 3) (hl : LibOk lib) {R : Ran} {d0 d : Document} (hbox : BoxesOk n d0)
    (h : DocInv lib n R d0 d) {rs : List Role} (hr : predictRoles lib d = .ok rs) :
    ∃ d', orderStage lib d = .ok d' ∧ DocInv lib n R d0 d' := by
  have h1 := pl_assignRoles d.pages rs (pl_predictRoles_length hr)
  have h2 : List.Forall₂ (PageInv lib n R d.lines) d0.pages (assignRoles d.pages rs) := by
    refine pl_forall₂_trans ?_ h.pages h1
    intro p0 p p' hi hro
    obtain ⟨hsame, hblocks⟩ := hro
    generalize p'.blocks = bs at hsame hblocks
    subst hsame
    refine ⟨hi.num, hi.figures, hi.graphics, hi.shapes, hi.chars, hi.glyphs, hi.words, hi.good, hi.segments, hi.lines, ?_⟩
    have hb := hi.blocks
    split
    · next hR =>
      rw [if_pos hR] at hb
      refine ⟨?_, ?_⟩
      · have : bs.flatMap (·.block.lines) = p.blocks.flatMap (·.block.lines) := by
          have := congrArg (List.flatMap (·.lines)) hblocks
          rw [List.flatMap_map, List.flatMap_map] at this
          exact this
        simp only
        rw [this]; exact hb.1
      · intro b hb'
        have : b.block ∈ p.blocks.map (·.block) := by rw [← hblocks]; exact List.mem_map.mpr ⟨b, hb', rfl⟩
        obtain ⟨x, hx, he⟩ := List.mem_map.mp this
        rw [← he]; exact hb.2 x hx
    · next hR =>
      rw [if_neg hR] at hb
      rw [hb] at hblocks
      simpa using hblocks
  have hrun : orderStage lib d = .ok { d with pages := (assignRoles d.pages rs).map (orderPage lib d.stats) } := by
    unfold orderStage; rw [hr]; rfl
  refine ⟨_, hrun, ⟨?_, ?_, h.good, h.hyphens, h.fonts⟩⟩
  · refine pl_forall₂_mapR _ h2 ?_
    intro p0 p hp0 hi
    refine ⟨hi.num, hi.figures, hi.graphics, hi.shapes, hi.chars, hi.glyphs, hi.words, hi.good, hi.segments, hi.lines, ?_⟩
    have hb := hi.blocks
    have hf : ∀ b ∈ p.figures ++ p.graphics ++ p.shapes, RoundedBox n b := by
      rw [hi.figures, hi.graphics, hi.shapes]; exact hbox p0 hp0
    split
    · next hR =>
      rw [if_pos hR] at hb
      have hperm := pl_orderPage hn hl d.stats p (fun b hb' => (hb.2 b hb').1) hf
      exact ⟨(hperm.flatMap_right _).trans hb.1, fun b hb' => hb.2 b (hperm.subset hb')⟩
    · next hR =>
      rw [if_neg hR] at hb
      have hperm := pl_orderPage hn hl d.stats p (by rw [hb]; simp) hf
      rw [hb] at hperm
      exact hperm.eq_nil
  · rw [← h.ranks]
    simp only [List.flatMap_map]
    unfold orderPage
    simp only
    clear h2
    have : ∀ (ps ps' : List Page), List.Forall₂ Roled ps ps' →
        (ps'.flatMap fun p => p.segments.flatMap (·.lines)) = ps.flatMap fun p => p.segments.flatMap (·.lines) := by
      intro ps ps' hh
      induction hh with
      | nil => rfl
      | cons hab _ ih => rw [List.flatMap_cons, List.flatMap_cons, ih, hab.same]
    exact this _ _ h1

end Verif.Props

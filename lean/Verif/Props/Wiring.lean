import Verif.Props.WiringHierarchy
import Verif.Props.BlockRules

/-!
# C69: the finished document
-/

namespace Verif.Props

open Verif.Math Verif.Elements Verif.Spec Verif.Words Verif.TextLines Verif.Pipeline Verif.Counter Verif.Statistics
open Verif.PageSegmentation (PElem DocStats PageElems)
open Verif.ReadingOrder (RElem Role)
open Verif.Cli (Stage StageConfig Env Config)

/-- A run of all stages, with or without the dehyphenation, on a parsed document that ends with exit code 0. -/
structure FullRun (lib : Pipeline.Lib) (n : ℕ) (cfg : Config) (d0 d' : Document) : Prop where
  precision : n ≤ 3
  sorts : LibOk lib
  stages : AllStages cfg
  parsed : ParsedDoc n d0
  run : ∃ (parse : StageConfig → Bool → Document → Outcome Document) (dur : ℕ → ℕ) (d : Document) (ts ts' : Option (List (Text.Str × ℕ))),
    parse cfg.parsing cfg.skipFontFiles d = .ok d0 ∧ Cli.process (env lib none parse dur) cfg ⟨d, ts⟩ = .ok (0, ⟨d', ts'⟩)

variable {lib : Pipeline.Lib} {n : ℕ} {cfg : Config} {d0 d' : Document}

theorem FullRun.whole (h : FullRun lib n cfg d0 d') : ∃ s1 s4 ps2 ps3 ps6 ls6 bst bss rs, WholeRun lib d0 d' s1 s4 ps2 ps3 ps6 ls6 bst bss rs := by
  obtain ⟨parse, dur, d, ts, ts', h1, h2⟩ := h.run
  obtain ⟨e, he⟩ := tr_trace h1 h2
  obtain ⟨s1, s4, ps2, ps3, ps6, ls6, bst, bss, rs, hw, _⟩ := wi_run h.stages he
  exact ⟨s1, s4, ps2, ps3, ps6, ls6, bst, bss, rs, hw⟩

theorem FullRun.inv (h : FullRun lib n cfg d0 d') : ∃ e, TraceOf lib cfg d0 d' e ∧ TraceInv lib n cfg d0 e := by
  obtain ⟨parse, dur, d, ts, ts', h1, h2⟩ := h.run
  obtain ⟨e, he⟩ := tr_trace h1 h2
  exact ⟨e, he, tr_inv h.precision h.sorts h.parsed he⟩

/-! ## Lines -/

/-- The invariant of the finished document. -/
theorem wi_final (h : FullRun lib n cfg d0 d') : DocInv lib n (ranOf cfg) d0 { d' with hyphens := d0.hyphens } := by
  obtain ⟨e, he, hi⟩ := h.inv
  obtain ⟨hy, x11⟩ := wi_dehyphenated he.dehyphenation
  have hd := he.result
  have i10 := hi.i10
  have hpages : d'.pages = (e 10).pages.map fun p => { p with textLines := p.blocks.flatMap (·.block.lines) } := by rw [hd, x11]; rfl
  have hlines : d'.lines = (e 10).lines := by rw [hd, x11]; rfl
  have hfonts : d'.fontInfos = (e 10).fontInfos := by rw [hd, x11]; rfl
  refine ⟨?_, ?_, ?_, rfl, hfonts.trans i10.fonts⟩
  · simp only
    rw [hpages, hlines]
    refine pl_forall₂_mapR _ i10.pages ?_
    intro p0 p _ hp
    exact ⟨hp.num, hp.figures, hp.graphics, hp.shapes, hp.chars, hp.glyphs, hp.words, hp.good, hp.segments, hp.lines, hp.blocks⟩
  · simp only
    rw [hpages, hlines, List.flatMap_map]
    exact i10.ranks
  · simp only
    rw [hlines]; exact i10.good

/-- **C69 (lines).** In the finished document the text lines are numbered consecutively over all pages and segments; within a segment the lines refer to their neighbours, know their segment and determine its
trim box; the hierarchy of the lines of a page never leaves the page and obeys the rules of indentation. -/
theorem c69_lines (h : FullRun lib n cfg d0 d') :
    d'.pages.flatMap lineNumbers = List.range d'.lines.length ∧
    ∀ p ∈ d'.pages, (∀ s ∈ p.segments, SegmentInOrder d' p s) ∧ HierarchyInOrder d' d'.stats.avgCharWidth p := by
  refine ⟨(wi_final h).ranks, ?_⟩
  obtain ⟨s1, s4, ps2, ps3, ps6, ls6, bst, bss, rs, hw⟩ := h.whole
  intro p hp
  obtain ⟨k, hk⟩ := List.getElem?_of_mem hp
  obtain ⟨p0, p2, p3, p6, bs, hf⟩ := wi_finished h.parsed hw k p hk
  exact ⟨fun s hs => wi_segment h.parsed hw hf s hs, wi_hierarchy h.parsed hw hf⟩

/-! ## Statistics -/

theorem wi_map_eq {α : Type} {f : Page → α} {ps qs : List Page} (hl : ps.length = qs.length)
    (h : ∀ (k : ℕ) (p : Page), ps[k]? = some p → ∃ q, qs[k]? = some q ∧ f p = f q) : ps.map f = qs.map f := by
  apply List.ext_getElem?
  intro k
  rw [List.getElem?_map, List.getElem?_map]
  cases hk : ps[k]? with
  | none =>
    rw [List.getElem?_eq_none_iff] at hk
    rw [List.getElem?_eq_none_iff.mpr (by omega)]
  | some p =>
    obtain ⟨q, h1, h2⟩ := h k p hk
    rw [h1]
    simp [h2]

theorem wi_lengths {s1 s4 : Stats} {ps2 ps3 ps6 : List Page} {ls6 : List TextLine} {bst : TextBlocks.State} {bss : List (List TextBlocks.Block)} {rs : List Role}
    (h : FullRun lib n cfg d0 d') (hw : WholeRun lib d0 d' s1 s4 ps2 ps3 ps6 ls6 bst bss rs) :
    d'.pages.length = d0.pages.length ∧ d'.pages.length = ps3.length ∧ d'.pages.length = ps6.length := by
  have l0 : d'.pages.length = d0.pages.length := (wi_final h).pages.length_eq.symm
  have l2 := (wi_mapPages hw.marks).1
  have l3 := (wi_mapPages hw.words).1
  have l6 := wi_linesPages_length hw.lines
  rw [List.length_map] at l6
  simp only at l6
  omega

/-- The lines of a segment of the finished document, each with the box spanned by its base characters. -/
def segmentLines (d : Document) (s : Segment) : List Statistics.BasedLine :=
  s.lines.filterMap fun i => (d.lines[i]?).map fun l => (l.line, l.base)

/-- **C69 (statistics).** The statistics of the finished document are those of its own elements: of the parsed characters, of the words of its pages and of the lines of its segments. -/
theorem c69_statistics (h : FullRun lib n cfg d0 d') (hc : (d0.pages.flatMap (·.characters)).length < 2 ^ 32)
    (hw : (d'.pages.flatMap (·.words)).length < 2 ^ 32) (hl : d'.lines.length < 2 ^ 32) :
    (d0.pages.flatMap (·.characters) ≠ [] →
      d'.stats.avgCharWidth = mean ((d0.pages.flatMap (·.characters)).map fun c => c.pos.rightX - c.pos.leftX) ∧
      d'.stats.avgCharHeight = mean ((d0.pages.flatMap (·.characters)).map fun c => c.pos.lowerY - c.pos.upperY) ∧
      IsMostFrequent ((d0.pages.flatMap (·.characters)).map (·.fontSize)) d'.stats.mostFreqFontSize ∧
      IsMostFrequent ((d0.pages.flatMap (·.characters)).map (·.fontName)) d'.stats.mostFreqFontName) ∧
    MostFrequentOr d0.stats.mostFreqWordHeight (d'.pages.flatMap fun p => pageHeights d'.stats.mostFreqFontSize p.words) d'.stats.mostFreqWordHeight ∧
    MostFrequentOr d0.stats.mostFreqWordDistance (d'.pages.flatMap fun p => pageHGaps d'.stats.mostFreqFontSize p.words) d'.stats.mostFreqWordDistance ∧
    MostFrequentOr d0.stats.mostFreqEstimatedLineDistance (d'.pages.flatMap fun p => pageVGaps d'.stats.mostFreqFontSize p.words) d'.stats.mostFreqEstimatedLineDistance ∧
    MostFrequentOr d0.stats.mostFreqLineDistance ((d'.pages.flatMap fun p => p.segments.flatMap fun s => comparableLines (segmentLines d' s)).map baseGap)
      d'.stats.mostFreqLineDistance ∧
    ∀ fs, gapsOfSize fs (d'.pages.flatMap fun p => p.segments.flatMap fun s => comparableLines (segmentLines d' s)) ≠ [] →
      ∃ g, d'.stats.mostFreqLineDistancePerFontSize fs = some g ∧
        IsMostFrequent (gapsOfSize fs (d'.pages.flatMap fun p => p.segments.flatMap fun s => comparableLines (segmentLines d' s))) g := by
  have hseg : segmentLines d' = basedLines d' := rfl
  rw [hseg]
  obtain ⟨s1, s4, ps2, ps3, ps6, ls6, bst, bss, rs, hW⟩ := h.whole
  obtain ⟨l0, l3, l6⟩ := wi_lengths h hW
  have e3 : d'.pages.map (·.words) = ps3.map (·.words) := wi_map_eq l3 fun k p hk => by
    obtain ⟨p0, p2, p3, p6, bs, hf⟩ := wi_finished h.parsed hW k p hk
    exact ⟨p3, hf.at3, by rw [hf.page, hf.only6]⟩
  have e6 : d'.pages.map (·.segments) = ps6.map (·.segments) := wi_map_eq l6 fun k p hk => by
    obtain ⟨p0, p2, p3, p6, bs, hf⟩ := wi_finished h.parsed hW k p hk
    exact ⟨p6, hf.at6, by rw [hf.page]⟩
  have hG := hW.glyphs
  have hWs := hW.wordStats
  have hL := hW.lineStats
  rw [← e3] at hWs
  have e6' : (ps6.flatMap fun p => p.segments.map (basedLines d')) = d'.pages.flatMap fun p => p.segments.map (basedLines d') := by
    have : ∀ l : List Page, (l.flatMap fun p => p.segments.map (basedLines d')) = (l.map (·.segments)).flatMap fun s => s.map (basedLines d') := by
      intro l; rw [List.flatMap_map]
    rw [this, this, e6]
  rw [e6'] at hL
  obtain ⟨k1, k2, k3, k4, k5, k6, k7⟩ := wi_lineStats_keep hW.lineStats
  obtain ⟨m1, m2, m3, m4, m5, m6⟩ := wi_wordStats_keep hW.wordStats
  have ef : (d0.pages.map (·.characters)).flatten = d0.pages.flatMap (·.characters) := by rw [List.flatMap_def]
  have ew : (d'.pages.map (·.words)).flatten = d'.pages.flatMap (·.words) := by rw [List.flatMap_def]
  obtain ⟨g1, g2⟩ := c53_glyph_statistics lib.lines.hash d0.stats (d0.pages.map (·.characters)) (by rw [ef]; exact hc)
  rw [ef] at g1 g2
  have hkeep : s1.mostFreqWordHeight = d0.stats.mostFreqWordHeight ∧ s1.mostFreqWordDistance = d0.stats.mostFreqWordDistance ∧
      s1.mostFreqEstimatedLineDistance = d0.stats.mostFreqEstimatedLineDistance ∧ s1.mostFreqLineDistance = d0.stats.mostFreqLineDistance := by
    by_cases hne : d0.pages.flatMap (·.characters) = []
    · have := g1 hne
      rw [hG] at this
      cases this
      exact ⟨rfl, rfl, rfl, rfl⟩
    · obtain ⟨r, r1, _, _, _, _, r2⟩ := g2 hne
      rw [hG] at r1
      cases r1
      rw [← r2]
      exact ⟨rfl, rfl, rfl, rfl⟩
  obtain ⟨r, w1, w2, w3, w4, _⟩ := c58_word_statistics lib.lines.hash s1 (d'.pages.map (·.words)) (by rw [ew]; exact hw)
  rw [hWs] at w1
  cases w1
  have hlen : (d'.pages.flatMap fun p => p.segments.map (basedLines d')).flatten.length < 2 ^ 32 := by
    have hr := congrArg List.length (c69_lines h).1
    rw [List.length_range] at hr
    refine lt_of_le_of_lt ?_ (lt_of_eq_of_lt hr hl)
    have : ∀ l : List Page, (l.flatMap fun p => p.segments.map (basedLines d')).flatten.length ≤ (l.flatMap lineNumbers).length := by
      intro l
      induction l with
      | nil => simp
      | cons p ps ih =>
        rw [List.flatMap_cons, List.flatten_append, List.length_append, List.flatMap_cons, List.length_append]
        refine Nat.add_le_add ?_ ih
        unfold lineNumbers
        generalize p.segments = ss
        induction ss with
        | nil => simp
        | cons s ss ih' =>
          rw [List.map_cons, List.flatten_cons, List.length_append, List.flatMap_cons, List.length_append]
          refine Nat.add_le_add ?_ ih'
          unfold basedLines
          exact List.length_filterMap_le _ _
    exact this _
  obtain ⟨r, v1, v2, v3, _⟩ := c58_line_statistics lib.lines s4 (d'.pages.flatMap fun p => p.segments.map (basedLines d')) hlen
  rw [hL] at v1
  cases v1
  have es : (d'.pages.flatMap fun p => p.segments.map (basedLines d')).flatMap comparableLines =
      d'.pages.flatMap fun p => p.segments.flatMap fun s => comparableLines (basedLines d' s) := by
    rw [List.flatMap_assoc]
    congr 1
    funext p
    rw [List.flatMap_map]
  rw [es] at v2 v3
  refine ⟨?_, ?_, ?_, ?_, ?_, fun fs hfs => (v3 fs).2 hfs⟩
  · intro hne
    obtain ⟨r, r1, r2, r3, r4, r5, _⟩ := g2 hne
    rw [hG] at r1
    cases r1
    rw [k1, k2, k3, k4, m1, m2, m3, m4]
    exact ⟨r2, r3, r4, r5⟩
  · rw [k3, m3, k7, ← hkeep.1]
    rw [List.flatMap_map] at w2
    exact w2
  · rw [k3, m3, k5, ← hkeep.2.1]
    rw [List.flatMap_map] at w3
    exact w3
  · rw [k3, m3, k6, ← hkeep.2.2.1]
    rw [List.flatMap_map] at w4
    exact w4
  · rw [← hkeep.2.2.2, ← m5]; exact v2

/-! ## Segments -/

/-- **C69 (segments).** The segments of a page are what page segmentation (C17–C20, C32) makes of the words, figures, graphics and shapes of this page and of the average width and height of the characters and
the most frequent word distance of the document. -/
theorem c69_segments (h : FullRun lib n cfg d0 d') (p : Page) (hp : p ∈ d'.pages) :
    ∃ E : PageElems,
      (∀ i, E.words[i]? = (p.words[i]?).map fun w => (⟨.word, i, w.pos, w.rank⟩ : PElem)) ∧
      (∀ i, E.figures[i]? = (p.figures[i]?).map fun b => (⟨.figure, i, b, -1⟩ : PElem)) ∧
      (∀ i, E.graphics[i]? = (p.graphics[i]?).map fun b => (⟨.graphic, i, b, -1⟩ : PElem)) ∧
      (∀ i, E.shapes[i]? = (p.shapes[i]?).map fun b => (⟨.shape, i, b, -1⟩ : PElem)) ∧
      p.segments.map (fun s => (s.elements, s.pos)) =
        (PageSegmentation.processPage ⟨d'.stats.avgCharWidth, d'.stats.avgCharHeight, d'.stats.mostFreqWordDistance⟩ lib.seg E).map fun g => (g.elements, g.pos) := by
  obtain ⟨s1, s4, ps2, ps3, ps6, ls6, bst, bss, rs, hW⟩ := h.whole
  obtain ⟨k, hk⟩ := List.getElem?_of_mem hp
  obtain ⟨p0, p2, p3, p6, bs, hf⟩ := wi_finished h.parsed hW k p hk
  have hw : p.words = p3.words := by rw [hf.page, hf.only6]
  have hF : p.figures = p3.figures := by rw [hf.page, hf.only6]
  have hG : p.graphics = p3.graphics := by rw [hf.page, hf.only6]
  have hS : p.shapes = p3.shapes := by rw [hf.page, hf.only6]
  have hs3 : p3.segments = [] := by rw [hf.only3, hf.only2]; exact h.parsed.segments p0 (List.mem_of_getElem? hf.at0)
  refine ⟨pageElems p3, ?_, ?_, ?_, ?_, ?_⟩
  · intro i; rw [hw]; unfold pageElems; simp only [List.getElem?_mapIdx]
  · intro i; rw [hF]; unfold pageElems; simp only [List.getElem?_mapIdx]
  · intro i; rw [hG]; unfold pageElems; simp only [List.getElem?_mapIdx]
  · intro i; rw [hS]; unfold pageElems; simp only [List.getElem?_mapIdx]
  · rw [show p.segments = p6.segments by rw [hf.page], hf.segments]
    obtain ⟨k1, k2, k3, k4, k5, k6, k7⟩ := wi_lineStats_keep hW.lineStats
    unfold segmentPage
    rw [hs3, List.nil_append, List.map_map, k1, k2, k5]
    rfl

/-! ## Blocks -/

/-- The run, with what holds of the detected blocks. -/
theorem FullRun.wholeBoxes (h : FullRun lib n cfg d0 d') : ∃ s1 s4 ps2 ps3 ps6 ls6 bst bss rs, WholeRun lib d0 d' s1 s4 ps2 ps3 ps6 ls6 bst bss rs ∧
    ∀ p ∈ blocksAdded lib ps6 bss, (∀ b ∈ p.blocks, PageBox n b.block.pos) ∧ ∀ b ∈ p.figures ++ p.graphics ++ p.shapes, RoundedBox n b := by
  obtain ⟨parse, dur, d, ts, ts', h1, h2⟩ := h.run
  obtain ⟨e, he⟩ := tr_trace h1 h2
  obtain ⟨s1, s4, ps2, ps3, ps6, ls6, bst, bss, rs, hw, h9⟩ := wi_run h.stages he
  refine ⟨s1, s4, ps2, ps3, ps6, ls6, bst, bss, rs, hw, ?_⟩
  have hi := (tr_inv h.precision h.sorts h.parsed he).i9
  intro p hp
  rw [← h9] at hp
  obtain ⟨p0, hp0, hpi⟩ := pl_forall₂_right hi.pages p hp
  refine ⟨?_, ?_⟩
  · have := hpi.blocks
    unfold ranOf at this
    simp only [decide_eq_true (h.stages .blocks (by decide)), if_true] at this
    exact fun b hb => (this.2 b hb).1
  · rw [hpi.figures, hpi.graphics, hpi.shapes]; exact h.parsed.boxes p0 hp0

section

variable {s1 s4 : Stats} {ps2 ps3 ps6 : List Page} {ls6 : List TextLine} {bst : TextBlocks.State} {bss : List (List TextBlocks.Block)} {rs : List Role}

theorem wi_pagesOf (h : FullRun lib n cfg d0 d') (hW : WholeRun lib d0 d' s1 s4 ps2 ps3 ps6 ls6 bst bss rs) :
    (ps6.map fun p => p.segments.map (·.lines)) = d'.pages.map fun p => p.segments.map (·.lines) :=
  (wi_map_eq (wi_lengths h hW).2.2 fun k p hk => by
    obtain ⟨p0, p2, p3, p6, bs, hf⟩ := wi_finished h.parsed hW k p hk
    exact ⟨p6, hf.at6, by rw [hf.page]⟩).symm

theorem wi_nodup (h : FullRun lib n cfg d0 d') : (d'.pages.map fun p => p.segments.map (·.lines)).flatten.flatten = List.range d'.lines.length := by
  rw [← (c69_lines h).1]
  unfold lineNumbers
  generalize d'.pages = ps
  induction ps with
  | nil => rfl
  | cons p ps ih => rw [List.map_cons, List.flatten_cons, List.flatten_append, ih, List.flatMap_cons, ← List.flatMap_def]

theorem wi_bss (h : FullRun lib n cfg d0 d') (hW : WholeRun lib d0 d' s1 s4 ps2 ps3 ps6 ls6 bst bss rs) :
    ∃ st, List.Forall₂ (PageOf (blocksDocOn lib d' ps6) (List.range d'.lines.length) (blocksState d') st bst)
      (d'.pages.map fun p => p.segments.map (·.lines)) bss := by
  have hb := hW.blocks
  rw [wi_pagesOf h hW] at hb
  obtain ⟨st, s', bss', g1, g2, _⟩ := process_spec lib.lines.hash (blocksDocOn lib d' ps6) (blocksState d') _ (by rw [wi_nodup h]; exact List.nodup_range)
  rw [hb] at g1
  cases g1
  rw [wi_nodup h] at g2
  exact ⟨st, g2⟩

/-- The roles of the blocks of a page. -/
theorem wi_roles_length (h : FullRun lib n cfg d0 d') (hW : WholeRun lib d0 d' s1 s4 ps2 ps3 ps6 ls6 bst bss rs) {k : ℕ} {p' p0 p2 p3 p6 : Page} {bs : List TextBlocks.Block}
    (hf : FinishedPage lib d0 d' s4 ps2 ps3 ps6 bss rs k p' p0 p2 p3 p6 bs) :
    ((rs.drop (blocksBefore (blocksAdded lib ps6 bss) k)).take bs.length).length = bs.length := by
  have hl := pl_predictRoles_length hW.roles
  simp only at hl
  have hb6 : p6.blocks = [] := by rw [hf.only6, hf.only3, hf.only2]; exact h.parsed.blocks p0 (List.mem_of_getElem? hf.at0)
  have hk : (blocksAdded lib ps6 bss)[k]? = some { p6 with textLines := p6.segments.flatMap (·.lines), blocks := p6.blocks ++ bs.map fun b => ⟨b, lib.uninitialised⟩ } := by
    unfold blocksAdded
    rw [List.getElem?_zipWith, hf.at6, hf.atB]
  have hlt := (List.getElem?_eq_some_iff.mp hk).1
  have hsum : blocksBefore (blocksAdded lib ps6 bss) k + bs.length ≤ ((blocksAdded lib ps6 bss).flatMap (·.blocks)).length := by
    unfold blocksBefore
    have e : blocksAdded lib ps6 bss = (blocksAdded lib ps6 bss).take k ++ (blocksAdded lib ps6 bss)[k] :: (blocksAdded lib ps6 bss).drop (k + 1) := by
      rw [List.getElem_cons_drop, List.take_append_drop]
    have e2 : (blocksAdded lib ps6 bss)[k].blocks.length = bs.length := by
      rw [List.getElem?_eq_getElem hlt] at hk
      simp only [Option.some.injEq] at hk
      rw [hk, hb6]; simp
    generalize blocksAdded lib ps6 bss = L at *
    have := congrArg (fun l => (l.flatMap (·.blocks)).length) e
    simp only [List.flatMap_append, List.flatMap_cons, List.length_append] at this
    omega
  rw [List.length_take, List.length_drop]
  omega

/-- The blocks of a page are a permutation of the detected blocks with their roles. -/
theorem wi_blocks_perm (h : FullRun lib n cfg d0 d')
    (hB : ∀ p ∈ blocksAdded lib ps6 bss, (∀ b ∈ p.blocks, PageBox n b.block.pos) ∧ ∀ b ∈ p.figures ++ p.graphics ++ p.shapes, RoundedBox n b)
    {k : ℕ} {p' p0 p2 p3 p6 : Page} {bs : List TextBlocks.Block}
    (hf : FinishedPage lib d0 d' s4 ps2 ps3 ps6 bss rs k p' p0 p2 p3 p6 bs) :
    p'.blocks.Perm (List.zipWith TextBlock.mk bs ((rs.drop (blocksBefore (blocksAdded lib ps6 bss) k)).take bs.length)) := by
  have hb6 : p6.blocks = [] := by rw [hf.only6, hf.only3, hf.only2]; exact h.parsed.blocks p0 (List.mem_of_getElem? hf.at0)
  have hk : (blocksAdded lib ps6 bss)[k]? = some { p6 with textLines := p6.segments.flatMap (·.lines), blocks := p6.blocks ++ bs.map fun b => ⟨b, lib.uninitialised⟩ } := by
    unfold blocksAdded
    rw [List.getElem?_zipWith, hf.at6, hf.atB]
  obtain ⟨B1, B2⟩ := hB _ (List.mem_of_getElem? hk)
  simp only [hb6, List.nil_append] at B1 B2
  have hz : ∀ (bs : List TextBlocks.Block) (r : List Role), List.zipWith (fun (b : TextBlock) r => { b with role := r }) (bs.map fun b => (⟨b, lib.uninitialised⟩ : TextBlock)) r = List.zipWith TextBlock.mk bs r := by
    intro bs r
    rw [List.zipWith_map_left]
  have hblocks := congrArg Page.blocks hf.page
  simp only [hz] at hblocks
  rw [hblocks]
  refine pl_orderPage h.precision h.sorts d'.stats _ ?_ B2
  simp only
  intro b hb
  refine B1 ⟨b.block, lib.uninitialised⟩ ?_
  rw [List.mem_map]
  refine ⟨b.block, ?_, rfl⟩
  clear * - hb
  generalize (rs.drop (blocksBefore (blocksAdded lib ps6 bss) k)).take bs.length = r at hb
  induction bs generalizing r with
  | nil => simp at hb
  | cons x xs ih =>
    cases r with
    | nil => simp at hb
    | cons y ys =>
      simp only [List.zipWith_cons_cons, List.mem_cons] at hb
      rcases hb with rfl | hb
      · simp
      · exact List.mem_cons_of_mem _ (ih ys hb)

end

/-- **C69 (blocks).** The blocks of the pages are what block detection (C30, C31, C66) makes of the finished document: its lines, the references between them, its hierarchy, segments, figures, fonts and
statistics; and the document meets the assumptions of those claims. -/
theorem c69_blocks (h : FullRun lib n cfg d0 d') :
    ∃ V S S' bss, SeesDocument d' V S ∧ V.matchesItemRegex = ItemLabel.matchesItemRegex ∧
      TextBlocks.process lib.lines.hash V S (d'.pages.map fun p => p.segments.map (·.lines)) = .ok (S', bss) ∧
      List.Forall₂ (fun (p : Page) bs => (p.blocks.map (·.block)).Perm bs) d'.pages bss ∧
      (d'.pages.map fun p => p.segments.map (·.lines)).flatten.flatten.Nodup ∧
      (∀ page ∈ d'.pages.map (fun p => p.segments.map (·.lines)), ∀ seg ∈ page, InputLinked S seg) ∧
      ∀ i p, (V.link i).parent = some p → p < i := by
  obtain ⟨s1, s4, ps2, ps3, ps6, ls6, bst, bss, rs, hW, hB⟩ := h.wholeBoxes
  refine ⟨blocksDocOn lib d' ps6, blocksState d', bst, bss, ?_, rfl, ?_, ?_, ?_, ?_, ?_⟩
  · refine ⟨?_, ?_, ⟨rfl, rfl, rfl, rfl, rfl, rfl⟩, rfl, rfl⟩
    · intro i l hi
      unfold blocksDocOn blocksDoc blocksState
      simp only [hi, Option.map_some, Option.getD_some, Option.bind_some, and_self]
    · intro k p hk
      obtain ⟨p0, p2, p3, p6, bs, hf⟩ := wi_finished h.parsed hW k p hk
      unfold blocksDocOn
      simp only
      rw [show ((k : ℤ) + 1).toNat - 1 = k by omega, hf.at6, hf.page]
      rfl
  · rw [← wi_pagesOf h hW]; exact hW.blocks
  · obtain ⟨st, hF⟩ := wi_bss h hW
    have hlen := hF.length_eq
    rw [List.length_map] at hlen
    rw [List.forall₂_iff_get]
    refine ⟨hlen, ?_⟩
    intro k h1 h2
    have hk := List.getElem?_eq_getElem h1
    obtain ⟨p0, p2, p3, p6, bs, hf⟩ := wi_finished h.parsed hW k _ hk
    have hb : bss.get ⟨k, h2⟩ = bs := by
      have := hf.atB
      rw [List.getElem?_eq_getElem h2] at this
      simpa using this
    rw [hb]
    have hp := (wi_blocks_perm h hB hf).map (·.block)
    have hlr := wi_roles_length h hW hf
    refine hp.trans (List.Perm.of_eq ?_)
    generalize (rs.drop (blocksBefore (blocksAdded lib ps6 bss) k)).take bs.length = r at hlr
    clear * - hlr
    induction bs generalizing r with
    | nil => simp
    | cons b bs ih =>
      cases r with
      | nil => simp at hlr
      | cons x xs => simp only [List.zipWith_cons_cons, List.map_cons, ih xs (by simpa using hlr)]
  · rw [wi_nodup h]; exact List.nodup_range
  · intro page hpage seg hseg
    obtain ⟨p, hp, rfl⟩ := List.mem_map.mp hpage
    obtain ⟨s, hs, rfl⟩ := List.mem_map.mp hseg
    have ho := ((c69_lines h).2 p hp).1 s hs
    obtain ⟨m, len, hr⟩ := ho.numbers
    intro a c b hsplit
    have hc : c ∈ s.lines := by rw [hsplit]; simp
    obtain ⟨l, hl, hprev⟩ := ho.prev c hc
    have hS : (blocksState d').prevLine c = l.prevLine := by unfold blocksState; simp only [hl, Option.bind_some]
    rw [hS]
    rcases hprev with hn | ⟨_, hmem, hq⟩
    · exact .inl hn
    · right
      have hlen : a.length + 1 + b.length = len := by
        have := congrArg List.length (hsplit.symm.trans hr)
        simp at this; omega
      have hget : ∀ i, i < len → s.lines[i]? = some (m + i) := by
        intro i hi; rw [hr, List.getElem?_range' hi]; simp
      have hcv : c = m + a.length := by
        have := hget a.length (by omega)
        rw [hsplit, List.getElem?_append_right (by omega)] at this
        simpa using this
      rw [hr, List.mem_range'_1] at hmem
      have hpos : 0 < a.length := by omega
      rw [hq, List.getLast?_eq_getElem?]
      have := hget (a.length - 1) (by omega)
      rw [hsplit, List.getElem?_append_left (by omega)] at this
      rw [this]
      congr 1
      omega
  · intro i p hp
    have hl : (blocksDocOn lib d' ps6).link i = lineLink d' i := rfl
    rw [hl] at hp
    by_cases hi : i < d'.lines.length
    · have hmem : i ∈ d'.pages.flatMap lineNumbers := by rw [(c69_lines h).1]; simpa using hi
      obtain ⟨q, hq, hmem⟩ := List.mem_flatMap.mp hmem
      exact (((c69_lines h).2 q hq).2.parent i hmem p hp).2.1
    · unfold lineLink at hp
      rw [List.getElem?_eq_none (by omega)] at hp
      simp at hp

/-! ## Page numbers -/

/-- The parsed characters carry the number of their page, and pages are numbered from 1. -/
def PagesNumbered (d : Document) : Prop := ∀ (k : ℕ) (p : Page), d.pages[k]? = some p → p.pageNum = k + 1 ∧ ∀ c ∈ p.characters, c.pos.pageNum = k + 1

theorem wi_keptByMarks (q : ℤ) : KeptByMarks fun c => c.pos.pageNum = q :=
  ⟨fun _ _ h => h, fun _ _ _ _ h _ => h⟩

theorem wi_word_numbers (h : FullRun lib n cfg d0 d') (hN : PagesNumbered d0) (k : ℕ) (p : Page) (hk : d'.pages[k]? = some p) :
    p.pageNum = k + 1 ∧ ∀ w ∈ p.words, w.pos.pageNum = k + 1 := by
  obtain ⟨s1, s4, ps2, ps3, ps6, ls6, bst, bss, rs, hW⟩ := h.whole
  obtain ⟨p0, p2, p3, p6, bs, hf⟩ := wi_finished h.parsed hW k p hk
  obtain ⟨n1, n2⟩ := hN k p0 hf.at0
  refine ⟨by rw [hf.page, hf.only6, hf.only3, hf.only2]; exact n1, ?_⟩
  rw [show p.words = p3.words by rw [hf.page, hf.only6]]
  obtain ⟨out, o1, o2⟩ := pl_diacritics_keep (wi_keptByMarks (k + 1)) lib.compose p0.characters n2
  obtain ⟨out', o1', o2'⟩ := pl_diacritics lib.compose p0.characters (h.parsed.glyphs p0 (List.mem_of_getElem? hf.at0))
  rw [hf.marks] at o1 o1'
  cases o1
  cases o1'
  obtain ⟨ws, a, g1, g2, g3, _, g5⟩ := pl_words lib.lines.hash (Active.reset p2.pageNum) p2.pageNum p2.characters o2'
  have hw := hf.words
  unfold wordsPage at hw
  rw [g1] at hw
  replace hw := wi_ok hw
  intro w hw'
  rw [hw] at hw'
  obtain ⟨v, hv, q1, q2, rfl⟩ := pl_merge_mem ws g2 hw'
  obtain ⟨_, _, _, _, c, hc, hcp⟩ := g5 v hv
  simp only
  rw [hcp]
  apply o2
  have : c ∈ (ws.map (·.chars)).flatten := List.mem_flatten.mpr ⟨_, List.mem_map.mpr ⟨v, hv, rfl⟩, hc⟩
  rw [g3] at this
  exact List.mem_of_mem_filter this

theorem wi_line_numbers (h : FullRun lib n cfg d0 d') (hN : PagesNumbered d0) (k : ℕ) (p : Page) (hk : d'.pages[k]? = some p) :
    ∀ i ∈ lineNumbers p, AtLine d' i fun l => l.line.pos.pageNum = k + 1 := by
  have hwn := (wi_word_numbers h hN k p hk).2
  have hgood : ∀ w ∈ p.words, GoodWord n w := by
    obtain ⟨p0, _, hi⟩ := pl_forall₂_right (wi_final h).pages p (List.mem_of_getElem? hk)
    exact hi.good
  obtain ⟨s1, s4, ps2, ps3, ps6, ls6, bst, bss, rs, hW⟩ := h.whole
  obtain ⟨p0, p2, p3, p6, bs, hf⟩ := wi_finished h.parsed hW k p hk
  obtain ⟨m, t1, hl, ho, hr, hd⟩ := wi_pageLines h.parsed hW hf
  rw [show p3.words = p.words by rw [hf.page, hf.only6]] at ho
  have hsorts := c26_sorts_are_permutations h.sorts.lines h.precision
  obtain ⟨ss', tls, g1, _, _, g3, g4⟩ := pl_linesOfSegments hsorts s4.avgCharWidth p.words hgood (segmentPage lib s4 p3).segments m hl
  rw [ho] at g1
  simp only [Outcome.ok.injEq, Prod.mk.injEq] at g1
  obtain ⟨_, rfl⟩ := g1
  intro i hi
  rw [hr, List.mem_range'_1] at hi
  obtain ⟨j, rfl⟩ : ∃ j, i = m + j := ⟨i - m, by omega⟩
  have hj : j < t1.length := by omega
  have e := List.getElem?_eq_getElem hj
  refine ⟨_, hd j _ e, ?_⟩
  have hmem : t1[j] ∈ t1 := List.getElem_mem hj
  obtain ⟨w, hw, hwp⟩ := (g4 _ hmem).page
  show (t1[j]).line.pos.pageNum = k + 1
  rw [hwp]
  apply hwn
  have := g3.subset (List.mem_flatMap.mpr ⟨_, hmem, hw⟩)
  obtain ⟨v, hv, hwv⟩ := List.mem_flatMap.mp this
  refine pl_wordGroup_mem ?_ hwv
  obtain ⟨s, _, hv⟩ := List.mem_flatMap.mp hv
  obtain ⟨i, _, hi⟩ := List.mem_filterMap.mp hv
  exact List.mem_of_getElem? hi

/-- **C69 (page numbers).** The words, lines and blocks of a page of the finished document carry the number of this page. -/
theorem c69_page_numbers (h : FullRun lib n cfg d0 d') (hN : PagesNumbered d0) (k : ℕ) (p : Page) (hk : d'.pages[k]? = some p) :
    p.pageNum = k + 1 ∧ (∀ w ∈ p.words, w.pos.pageNum = k + 1) ∧ (∀ i ∈ lineNumbers p, AtLine d' i fun l => l.line.pos.pageNum = k + 1) ∧
    ∀ b ∈ p.blocks, b.block.pos.pageNum = k + 1 := by
  obtain ⟨n1, n2⟩ := wi_word_numbers h hN k p hk
  have n3 := wi_line_numbers h hN k p hk
  refine ⟨n1, n2, n3, ?_⟩
  intro b hb
  obtain ⟨s1, s4, ps2, ps3, ps6, ls6, bst, bss, rs, hW, hB⟩ := h.wholeBoxes
  obtain ⟨p0, p2, p3, p6, bs, hf⟩ := wi_finished h.parsed hW k p hk
  obtain ⟨st, hF⟩ := wi_bss h hW
  have hbs : b.block ∈ bs := by
    have := (wi_blocks_perm h hB hf).subset hb
    obtain ⟨i, hi⟩ := List.getElem?_of_mem this
    rw [List.getElem?_zipWith] at hi
    cases hx : bs[i]? with
    | none => rw [hx] at hi; simp at hi
    | some x =>
      rw [hx] at hi
      cases hy : ((rs.drop (blocksBefore (blocksAdded lib ps6 bss) k)).take bs.length)[i]? with
      | none => rw [hy] at hi; simp at hi
      | some y =>
        rw [hy] at hi
        simp only [Option.some.injEq] at hi
        rw [← hi]; exact List.mem_of_getElem? hx
  have hpage : (d'.pages.map fun p => p.segments.map (·.lines))[k]? = some (p.segments.map (·.lines)) := by rw [List.getElem?_map, hk]; rfl
  obtain ⟨pbs, hp1, hfin⟩ : PageOf (blocksDocOn lib d' ps6) (List.range d'.lines.length) (blocksState d') st bst (p.segments.map (·.lines)) bs := by
    rw [List.forall₂_iff_get] at hF
    have l1 := (List.getElem?_eq_some_iff.mp hpage).1
    have l2 := (List.getElem?_eq_some_iff.mp hf.atB).1
    have := hF.2 k l1 l2
    rw [List.get_eq_getElem, List.get_eq_getElem] at this
    rw [List.getElem?_eq_getElem l1] at hpage
    have e2 := hf.atB
    rw [List.getElem?_eq_getElem l2] at e2
    simp only [Option.some.injEq] at hpage e2
    rw [hpage, e2] at this
    exact this
  have hm := hfin.made b.block hbs
  obtain ⟨f, r, hfr⟩ := List.exists_cons_of_ne_nil hm.nonempty
  have hbox := hm.box f (by rw [hfr]; rfl)
  rw [hbox, (extendAll_rest _ _).1]
  simp only
  have hline : f ∈ lineNumbers p := by
    have hcov : (p.blocks.flatMap (·.block.lines)).Perm (lineNumbers p) := by
      obtain ⟨p0, _, hi⟩ := pl_forall₂_right (wi_final h).pages p (List.mem_of_getElem? hk)
      have := hi.blocks
      unfold ranOf at this
      simp only [decide_eq_true (h.stages .blocks (by decide)), if_true] at this
      exact this.1
    exact hcov.subset (List.mem_flatMap.mpr ⟨b, hb, by rw [hfr]; simp⟩)
  obtain ⟨l, hl, hlp⟩ := n3 f hline
  have : (blocksDocOn lib d' ps6).line f = l.line := by
    unfold blocksDocOn blocksDoc
    simp only [hl, Option.map_some, Option.getD_some]
  rw [this]; exact hlp

/-! ## Neighbouring lines of a block -/

theorem wi_width_nonneg {hh : HashOrder} {s s' : Stats} {ps : List (List Glyph)} (h : glyphStatistics hh s ps = .ok s') (h0 : 0 ≤ s.avgCharWidth)
    (hc : ∀ p ∈ ps, ∀ c ∈ p, c.pos.leftX ≤ c.pos.rightX) : 0 ≤ s'.avgCharWidth := by
  unfold glyphStatistics at h
  simp only at h
  rw [foldl_pages, glyphStep_fold] at h
  split at h
  · cases h; exact h0
  · obtain ⟨_, _, h⟩ := wi_bind h
    obtain ⟨_, _, h⟩ := wi_bind h
    cases h
    simp only
    apply div_nonneg _ (by positivity)
    rw [zero_add]
    apply List.sum_nonneg
    intro x hx
    obtain ⟨c, hc', rfl⟩ := List.mem_map.mp hx
    obtain ⟨p, hp, hcp⟩ := List.mem_flatten.mp hc'
    have := hc p hp c hcp
    linarith

/-- **C69 (neighbouring lines of a block).** Two consecutive lines of a block of the finished document are part of the same figure of their page, or they have the same rotation and writing mode and (almost) the same font
size and are not farther apart than usual in this document. -/
theorem c69_homogeneous (h : FullRun lib n cfg d0 d') (hN : PagesNumbered d0) (hs : 0 ≤ d0.stats.avgCharWidth)
    (hc : ∀ p ∈ d0.pages, ∀ c ∈ p.characters, c.pos.leftX ≤ c.pos.rightX) (p : Page) (hp : p ∈ d'.pages) (b : TextBlock) (hb : b ∈ p.blocks)
    (a : List ℕ) (i j : ℕ) (e : List ℕ) (hbl : b.block.lines = a ++ i :: j :: e) :
    SameFigure p.figures (lineAtRank d' i).pos (lineAtRank d' j).pos ∨
    ((lineAtRank d' i).pos.rotation = (lineAtRank d' j).pos.rotation ∧ (lineAtRank d' i).pos.wMode = (lineAtRank d' j).pos.wMode ∧
      (|(lineAtRank d' i).fontSize - (lineAtRank d' j).fontSize| ≤ 1 ∨ |(lineAtRank d' i).maxFontSize - (lineAtRank d' j).maxFontSize| ≤ 1) ∧
      roundTo (computeVerticalGap (lineAtRank d' i).pos (lineAtRank d' j).pos) 1 ≤
        usualGap d' (lineAtRank d' j).fontSize + max 1 (usualGap d' (lineAtRank d' j).fontSize / 10)) := by
  obtain ⟨k, hk⟩ := List.getElem?_of_mem hp
  have hacw : 0 ≤ d'.stats.avgCharWidth := by
    obtain ⟨s1, s4, ps2, ps3, ps6, ls6, bst, bss, rs, hW⟩ := h.whole
    rw [(wi_lineStats_keep hW.lineStats).1, (wi_wordStats_keep hW.wordStats).1]
    refine wi_width_nonneg hW.glyphs hs ?_
    intro q hq
    obtain ⟨p0, hp0, rfl⟩ := List.mem_map.mp hq
    exact hc p0 hp0
  have hcov : (p.blocks.flatMap (·.block.lines)).Perm (lineNumbers p) := by
    obtain ⟨p0, _, hi⟩ := pl_forall₂_right (wi_final h).pages p hp
    have := hi.blocks
    unfold ranOf at this
    simp only [decide_eq_true (h.stages .blocks (by decide)), if_true] at this
    exact this.1
  have hat : ∀ x, x ∈ b.block.lines → AtLine d' x fun l => l.line.pos.pageNum = k + 1 := fun x hx =>
    (c69_page_numbers h hN k p hk).2.2.1 x (hcov.subset (List.mem_flatMap.mpr ⟨b, hb, hx⟩))
  obtain ⟨li, hli, _⟩ := hat i (by rw [hbl]; simp)
  obtain ⟨lj, hlj, hpj⟩ := hat j (by rw [hbl]; simp)
  obtain ⟨V, S, S', bss, hsee, _, hproc, hF, hnd, hin, hpar⟩ := c69_blocks h
  obtain ⟨S'', bss', q1, q2⟩ := c31_homogeneous lib.lines.hash V S _ hnd hin (by rw [hsee.statistics.1]; exact hacw) hpar
  rw [hproc] at q1
  cases q1
  obtain ⟨bs, hbs, hperm⟩ := forall₂_mem_left hF hp
  have hbm : b.block ∈ bs := hperm.subset (List.mem_map_of_mem hb)
  have := q2 bs hbs b.block hbm a i j e hbl
  have vi : V.line i = lineAtRank d' i := by rw [(hsee.line i li hli).1]; unfold lineAtRank; rw [hli]; rfl
  have vj : V.line j = lineAtRank d' j := by rw [(hsee.line j lj hlj).1]; unfold lineAtRank; rw [hlj]; rfl
  have vf : V.figures (V.line j).pos.pageNum = p.figures := by
    rw [(hsee.line j lj hlj).1, hpj]; exact hsee.figures k p hk
  have vu : ∀ fs, usualDistance V fs = usualGap d' fs := by
    intro fs; unfold usualDistance usualGap; rw [hsee.statistics.2.2.1, hsee.statistics.2.2.2.1]
  rw [vf, vi, vj, vu] at this
  exact this

end Verif.Props

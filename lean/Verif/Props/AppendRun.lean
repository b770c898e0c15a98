import Verif.Props.AppendBlocks
import Verif.Props.Move
import Verif.Props.Wiring
import Verif.Spec.Append

/-!
# C83: the stages of a run on a document and on a document with further pages
-/

namespace Verif.Props

open Verif.Math Verif.Elements Verif.Spec Verif.Words Verif.TextLines Verif.Pipeline Verif.Counter
open Verif.ReadingOrder (RElem Role)
open Verif.Cli (Stage StageConfig Env Config)

/-- The second document begins like the first one. -/
structure Front (d d' : Document) : Prop where
  pages : ∃ ps, d'.pages = d.pages ++ ps
  lines : ∃ ls, d'.lines = d.lines ++ ls

/-- The references between the lines stay within the document. -/
def LinksWithin (d : Document) : Prop :=
  ∀ l ∈ d.lines, ∀ j, l.prevLine = some j ∨ l.link.parent = some j ∨ l.link.prevSibling = some j ∨ l.link.nextSibling = some j → j < d.lines.length

theorem ap_mapPages {f : Page → Outcome Page} {qs : List Page} (ps : List Page) : ∀ {r r' : List Page}, mapPages f ps = .ok r → mapPages f (ps ++ qs) = .ok r' → ∃ rs, r' = r ++ rs := by
  induction ps with
  | nil => intro r r' h h'; simp only [mapPages, Outcome.ok.injEq] at h; subst h; exact ⟨r', rfl⟩
  | cons p ps ih =>
    intro r r' h h'
    rw [List.cons_append] at h'
    simp only [mapPages] at h h'
    cases h1 : f p with
    | throw m => rw [h1] at h; cases h
    | ub m => rw [h1] at h; cases h
    | ok a =>
      rw [h1] at h h'
      simp only [Outcome.bind] at h h'
      cases h2 : mapPages f ps with
      | throw m => rw [h2] at h; cases h
      | ub m => rw [h2] at h; cases h
      | ok b =>
        cases h3 : mapPages f (ps ++ qs) with
        | throw m => rw [h3] at h'; cases h'
        | ub m => rw [h3] at h'; cases h'
        | ok c =>
          rw [h2] at h
          rw [h3] at h'
          simp only [Outcome.ok.injEq] at h h'
          subst h; subst h'
          obtain ⟨rs, e⟩ := ih h2 h3
          exact ⟨rs, by rw [e]; rfl⟩

theorem ap_linesPages {lib : Pipeline.Lib} {acw : ℚ} {qs : List Page} (ps : List Page) : ∀ {k : ℕ} {r r' : List Page × List TextLine},
    linesPages lib acw k ps = .ok r → linesPages lib acw k (ps ++ qs) = .ok r' → (∃ rs, r'.1 = r.1 ++ rs) ∧ ∃ ls, r'.2 = r.2 ++ ls := by
  induction ps with
  | nil => intro k r r' h h'; simp only [linesPages, Outcome.ok.injEq] at h; subst h; exact ⟨⟨r'.1, rfl⟩, r'.2, rfl⟩
  | cons p ps ih =>
    intro k r r' h h'
    rw [List.cons_append] at h'
    simp only [linesPages] at h h'
    cases h1 : linesOfSegments lib acw p.words k p.segments with
    | throw m => rw [h1] at h; cases h
    | ub m => rw [h1] at h; cases h
    | ok a =>
      rw [h1] at h h'
      simp only [Outcome.bind] at h h'
      cases h2 : linesPages lib acw (k + a.2.length) ps with
      | throw m => rw [h2] at h; cases h
      | ub m => rw [h2] at h; cases h
      | ok b =>
        cases h3 : linesPages lib acw (k + a.2.length) (ps ++ qs) with
        | throw m => rw [h3] at h'; cases h'
        | ub m => rw [h3] at h'; cases h'
        | ok c =>
          rw [h2] at h
          rw [h3] at h'
          simp only [Outcome.ok.injEq] at h h'
          subst h; subst h'
          obtain ⟨⟨rs, e⟩, ls, e'⟩ := ih h2 h3
          exact ⟨⟨rs, by simp only [e]; rfl⟩, ls, by simp only [e', List.append_assoc]⟩

theorem ap_setHierarchy (acw : ℚ) (k : ℕ) (ls : List TextLine) : ∀ l ∈ setHierarchy acw k ls, ∀ j,
    l.link.parent = some j ∨ l.link.prevSibling = some j ∨ l.link.nextSibling = some j → j < k + ls.length := by
  intro l hl j hj
  unfold setHierarchy at hl
  simp only at hl
  obtain ⟨i, hi, e⟩ := List.mem_mapIdx.mp hl
  generalize hpos : (fun i : ℕ => ((ls[i]?).map fun (l : TextLine) => l.line.pos).getD {}) = pos at e
  subst e
  simp only [Link.shift, Option.map_eq_some_iff] at hj
  rcases hj with ⟨q, h1, h2⟩ | ⟨q, h1, h2⟩ | ⟨q, h1, h2⟩
  · have := (c28_forest pos acw ls.length).1 i q h1; omega
  · have := (c28_siblings pos acw ls.length q i).2 h1; omega
  · have := (c28_siblings pos acw ls.length i q).2 ((c28_siblings pos acw ls.length i q).1.mp h1); omega

theorem ap_linesPages_links {lib : Pipeline.Lib} {acw : ℚ} (ps : List Page) : ∀ {k : ℕ} {r : List Page × List TextLine}, linesPages lib acw k ps = .ok r →
    ∀ l ∈ r.2, ∀ j, l.link.parent = some j ∨ l.link.prevSibling = some j ∨ l.link.nextSibling = some j → j < k + r.2.length := by
  induction ps with
  | nil => intro k r h; simp only [linesPages, Outcome.ok.injEq] at h; subst h; simp
  | cons p ps ih =>
    intro k r h
    simp only [linesPages] at h
    cases h1 : linesOfSegments lib acw p.words k p.segments with
    | throw m => rw [h1] at h; cases h
    | ub m => rw [h1] at h; cases h
    | ok a =>
      rw [h1] at h
      simp only [Outcome.bind] at h
      cases h2 : linesPages lib acw (k + a.2.length) ps with
      | throw m => rw [h2] at h; cases h
      | ub m => rw [h2] at h; cases h
      | ok b =>
        rw [h2] at h
        simp only [Outcome.ok.injEq] at h
        subst h
        have hlen : (setHierarchy acw k a.2).length = a.2.length := by unfold setHierarchy; rw [List.length_mapIdx]
        intro l hl j hj
        simp only [List.length_append, hlen]
        rcases List.mem_append.mp hl with hl | hl
        · have := ap_setHierarchy acw k a.2 l hl j hj; omega
        · have := ih h2 l hl j hj; omega

/-! ## Page numbers of lines -/

section
variable {lib : Pipeline.Lib} {n : ℕ} {R : Ran} {d0 d : Document}

theorem ap_page_numbers {ls : List TextLine} {p0 p : Pipeline.Page} (h : PageInv lib n R ls p0 p) {q : ℤ} (hP : ∀ c ∈ p0.characters, c.pos.pageNum = q) :
    ∀ w ∈ p.words, w.pos.pageNum = q := by
  have hc : ∀ c ∈ p.characters, c.pos.pageNum = q := by
    have := h.chars
    by_cases hm : R.marks = true
    · rw [if_pos hm] at this
      obtain ⟨out, o1, o2⟩ := pl_diacritics_keep (wi_keptByMarks q) lib.compose p0.characters hP
      rw [this] at o1
      cases o1
      exact o2
    · rw [if_neg hm] at this
      rw [this]; exact hP
  have hw := h.words
  by_cases hr : R.words = true
  · rw [if_pos hr] at hw
    obtain ⟨ws, a, w1, w2⟩ := hw
    obtain ⟨ws', a', g1, g2, g3, _, g5⟩ := pl_words lib.lines.hash (Words.Active.reset p.pageNum) p.pageNum p.characters h.glyphs
    rw [w1] at g1
    simp only [Outcome.ok.injEq, Prod.mk.injEq] at g1
    obtain ⟨rfl, rfl⟩ := g1
    intro w hw
    rw [w2] at hw
    obtain ⟨v, hv, q1, q2, rfl⟩ := pl_merge_mem ws g2 hw
    obtain ⟨_, _, _, _, c, hcv, e⟩ := g5 v hv
    simp only
    rw [e]
    apply hc
    have : c ∈ (ws.map (·.chars)).flatten := List.mem_flatten.mpr ⟨_, List.mem_map.mpr ⟨v, hv, rfl⟩, hcv⟩
    rw [g3] at this
    exact List.mem_of_mem_filter this
  · rw [if_neg hr] at hw
    rw [hw]
    simp

theorem ap_line_numbers (h : DocInv lib n R d0 d) (hN : PagesNumbered d0) : ∀ l ∈ d.lines, ∃ k < d0.pages.length, l.line.pos.pageNum = (k : ℤ) + 1 := by
  intro l hl
  obtain ⟨w, hw, hwp⟩ := (h.good l hl).page
  obtain ⟨i, hi⟩ := List.getElem?_of_mem hl
  have hlt : i < d.lines.length := (List.getElem?_eq_some_iff.mp hi).1
  have hmem : i ∈ d.pages.flatMap fun p => p.segments.flatMap (·.lines) := by rw [h.ranks]; simpa using hlt
  obtain ⟨p, hp, hmem⟩ := List.mem_flatMap.mp hmem
  obtain ⟨p0, hp0, hi0⟩ := pl_forall₂_right h.pages p hp
  obtain ⟨k, hk⟩ := List.getElem?_of_mem hp0
  have hwords := ap_page_numbers hi0 (hN k p0 hk).2
  refine ⟨k, (List.getElem?_eq_some_iff.mp hk).1, ?_⟩
  rw [hwp]
  have hlines := hi0.lines
  by_cases hr : R.lines = true
  · rw [if_pos hr] at hlines
    have hperm := hlines ⟨fun _ => none, fun _ => false⟩ 0
    have hin : toSWord ⟨fun _ => none, fun _ => false⟩ 0 w ∈ sWordsAt ⟨fun _ => none, fun _ => false⟩ 0 d.lines (p.segments.flatMap (·.lines)) := by
      refine List.mem_map.mpr ⟨w, List.mem_flatMap.mpr ⟨i, hmem, ?_⟩, rfl⟩
      unfold wordsAt
      rw [hi]; exact hw
    have := hperm.subset hin
    by_cases hs : R.segments = true
    · rw [if_pos hs] at this
      obtain ⟨v, hv, hvw⟩ := List.mem_map.mp this
      obtain ⟨u, hu, hvu⟩ := List.mem_flatMap.mp hv
      have hvp := hwords v (pl_wordGroup_mem hu hvu)
      have : v.pos = w.pos := congrArg Serialize.SWord.pos hvw
      rw [← this]; exact hvp
    · rw [if_neg hs] at this; cases this
  · rw [if_neg hr] at hlines
    obtain ⟨s, hs, hm⟩ := List.mem_flatMap.mp hmem
    rw [hlines s hs] at hm; cases hm

end

/-! ## Blocks -/

theorem ap_agreeDoc {lib : Pipeline.Lib} {n : ℕ} {R : Ran} {d0 d d' : Document} (hF : Front d d') (hi : DocInv lib n R d0 d) (hN : PagesNumbered d0) (hL : LinksWithin d)
    (hs : SameStatistics d d') (hf : ∀ f, (f = [] ∨ f = d.stats.mostFreqFontName ∨ ∃ l ∈ d.lines, l.line.fontName = f) → d'.fontInfos f = d.fontInfos f) :
    AgreeDoc (· < d.lines.length) (blocksDoc lib d) (blocksDoc lib d') := by
  obtain ⟨ps, hp⟩ := hF.pages
  obtain ⟨ls, hl⟩ := hF.lines
  have hget : ∀ i, i < d.lines.length → d'.lines[i]? = d.lines[i]? := fun i h => by rw [hl, List.getElem?_append_left h]
  have hbound : ∀ i, i < d.lines.length → ∀ j, ((blocksDoc lib d).link i).parent = some j ∨ ((blocksDoc lib d).link i).prevSibling = some j ∨
      ((blocksDoc lib d).link i).nextSibling = some j → j < d.lines.length := by
    intro i h j hj
    simp only [blocksDoc, List.getElem?_eq_getElem h, Option.map_some, Option.getD_some] at hj
    exact hL _ (List.getElem_mem h) j (.inr hj)
  refine ⟨?_, ?_, ?_, ?_, ?_, ?_, ?_, ?_, ?_, ?_⟩
  · intro i h; simp only [blocksDoc, hget i h]
  · intro i h; simp only [blocksDoc, hget i h]
  · intro i h; simp only [blocksDoc, hget i h]
  · intro i h
    obtain ⟨k, hk, e⟩ := ap_line_numbers hi hN d.lines[i] (List.getElem_mem h)
    have e' : ((blocksDoc lib d).line i).pos.pageNum = (k : ℤ) + 1 := by
      simp only [blocksDoc, List.getElem?_eq_getElem h, Option.map_some, Option.getD_some]; exact e
    rw [e']
    have hlen := hi.pages.length_eq
    have hk' : ((k : ℤ) + 1).toNat - 1 < d.pages.length := by omega
    simp only [blocksDoc, hp, List.getElem?_append_left hk']
  · intro i h j hj; exact hbound i h j (.inl hj)
  · intro i h j hj; exact hbound i h j (.inr (.inl hj))
  · intro i h j hj; exact hbound i h j (.inr (.inr hj))
  · intro f hfn
    apply hf
    rcases hfn with rfl | rfl | ⟨i, h, e⟩
    · exact .inl rfl
    · exact .inr (.inl rfl)
    · refine .inr (.inr ⟨d.lines[i], List.getElem_mem h, ?_⟩)
      simp only [blocksDoc, List.getElem?_eq_getElem h, Option.map_some, Option.getD_some] at e
      exact e
  · intro i h
    simp only [blocksDoc, List.getElem?_eq_getElem h, Option.map_some, Option.getD_some]
    exact hs.perFontSize _ (List.getElem_mem h)
  · unfold blocksDoc; rw [hs.avgCharWidth, hs.wordHeight, hs.lineDistance, hs.fontName, hs.fontSize]

theorem ap_agreeState {d d' : Document} (hF : Front d d') (hL : LinksWithin d) : AgreeState (· < d.lines.length) (blocksState d) (blocksState d') := by
  obtain ⟨ls, hl⟩ := hF.lines
  have hget : ∀ i, i < d.lines.length → d'.lines[i]? = d.lines[i]? := fun i h => by rw [hl, List.getElem?_append_left h]
  refine ⟨fun i h => ?_, fun i h => ?_, fun _ _ => rfl, fun _ _ => rfl, rfl, fun i h j hj => ?_⟩
  · simp only [blocksState, hget i h]
  · simp only [blocksState, hget i h]
  · simp only [blocksState, List.getElem?_eq_getElem h, Option.bind_some] at hj
    exact hL _ (List.getElem_mem h) j (.inl hj)

theorem ap_blocksStage {lib : Pipeline.Lib} {n : ℕ} {R R' : Ran} {d0 d0' d d' : Document} (hF : Front d d') (hi : DocInv lib n R d0 d) (hi' : DocInv lib n R' d0' d')
    (hN : PagesNumbered d0) (hL : LinksWithin d) (hs : SameStatistics d d')
    (hf : ∀ f, (f = [] ∨ f = d.stats.mostFreqFontName ∨ ∃ l ∈ d.lines, l.line.fontName = f) → d'.fontInfos f = d.fontInfos f)
    {x x' : Document} (hx : blocksStage lib d = .ok x) (hx' : blocksStage lib d' = .ok x') : Front x x' := by
  obtain ⟨ps, hp⟩ := hF.pages
  obtain ⟨ls, hl⟩ := hF.lines
  unfold blocksStage at hx hx'
  rw [hp, List.map_append] at hx'
  have hflat : (d.pages.map fun p => p.segments.map (·.lines)).flatten.flatten = List.range d.lines.length := by
    rw [← hi.ranks]
    generalize d.pages = ps
    induction ps with
    | nil => rfl
    | cons p ps ih => rw [List.map_cons, List.flatten_cons, List.flatten_append, ih, List.flatMap_cons, List.flatMap_def (l := p.segments)]
  obtain ⟨s1, s', bss, h1, h2, _⟩ := process_spec lib.lines.hash (blocksDoc lib d) (blocksState d)
    (d.pages.map fun p => p.segments.map (·.lines)) (by rw [hflat]; exact List.nodup_range)
  have hlen := h2.length_eq
  rw [List.length_map] at hlen
  rw [h1] at hx
  simp only [Outcome.bind, Outcome.ok.injEq] at hx
  cases h3 : TextBlocks.process lib.lines.hash (blocksDoc lib d') (blocksState d') ((d.pages.map fun p => p.segments.map (·.lines)) ++ ps.map fun p => p.segments.map (·.lines)) with
  | throw m => rw [h3] at hx'; cases hx'
  | ub m => rw [h3] at hx'; cases hx'
  | ok r' =>
    rw [h3] at hx'
    simp only [Outcome.bind, Outcome.ok.injEq] at hx'
    have hmem : ∀ p ∈ d.pages, ∀ g ∈ p.segments.map (·.lines), ∀ i ∈ g, i < d.lines.length := by
      intro p hp g hg i hg'
      obtain ⟨s, q1, q2⟩ := List.mem_map.mp hg
      have : i ∈ List.range d.lines.length := by
        rw [← hi.ranks]; exact List.mem_flatMap.mpr ⟨p, hp, List.mem_flatMap.mpr ⟨s, q1, q2 ▸ hg'⟩⟩
      exact List.mem_range.mp this
    have hmore : ∀ p ∈ ps, ∀ g ∈ p.segments.map (·.lines), ∀ i ∈ g, ¬ i < d.lines.length := by
      intro p hpp g hg i hg' hlt
      obtain ⟨s, q1, q2⟩ := List.mem_map.mp hg
      have hr := hi'.ranks
      rw [hp, List.flatMap_append, hi.ranks] at hr
      have hnd : (List.range d.lines.length ++ ps.flatMap fun p => p.segments.flatMap (·.lines)).Nodup := by rw [hr]; exact List.nodup_range
      exact (List.nodup_append.mp hnd).2.2 i (List.mem_range.mpr hlt) i (List.mem_flatMap.mpr ⟨p, hpp, List.mem_flatMap.mpr ⟨s, q1, q2 ▸ hg'⟩⟩) rfl
    obtain ⟨bs, e⟩ := ap_process lib.lines.hash (ap_agreeDoc hF hi hN hL hs hf) (ap_agreeState hF hL)
      (fun q hq => by obtain ⟨p, q1, rfl⟩ := List.mem_map.mp hq; exact hmem p q1)
      (fun q hq => by obtain ⟨p, q1, rfl⟩ := List.mem_map.mp hq; exact hmore p q1) h1 h3
    subst hx; subst hx'
    refine ⟨?_, ls, hl⟩
    simp only
    rw [e]
    exact ⟨_, List.zipWith_append hlen⟩

/-! ## Reading order -/

theorem ap_assignRoles {qs : List Page} (ps : List Page) : ∀ {rs rs' : List Role}, (∃ t, rs' = rs ++ t) → rs.length = (ps.flatMap (·.blocks)).length →
    ∃ t, assignRoles (ps ++ qs) rs' = assignRoles ps rs ++ t := by
  induction ps with
  | nil => intro rs rs' _ _; exact ⟨_, rfl⟩
  | cons p ps ih =>
    intro rs rs' ⟨t, e⟩ hlen
    rw [List.flatMap_cons, List.length_append] at hlen
    have hle : p.blocks.length ≤ rs.length := by omega
    rw [List.cons_append]
    simp only [assignRoles]
    rw [e, List.take_append_of_le_length hle, List.drop_append_of_le_length hle]
    obtain ⟨t', e'⟩ := ih (rs := rs.drop p.blocks.length) ⟨t, rfl⟩ (by rw [List.length_drop]; omega)
    exact ⟨t', by rw [e']; rfl⟩

theorem ap_orderStage {lib : Pipeline.Lib} {d d' : Document} (hF : Front d d') (hs : SameStatistics d d')
    (hr : ∀ rs rs', predictRoles lib d = .ok rs → predictRoles lib d' = .ok rs' → ∃ t, rs' = rs ++ t)
    {x x' : Document} (hx : orderStage lib d = .ok x) (hx' : orderStage lib d' = .ok x') : Front x x' := by
  obtain ⟨ps, hp⟩ := hF.pages
  obtain ⟨ls, hl⟩ := hF.lines
  unfold orderStage at hx hx'
  cases h1 : predictRoles lib d with
  | throw m => rw [h1] at hx; cases hx
  | ub m => rw [h1] at hx; cases hx
  | ok rs =>
    cases h2 : predictRoles lib d' with
    | throw m => rw [h2] at hx'; cases hx'
    | ub m => rw [h2] at hx'; cases hx'
    | ok rs' =>
      rw [h1] at hx
      rw [h2] at hx'
      simp only [Outcome.bind, Outcome.ok.injEq] at hx hx'
      subst hx; subst hx'
      obtain ⟨t, e⟩ := ap_assignRoles (qs := ps) d.pages (hr rs rs' h1 h2) (pl_predictRoles_length h1)
      refine ⟨⟨t.map (orderPage lib d'.stats), ?_⟩, ls, hl⟩
      simp only
      have ho : ∀ p, orderPage lib d'.stats p = orderPage lib d.stats p := by intro p; unfold orderPage; rw [hs.avgCharWidth, hs.avgCharHeight]
      rw [hp, e, List.map_append]
      congr 1
      exact List.map_congr_left fun p _ => ho p

/-! ## Statistics -/

/-- What glyph and word statistics compute. -/
structure SameEarly (s s' : Statistics.Stats) : Prop where
  avgCharWidth : s'.avgCharWidth = s.avgCharWidth
  avgCharHeight : s'.avgCharHeight = s.avgCharHeight
  mostFreqWordDistance : s'.mostFreqWordDistance = s.mostFreqWordDistance
  mostFreqFontSize : s'.mostFreqFontSize = s.mostFreqFontSize

theorem ap_lineStats {lib : Pipeline.Lib} {d d' : Document} (h : lineStatsStage lib d = .ok d') :
    SameEarly d.stats d'.stats ∧ d'.pages = d.pages ∧ d'.lines = d.lines ∧ d'.fontInfos = d.fontInfos := by
  unfold lineStatsStage Statistics.lineStatistics at h
  simp only at h
  generalize (d.pages.flatMap fun p => p.segments.map (basedLines d)).foldl (fun k seg => Statistics.lineLoop seg k) {} = k at h
  cases h1 : mostFreqOr lib.lines.hash 0 d.stats.mostFreqLineDistance k.dists with
  | throw m => rw [h1] at h; cases h
  | ub m => rw [h1] at h; cases h
  | ok a =>
    rw [h1] at h
    simp only [Outcome.bind] at h
    cases h2 : Statistics.perSizeLoop lib.lines.hash (lib.lines.iter _ k.perSize) d.stats.mostFreqLineDistancePerFontSize with
    | throw m => rw [h2] at h; cases h
    | ub m => rw [h2] at h; cases h
    | ok b =>
      rw [h2] at h
      simp only [Outcome.ok.injEq] at h
      subst h
      exact ⟨⟨rfl, rfl, rfl, rfl⟩, rfl, rfl, rfl⟩

/-- What a stage leaves alone. -/
theorem ap_pages {f : Page → Outcome Page} {d d' : Document} (h : ((mapPages f d.pages).bind fun ps => .ok { d with pages := ps }) = .ok d') :
    mapPages f d.pages = .ok d'.pages ∧ d'.lines = d.lines ∧ d'.stats = d.stats := by
  cases h1 : mapPages f d.pages with
  | throw m => rw [h1] at h; cases h
  | ub m => rw [h1] at h; cases h
  | ok r =>
    rw [h1] at h
    simp only [Outcome.bind, Outcome.ok.injEq] at h
    subst h
    exact ⟨rfl, rfl, rfl⟩

theorem ap_glyphStage {lib : Pipeline.Lib} {d d' : Document} (h : glyphStage lib d = .ok d') : d'.pages = d.pages ∧ d'.lines = d.lines := by
  unfold glyphStage at h
  cases h1 : Statistics.glyphStatistics lib.lines.hash d.stats (d.pages.map (·.characters)) with
  | throw m => rw [h1] at h; cases h
  | ub m => rw [h1] at h; cases h
  | ok r => rw [h1] at h; simp only [Outcome.bind, Outcome.ok.injEq] at h; subst h; exact ⟨rfl, rfl⟩

theorem ap_wordStatsStage {lib : Pipeline.Lib} {d d' : Document} (h : wordStatsStage lib d = .ok d') : d'.pages = d.pages ∧ d'.lines = d.lines := by
  unfold wordStatsStage at h
  cases h1 : Statistics.wordStatistics lib.lines.hash d.stats (d.pages.map (·.words)) with
  | throw m => rw [h1] at h; cases h
  | ub m => rw [h1] at h; cases h
  | ok r => rw [h1] at h; simp only [Outcome.bind, Outcome.ok.injEq] at h; subst h; exact ⟨rfl, rfl⟩

theorem ap_linesStage {lib : Pipeline.Lib} {d d' : Document} (h : linesStage lib d = .ok d') :
    linesPages lib d.stats.avgCharWidth 0 d.pages = .ok (d'.pages, d'.lines) ∧ d'.stats = d.stats := by
  unfold linesStage at h
  cases h1 : linesPages lib d.stats.avgCharWidth 0 d.pages with
  | throw m => rw [h1] at h; cases h
  | ub m => rw [h1] at h; cases h
  | ok r => rw [h1] at h; simp only [Outcome.bind, Outcome.ok.injEq] at h; subst h; exact ⟨rfl, rfl⟩

theorem ap_blocks_keep {lib : Pipeline.Lib} {d d' : Document} (h : blocksStage lib d = .ok d') : d'.stats = d.stats ∧ d'.lines = d.lines := by
  unfold blocksStage at h
  generalize TextBlocks.process lib.lines.hash (blocksDoc lib d) (blocksState d) (d.pages.map fun p => p.segments.map (·.lines)) = o at h
  cases o with
  | throw m => cases h
  | ub m => cases h
  | ok r => simp only [Outcome.bind, Outcome.ok.injEq] at h; subst h; exact ⟨rfl, rfl⟩

theorem ap_order_keep {lib : Pipeline.Lib} {d d' : Document} (h : orderStage lib d = .ok d') : d'.stats = d.stats ∧ d'.lines = d.lines := by
  unfold orderStage at h
  cases h1 : predictRoles lib d with
  | throw m => rw [h1] at h; cases h
  | ub m => rw [h1] at h; cases h
  | ok r => rw [h1] at h; simp only [Outcome.bind, Outcome.ok.injEq] at h; subst h; exact ⟨rfl, rfl⟩

end Verif.Props

import Verif.Props.AppendRun
import Verif.Props.Dehyphenation
import Verif.Spec.Append

/-!
# C83: pages at the end of a document do not change the pages before them
-/

namespace Verif.Props

open Verif.Math Verif.Elements Verif.Spec Verif.Words Verif.TextLines Verif.Pipeline Verif.Counter
open Verif.ReadingOrder (RElem Role)
open Verif.Cli (Stage StageConfig Env Config)

section
variable {lib : Pipeline.Lib} {cfg : Config}

theorem ap_did {st : Stage} (hst : st ≠ .lines) {d d' x x' : Document} {Q : Document → Document → Prop} (h : Did lib cfg st d x) (h' : Did lib cfg st d' x')
    (hskip : Q d d') (hrun : Enabled cfg st → ∀ m m', stage lib st d = .ok m → stage lib st d' = .ok m' → Q m m') : Q x x' := by
  unfold Did at h h'
  by_cases hE : Enabled cfg st
  · rw [if_pos hE] at h h'
    obtain ⟨m, h1, h2⟩ := h
    obtain ⟨m', h1', h2'⟩ := h'
    rw [if_neg hst] at h2 h2'
    rw [h2, h2']
    exact hrun hE m m' h1 h1'
  · rw [if_neg hE] at h h'
    rw [h, h']; exact hskip

theorem ap_did1 {st : Stage} {d x : Document} {Q : Document → Prop} (h : Did lib cfg st d x)
    (hskip : Q d) (hrun : ∀ m, stage lib st d = .ok m → Q (if st = .lines then linesFromSegments m else m)) : Q x := by
  unfold Did at h
  by_cases hE : Enabled cfg st
  · rw [if_pos hE] at h
    obtain ⟨m, h1, h2⟩ := h
    rw [h2]; exact hrun m h1
  · rw [if_neg hE] at h
    rw [h]; exact hskip

theorem ap_run_did {le : Option ℤ} {parse : StageConfig → Bool → Document → Outcome Document} {dur : ℕ → ℕ} {st : Stage} {d x : Document} (h : Did lib cfg st d x) :
    runAll (stageSteps (env lib le parse dur) cfg st) d = .ok x := by
  unfold Did at h
  unfold stageSteps
  by_cases hE : Enabled cfg st
  · rw [if_pos hE] at h
    rw [if_pos hE]
    obtain ⟨m, h1, h2⟩ := h
    by_cases hs : st = .lines
    · rw [if_pos hs] at h2
      rw [if_pos hs, List.cons_append, runAll, show (env lib le parse dur).stage st (cfg.stage st) cfg.roles d = .ok m from h1, h2]
      rfl
    · rw [if_neg hs] at h2
      rw [if_neg hs, List.append_nil, runAll, show (env lib le parse dur).stage st (cfg.stage st) cfg.roles d = .ok m from h1, h2]
      rfl
  · rw [if_neg hE] at h
    rw [if_neg hE, h]; rfl

theorem ap_beforeOrder {d0 d' : Document} {e : ℕ → Document} (h : TraceOf lib cfg d0 d' e) : BeforeOrder lib cfg d0 (e 9) := by
  unfold BeforeOrder stagesBeforeOrder
  simp only [List.flatMap_cons, List.flatMap_nil, List.append_nil]
  rw [← h.start, pl_runAll_append, ap_run_did h.glyphStatistics]
  simp only [Outcome.bind]
  rw [pl_runAll_append, ap_run_did h.diacritics]
  simp only [Outcome.bind]
  rw [pl_runAll_append, ap_run_did h.words]
  simp only [Outcome.bind]
  rw [pl_runAll_append, ap_run_did h.wordStatistics]
  simp only [Outcome.bind]
  rw [pl_runAll_append, ap_run_did h.segmentation]
  simp only [Outcome.bind]
  rw [pl_runAll_append, ap_run_did h.lines]
  simp only [Outcome.bind]
  rw [pl_runAll_append, ap_run_did h.scripts]
  simp only [Outcome.bind]
  rw [pl_runAll_append, ap_run_did h.lineStatistics]
  simp only [Outcome.bind]
  rw [ap_run_did h.blocks]

/-- What later stages leave alone. -/
theorem ap_late {d0 d' : Document} {e : ℕ → Document} (h : TraceOf lib cfg d0 d' e) :
    (d'.stats = (e 8).stats ∧ d'.lines = (e 8).lines) ∧ (e 9).stats = (e 8).stats ∧ (e 11).pages = (e 10).pages ∧ (e 11).lines = (e 10).lines ∧ (e 10).lines = (e 8).lines ∧ (e 9).lines = (e 8).lines := by
  have h9 : (e 9).stats = (e 8).stats ∧ (e 9).lines = (e 8).lines :=
    ap_did1 (Q := fun x => x.stats = (e 8).stats ∧ x.lines = (e 8).lines) h.blocks ⟨rfl, rfl⟩ fun m hm => ap_blocks_keep hm
  have h10 : (e 10).stats = (e 9).stats ∧ (e 10).lines = (e 9).lines :=
    ap_did1 (Q := fun x => x.stats = (e 9).stats ∧ x.lines = (e 9).lines) h.readingOrder ⟨rfl, rfl⟩ fun m hm => ap_order_keep hm
  have h11 : (e 11).stats = (e 10).stats ∧ (e 11).lines = (e 10).lines ∧ (e 11).pages = (e 10).pages :=
    ap_did1 (Q := fun x => x.stats = (e 10).stats ∧ x.lines = (e 10).lines ∧ x.pages = (e 10).pages) h.dehyphenation ⟨rfl, rfl, rfl⟩ fun m hm => by
      have : m = _ := (Outcome.ok.inj hm).symm
      rw [if_neg (by decide), this]; exact ⟨rfl, rfl, rfl⟩
  refine ⟨?_, h9.1, h11.2.2, h11.2.1, by rw [h10.2, h9.2], h9.2⟩
  rw [h.result]
  exact ⟨by rw [← h9.1, ← h10.1, ← h11.1]; rfl, by rw [← h9.2, ← h10.2, ← h11.2.1]; rfl⟩

theorem ap_sameEarly_trans {a b c : Statistics.Stats} (h : SameEarly a b) (h' : SameEarly b c) : SameEarly a c :=
  ⟨h'.1.trans h.1, h'.2.trans h.2, h'.3.trans h.3, h'.4.trans h.4⟩

theorem ap_early {d0 d' : Document} {e : ℕ → Document} (h : TraceOf lib cfg d0 d' e) :
    (e 5).stats = (e 4).stats ∧ (e 6).stats = (e 4).stats ∧ (e 7).stats = (e 4).stats ∧ SameEarly (e 4).stats (e 8).stats := by
  have h5 : (e 5).stats = (e 4).stats := ap_did1 (Q := fun x => x.stats = (e 4).stats) h.segmentation rfl fun m hm => by
    have : m = _ := (Outcome.ok.inj hm).symm
    rw [if_neg (by decide), this]
  have h6 : (e 6).stats = (e 5).stats := ap_did1 (Q := fun x => x.stats = (e 5).stats) h.lines rfl fun m hm => by
    rw [if_pos rfl]; exact (ap_linesStage hm).2
  have h7 : (e 7).stats = (e 6).stats := ap_did1 (Q := fun x => x.stats = (e 6).stats) h.scripts rfl fun m hm => by
    have : m = _ := (Outcome.ok.inj hm).symm
    rw [if_neg (by decide), this]
  have h8 : SameEarly (e 7).stats (e 8).stats := ap_did1 (Q := fun x => SameEarly (e 7).stats x.stats) h.lineStatistics ⟨rfl, rfl, rfl, rfl⟩ fun m hm => by
    rw [if_neg (by decide)]; exact (ap_lineStats hm).1
  rw [h7, h6, h5] at h8
  exact ⟨h5, h6.trans h5, h7.trans (h6.trans h5), h8⟩

theorem ap_links {n : ℕ} {d0 d' : Document} {e : ℕ → Document} (h : TraceOf lib cfg d0 d' e) (hi : TraceInv lib n cfg d0 e) : LinksWithin (e 8) := by
  have h6 : LinksWithin (e 6) := by
    refine ap_did1 h.lines ?_ fun m hm => ?_
    · have hr := hi.i5.ranks
      have hz : ((e 5).pages.flatMap fun p => p.segments.flatMap (·.lines)) = [] := by
        rw [List.flatMap_eq_nil_iff]
        intro p hp
        rw [List.flatMap_eq_nil_iff]
        obtain ⟨p0, _, hp0⟩ := pl_forall₂_right hi.i5.pages p hp
        exact hp0.lines
      rw [hz] at hr
      have hl : (e 5).lines = [] := by
        have := congrArg List.length hr
        rw [List.length_range] at this
        exact List.length_eq_zero_iff.mp this.symm
      intro l hm; rw [hl] at hm; cases hm
    · rw [if_pos rfl]
      obtain ⟨h1, _⟩ := ap_linesStage hm
      intro l hl j hj
      rcases hj with hj | hj
      · have := (mv_linesPages_keep _ h1).2 l hl j hj
        show j < m.lines.length
        simpa using this
      · have := ap_linesPages_links _ h1 l hl j hj
        show j < m.lines.length
        simpa using this
  have h7 : LinksWithin (e 7) := ap_did1 h.scripts h6 fun m hm => by
    have : m = _ := (Outcome.ok.inj hm).symm
    rw [if_neg (by decide), this]
    intro l hl j hj
    obtain ⟨l0, q1, q2⟩ := List.mem_map.mp hl
    simp only [List.length_map]
    exact h6 l0 q1 j (by subst q2; exact hj)
  exact ap_did1 h.lineStatistics h7 fun m hm => by
    rw [if_neg (by decide)]
    obtain ⟨_, _, e1, _⟩ := ap_lineStats hm
    unfold LinksWithin
    rw [e1]; exact h7

/-- The two runs side by side, up to the words. -/
theorem ap_front3 {n : ℕ} {d0 d0' x x' : Document} {e e' : ℕ → Document} (hp : ParsedDoc n d0) (hp' : ParsedDoc n d0')
    (h : TraceOf lib cfg d0 x e) (h' : TraceOf lib cfg d0' x' e') (hpages : d0.pages <+: d0'.pages) :
    Front (e 0) (e' 0) ∧ Front (e 1) (e' 1) ∧ Front (e 2) (e' 2) ∧ Front (e 3) (e' 3) := by
  have f0 : Front (e 0) (e' 0) := by
    obtain ⟨ps, q⟩ := hpages
    rw [h.start, h'.start]
    exact ⟨⟨ps, q.symm⟩, [], by rw [hp.lines, hp'.lines]; rfl⟩
  have hkeep : ∀ {d d' m m' : Document}, Front d d' → m.pages = d.pages ∧ m.lines = d.lines → m'.pages = d'.pages ∧ m'.lines = d'.lines → Front m m' := by
    intro d d' m m' hF a b
    exact ⟨by rw [a.1, b.1]; exact hF.pages, by rw [a.2, b.2]; exact hF.lines⟩
  have hmap : ∀ {f : Page → Outcome Page} {d d' m m' : Document}, Front d d' → ((mapPages f d.pages).bind fun ps => .ok { d with pages := ps }) = .ok m →
      ((mapPages f d'.pages).bind fun ps => .ok { d' with pages := ps }) = .ok m' → Front m m' := by
    intro f d d' m m' hF a b
    obtain ⟨a1, a2, _⟩ := ap_pages a
    obtain ⟨b1, b2, _⟩ := ap_pages b
    obtain ⟨ps, q⟩ := hF.pages
    rw [q] at b1
    exact ⟨ap_mapPages d.pages a1 b1, by rw [a2, b2]; exact hF.lines⟩
  have f1 : Front (e 1) (e' 1) := ap_did (by decide) h.glyphStatistics h'.glyphStatistics f0 fun _ m m' a b => hkeep f0 (ap_glyphStage a) (ap_glyphStage b)
  have f2 : Front (e 2) (e' 2) := ap_did (by decide) h.diacritics h'.diacritics f1 fun _ m m' a b => hmap f1 a b
  have f3 : Front (e 3) (e' 3) := ap_did (by decide) h.words h'.words f2 fun _ m m' a b => hmap f2 a b
  exact ⟨f0, f1, f2, f3⟩

/-- The two runs side by side, up to the superscripts. -/
theorem ap_front7 {n : ℕ} {d0 d0' x x' : Document} {e e' : ℕ → Document} (hp : ParsedDoc n d0) (hp' : ParsedDoc n d0')
    (h : TraceOf lib cfg d0 x e) (h' : TraceOf lib cfg d0' x' e') (hpages : d0.pages <+: d0'.pages) (hE : SameEarly (e 4).stats (e' 4).stats) :
    Front (e 7) (e' 7) := by
  obtain ⟨s5, s6, s7, s8⟩ := ap_early h
  obtain ⟨s5', s6', s7', s8'⟩ := ap_early h'
  obtain ⟨_, _, _, f3⟩ := ap_front3 hp hp' h h' hpages
  have hkeep : ∀ {d d' m m' : Document}, Front d d' → m.pages = d.pages ∧ m.lines = d.lines → m'.pages = d'.pages ∧ m'.lines = d'.lines → Front m m' := by
    intro d d' m m' hF a b
    exact ⟨by rw [a.1, b.1]; exact hF.pages, by rw [a.2, b.2]; exact hF.lines⟩
  have f4 : Front (e 4) (e' 4) := ap_did (by decide) h.wordStatistics h'.wordStatistics f3 fun _ m m' a b => hkeep f3 (ap_wordStatsStage a) (ap_wordStatsStage b)
  have f5 : Front (e 5) (e' 5) := ap_did (by decide) h.segmentation h'.segmentation f4 fun _ m m' a b => by
    have a' : m = _ := (Outcome.ok.inj a).symm
    have b' : m' = _ := (Outcome.ok.inj b).symm
    obtain ⟨ps, q⟩ := f4.pages
    rw [a', b']
    refine ⟨⟨ps.map (segmentPage lib (e' 4).stats), ?_⟩, f4.lines⟩
    simp only
    rw [q, List.map_append]
    congr 1
    apply List.map_congr_left
    intro p _
    unfold segmentPage docStats
    rw [hE.1, hE.2, hE.3]
  have f6 : Front (e 6) (e' 6) := by
    have d := h.lines
    have d' := h'.lines
    unfold Did at d d'
    by_cases hEn : Enabled cfg .lines
    · rw [if_pos hEn] at d d'
      obtain ⟨m, a, b⟩ := d
      obtain ⟨m', a', b'⟩ := d'
      rw [if_pos rfl] at b b'
      obtain ⟨a1, _⟩ := ap_linesStage a
      obtain ⟨a1', _⟩ := ap_linesStage a'
      obtain ⟨ps, q⟩ := f5.pages
      rw [q, show (e' 5).stats.avgCharWidth = (e 5).stats.avgCharWidth by rw [s5, s5']; exact hE.1] at a1'
      obtain ⟨⟨rs, e1⟩, e2⟩ := ap_linesPages (e 5).pages a1 a1'
      rw [b, b']
      refine ⟨⟨rs.map fun p => { p with textLines := p.segments.flatMap (·.lines) }, ?_⟩, e2⟩
      simp only [linesFromSegments] at e1 ⊢
      rw [e1, List.map_append]
    · rw [if_neg hEn] at d d'
      rw [d, d']; exact f5
  have f7 : Front (e 7) (e' 7) := ap_did (by decide) h.scripts h'.scripts f6 fun _ m m' a b => by
    have a' : m = _ := (Outcome.ok.inj a).symm
    have b' : m' = _ := (Outcome.ok.inj b).symm
    obtain ⟨ls, q⟩ := f6.lines
    rw [a', b']
    refine ⟨f6.pages, ?_⟩
    simp only
    rw [q, List.map_append, show (e' 6).stats.mostFreqFontSize = (e 6).stats.mostFreqFontSize by rw [s6, s6']; exact hE.4]
    exact ⟨_, rfl⟩
  exact f7

/-- The two runs side by side, up to the reading order. -/
theorem ap_front {n : ℕ} (hn : n ≤ 3) (hl : LibOk lib) {d0 d0' x x' : Document} {e e' : ℕ → Document} (hp : ParsedDoc n d0) (hp' : ParsedDoc n d0')
    (h : TraceOf lib cfg d0 x e) (h' : TraceOf lib cfg d0' x' e') (hpages : d0.pages <+: d0'.pages) (hN : PagesNumbered d0) (hs : SameStatistics x x')
    (hf : ∀ f, (f = [] ∨ f = x.stats.mostFreqFontName ∨ ∃ l ∈ x.lines, l.line.fontName = f) → d0'.fontInfos f = d0.fontInfos f)
    (hr : Enabled cfg .readingOrder → ∀ y y' rs rs', BeforeOrder lib cfg d0 y → BeforeOrder lib cfg d0' y' → predictRoles lib y = .ok rs → predictRoles lib y' = .ok rs' → rs <+: rs') :
    Front (e 10) (e' 10) := by
  have hi := tr_inv hn hl hp h
  have hi' := tr_inv hn hl hp' h'
  obtain ⟨⟨l1, l2⟩, l3, _, _, _, l4⟩ := ap_late h
  obtain ⟨⟨l1', l2'⟩, l3', _, _, _⟩ := ap_late h'
  obtain ⟨s5, s6, s7, s8⟩ := ap_early h
  obtain ⟨s5', s6', s7', s8'⟩ := ap_early h'
  have hsame : ∀ {y y' : Document}, y.stats = (e 8).stats → y.lines = (e 8).lines → y'.stats = (e' 8).stats → SameStatistics y y' := by
    intro y y' a b c
    have a' := a.trans l1.symm
    have b' := b.trans l2.symm
    have c' := c.trans l1'.symm
    refine ⟨?_, ?_, ?_, ?_, ?_, ?_, ?_, ?_⟩
    all_goals (try intro l hl; rw [b'] at hl); rw [a', c']
    exacts [hs.1, hs.2, hs.3, hs.4, hs.5, hs.6, hs.7, hs.8 l hl]
  have hs8 : SameStatistics (e 8) (e' 8) := hsame rfl rfl rfl
  have hE : SameEarly (e 4).stats (e' 4).stats :=
    ⟨s8'.1.symm.trans (hs8.1.trans s8.1), s8'.2.symm.trans (hs8.2.trans s8.2), s8'.3.symm.trans (hs8.5.trans s8.3), s8'.4.symm.trans (hs8.3.trans s8.4)⟩
  have hkeep : ∀ {d d' m m' : Document}, Front d d' → m.pages = d.pages ∧ m.lines = d.lines → m'.pages = d'.pages ∧ m'.lines = d'.lines → Front m m' := by
    intro d d' m m' hF a b
    exact ⟨by rw [a.1, b.1]; exact hF.pages, by rw [a.2, b.2]; exact hF.lines⟩
  have f7 : Front (e 7) (e' 7) := ap_front7 hp hp' h h' hpages hE
  have f8 : Front (e 8) (e' 8) := ap_did (by decide) h.lineStatistics h'.lineStatistics f7 fun _ m m' a b =>
    hkeep f7 ⟨(ap_lineStats a).2.1, (ap_lineStats a).2.2.1⟩ ⟨(ap_lineStats b).2.1, (ap_lineStats b).2.2.1⟩
  have f9 : Front (e 9) (e' 9) := ap_did (by decide) h.blocks h'.blocks f8 fun _ m m' a b =>
    ap_blocksStage f8 hi.i8 hi'.i8 hN (ap_links h hi) hs8 (fun f hfn => by
      rw [hi.i8.fonts, hi'.i8.fonts]
      exact hf f (by rw [l1, l2]; exact hfn)) a b
  exact ap_did (by decide) h.readingOrder h'.readingOrder f9 fun hE m m' a b =>
    ap_orderStage f9 (hsame l3 l4 l3') (fun rs rs' r1 r2 => by
      obtain ⟨t, q⟩ := hr hE _ _ rs rs' (ap_beforeOrder h) (ap_beforeOrder h') r1 r2
      exact ⟨t, q.symm⟩) a b

/-! ## Hyphens -/

theorem ap_prev (L : List Serialize.SLine) (st : Dehyphenation.Flags × Option Serialize.SLine) :
    (L.flatMap (·.words) = [] → (L.foldl Dehyphenation.step st) = st) ∧
    (L.flatMap (·.words) ≠ [] → ∃ l, (L.foldl Dehyphenation.step st).2 = some l ∧ l.words.getLast? = (L.flatMap (·.words)).getLast?) := by
  induction L using List.reverseRecOn with
  | nil => exact ⟨fun _ => rfl, fun h => absurd rfl h⟩
  | append_singleton L l ih =>
    rw [List.foldl_append, List.foldl_cons, List.foldl_nil, List.flatMap_append, List.flatMap_cons, List.flatMap_nil, List.append_nil]
    generalize hr : L.foldl Dehyphenation.step st = r at ih
    cases hw : l.words with
    | nil =>
      have hstep : Dehyphenation.step r l = r := by unfold Dehyphenation.step; rw [hw]
      rw [hstep, List.append_nil]
      exact ih
    | cons w ws =>
      refine ⟨fun h => by simp at h, fun _ => ⟨l, ?_, ?_⟩⟩
      · unfold Dehyphenation.step
        rw [hw]
        simp only
        split
        · rfl
        · split
          · rfl
          · split <;> rfl
      · rw [hw, List.getLast?_append_of_ne_nil _ (by simp)]

theorem ap_flags {U : ℕ → Prop} (L : List Serialize.SLine) : ∀ (st : Dehyphenation.Flags × Option Serialize.SLine),
    (∀ l ∈ L, ∀ w ∈ l.words, ¬ U w.uid) → (∀ prev, st.2 = some prev → ∀ p, prev.words.getLast? = some p → ¬ U p.uid ∨ ∀ t, Dehyphenation.mergedText p.text t = none) →
    ∀ u, U u → (L.foldl Dehyphenation.step st).1.first u = st.1.first u ∧ (L.foldl Dehyphenation.step st).1.second u = st.1.second u := by
  induction L with
  | nil => intro st _ _ u _; exact ⟨rfl, rfl⟩
  | cons l L ih =>
    intro st hL hprev u hu
    rw [List.foldl_cons]
    have hl := hL l (by simp)
    cases hw : l.words with
    | nil =>
      have hstep : Dehyphenation.step st l = st := by unfold Dehyphenation.step; rw [hw]
      rw [hstep]
      exact ih st (fun x hx => hL x (by simp [hx])) hprev u hu
    | cons w ws =>
      have h2 : (Dehyphenation.step st l).2 = some l := by
        unfold Dehyphenation.step
        rw [hw]
        simp only
        split
        · rfl
        · split
          · rfl
          · split <;> rfl
      have h1 : (Dehyphenation.step st l).1.first u = st.1.first u ∧ (Dehyphenation.step st l).1.second u = st.1.second u := by
        unfold Dehyphenation.step
        rw [hw]
        simp only
        split
        · exact ⟨rfl, rfl⟩
        · next prev hp =>
          split
          · exact ⟨rfl, rfl⟩
          · next p hpl =>
            split
            · exact ⟨rfl, rfl⟩
            · next t ht =>
              have hu1 : u ≠ w.uid := fun e => hl w (by rw [hw]; simp) (e ▸ hu)
              have hu2 : u ≠ p.uid := by
                rcases hprev prev hp p hpl with h | h
                · exact fun e => h (e ▸ hu)
                · rw [h] at ht; cases ht
              exact ⟨Function.update_of_ne hu2 _ _, Function.update_of_ne hu1 _ _⟩
      obtain ⟨g1, g2⟩ := ih (Dehyphenation.step st l) (fun x hx => hL x (by simp [hx])) (fun prev hp p hpl => by
        rw [h2] at hp
        cases hp
        exact .inl (hl p (List.mem_of_getLast? hpl))) u hu
      exact ⟨g1.trans h1.1, g2.trans h1.2⟩

/-- Equal but for the flags of words that do not belong to the pages at the front. -/
theorem ap_toSPages {d d' : Document} (hF : Front d d') (hlines : ∀ p ∈ d.pages, ∀ b ∈ p.blocks, ∀ i ∈ b.block.lines, i < d.lines.length)
    (hy : ∀ u, (Nat.unpair u).1 < d.pages.length → d'.hyphens.first u = d.hyphens.first u ∧ d'.hyphens.second u = d.hyphens.second u) :
    ∃ ps, d'.pages = d.pages ++ ps ∧ (toSDoc d').pages = (toSDoc d).pages ++ ps.mapIdx fun k p => toSPage d' (k + d.pages.length) p := by
  obtain ⟨ps, hp⟩ := hF.pages
  obtain ⟨ls, hl⟩ := hF.lines
  refine ⟨ps, hp, ?_⟩
  show d'.pages.mapIdx (toSPage d') = d.pages.mapIdx (toSPage d) ++ _
  rw [hp, List.mapIdx_append]
  congr 1
  apply List.ext_getElem?
  intro k
  rw [List.getElem?_mapIdx, List.getElem?_mapIdx]
  cases hk : d.pages[k]? with
  | none => rfl
  | some p =>
    have hklt : k < d.pages.length := (List.getElem?_eq_some_iff.mp hk).1
    have hpm := List.mem_of_getElem? hk
    simp only [Option.map_some]
    congr 1
    unfold toSPage
    congr 1
    apply List.map_congr_left
    intro b hb
    unfold toSBlock
    congr 1
    apply List.map_congr_left
    intro i hi
    rw [hl, List.getElem?_append_left (hlines p hpm b hb i hi)]
    congr 1
    apply List.map_congr_left
    intro w _
    unfold toSWord
    obtain ⟨g1, g2⟩ := hy (wordUid k w) (by unfold wordUid; rw [Nat.unpair_pair]; exact hklt)
    rw [g1, g2]

theorem ap_uids (d : Document) (k : ℕ) (p : Page) : ∀ b ∈ (toSPage d k p).blocks, ∀ l ∈ b.lines, ∀ w ∈ l.words, (Nat.unpair w.uid).1 = k := by
  intro b hb l hl w hw
  obtain ⟨b0, _, rfl⟩ := List.mem_map.mp hb
  obtain ⟨i, _, rfl⟩ := List.mem_map.mp hl
  obtain ⟨w0, _, rfl⟩ := List.mem_map.mp hw
  show (Nat.unpair (wordUid k w0)).1 = k
  unfold wordUid; rw [Nat.unpair_pair]

theorem ap_writePages (roles : List Role) (head : Serialize.SBlock → Text.Str) (foot : Text.Str) (qs : List Serialize.SPage) (ps : List Serialize.SPage) : ∀ prev,
    ∃ t, Serialize.writePages roles head foot prev (ps ++ qs) = Serialize.writePages roles head foot prev ps ++ t := by
  induction ps with
  | nil => intro prev; exact ⟨_, rfl⟩
  | cons p ps ih =>
    intro prev
    obtain ⟨t, e⟩ := ih (Serialize.writeBlocks roles head prev p.blocks).2
    exact ⟨t, by simp only [List.cons_append, Serialize.writePages, e, List.append_assoc]⟩

theorem ap_texts (d : Document) : (writtenWords d).map (·.text) = d.pages.flatMap fun p => p.blocks.flatMap fun b => b.block.lines.flatMap fun i =>
    (((d.lines[i]?).map fun l => l.line.words).getD []).map (·.text) := by
  unfold writtenWords
  have hpage : ∀ k p, ((toSPage d k p).blocks.flatMap fun b => b.lines.flatMap (·.words)).map (·.text) = p.blocks.flatMap fun b => b.block.lines.flatMap fun i =>
      (((d.lines[i]?).map fun l => l.line.words).getD []).map (·.text) := by
    intro k p
    simp only [toSPage, List.flatMap_map, List.map_flatMap, toSBlock, List.map_map]
    rfl
  rw [List.map_flatMap]
  show List.flatMap _ (d.pages.mapIdx (toSPage d)) = _
  rw [List.flatMap_def, List.flatMap_def]
  congr 1
  apply List.ext_getElem?
  intro k
  rw [List.getElem?_map, List.getElem?_mapIdx, List.getElem?_map]
  cases d.pages[k]? with
  | none => rfl
  | some p =>
    simp only [Option.map_some, Option.some.injEq]
    exact hpage k p

/-- The flags of the words of the pages at the front. -/
theorem ap_hyphens {n : ℕ} {d0 d0' x x' : Document} {e e' : ℕ → Document} (hp : ParsedDoc n d0) (hp' : ParsedDoc n d0') (hi : TraceInv lib n cfg d0 e) (hi' : TraceInv lib n cfg d0' e')
    (h : TraceOf lib cfg d0 x e) (h' : TraceOf lib cfg d0' x' e') (hF : Front (e 10) (e' 10))
    (hlines : ∀ p ∈ (e 10).pages, ∀ b ∈ p.blocks, ∀ i ∈ b.block.lines, i < (e 10).lines.length) (hE : ¬ EndsHyphenated x) :
    ∀ u, (Nat.unpair u).1 < x.pages.length → x'.hyphens.first u = x.hyphens.first u ∧ x'.hyphens.second u = x.hyphens.second u := by
  obtain ⟨_, _, q1, q2, _⟩ := ap_late h
  have hxp : x.pages.length = (e 10).pages.length := by rw [h.result, linesFromBlocks, ← q1]; simp
  rw [hxp, h.result, h'.result]
  show ∀ u, _ → (e' 11).hyphens.first u = (e 11).hyphens.first u ∧ (e' 11).hyphens.second u = (e 11).hyphens.second u
  have hy : (e 10).hyphens = ⟨fun _ => none, fun _ => false⟩ := by rw [hi.i10.hyphens, hp.hyphens]
  have hy' : (e' 10).hyphens = ⟨fun _ => none, fun _ => false⟩ := by rw [hi'.i10.hyphens, hp'.hyphens]
  obtain ⟨ps, g1, g2⟩ := ap_toSPages hF hlines (fun u _ => by rw [hy, hy']; exact ⟨rfl, rfl⟩)
  have d := h.dehyphenation
  have d' := h'.dehyphenation
  unfold Did at d d'
  by_cases hEn : Enabled cfg .dehyphenation
  · rw [if_pos hEn] at d d'
    obtain ⟨m, a, b⟩ := d
    obtain ⟨m', a', b'⟩ := d'
    rw [if_neg (by decide)] at b b'
    have a2 : m = _ := (Outcome.ok.inj a).symm
    have a2' : m' = _ := (Outcome.ok.inj a').symm
    rw [b, b', a2, a2']
    simp only
    have hall : Dehyphenation.allLines (toSDoc (e' 10)) = Dehyphenation.allLines (toSDoc (e 10)) ++
        (ps.mapIdx fun k p => toSPage (e' 10) (k + (e 10).pages.length) p).flatMap fun p => p.blocks.flatMap (·.lines) := by
      unfold Dehyphenation.allLines; rw [g2, List.flatMap_append]
    rw [hall, List.foldl_append, hy, hy']
    intro u hu
    refine ap_flags (U := fun u => (Nat.unpair u).1 < (e 10).pages.length) _ _ ?_ ?_ u hu
    · intro l hl w hw hlt
      obtain ⟨p, hpm, hl⟩ := List.mem_flatMap.mp hl
      obtain ⟨bl, hb, hl'⟩ := List.mem_flatMap.mp hl
      obtain ⟨k, hk, rfl⟩ := List.mem_mapIdx.mp hpm
      have := ap_uids (e' 10) _ _ bl hb l hl' w hw
      omega
    · intro prev hprev p hpl
      right
      intro t
      obtain ⟨c1, c2⟩ := ap_prev (Dehyphenation.allLines (toSDoc (e 10))) (⟨fun _ => none, fun _ => false⟩, none)
      by_cases hz : (Dehyphenation.allLines (toSDoc (e 10))).flatMap (·.words) = []
      · rw [c1 hz] at hprev; cases hprev
      · obtain ⟨l, hl1, hl2⟩ := c2 hz
        rw [hl1] at hprev
        cases hprev
        rw [hl2] at hpl
        unfold Dehyphenation.mergedText
        rw [if_neg]
        rintro ⟨k1, k2⟩
        apply hE
        have htext : (writtenWords x).map (·.text) = ((Dehyphenation.allLines (toSDoc (e 10))).flatMap (·.words)).map (·.text) := by
          have e1 : (Dehyphenation.allLines (toSDoc (e 10))).flatMap (·.words) = writtenWords (e 10) := by
            unfold writtenWords Dehyphenation.allLines
            simp only [List.flatMap_assoc]
          rw [e1, ap_texts, ap_texts, h.result]
          unfold linesFromBlocks
          simp only
          rw [q1, q2, List.flatMap_map]
        have hlast : ((writtenWords x).map (·.text)).getLast? = some p.text := by rw [htext, List.getLast?_map, hpl]; rfl
        rw [List.getLast?_map] at hlast
        cases hw : (writtenWords x).getLast? with
        | none => rw [hw] at hlast; cases hlast
        | some w =>
          rw [hw] at hlast
          have : w.text = p.text := by simpa using hlast
          exact ⟨w, hw, by rw [this]; omega, by rw [this]; exact k2⟩
  · rw [if_neg hEn] at d d'
    rw [d, d', hy, hy']
    exact fun _ _ => ⟨rfl, rfl⟩

/-- A run of the program: parsing gives `d0`, and the run ends with exit code 0 and the document `d'`. -/
def RunOf (lib : Pipeline.Lib) (cfg : Config) (d0 d' : Document) : Prop :=
  ∃ (parse : StageConfig → Bool → Document → Outcome Document) (dur : ℕ → ℕ) (d : Document) (ts ts' : Option (List (Text.Str × ℕ))),
    parse cfg.parsing cfg.skipFontFiles d = .ok d0 ∧ Cli.process (env lib none parse dur) cfg ⟨d, ts⟩ = .ok (0, ⟨d', ts'⟩)

/-- The premises of C83: `d0` and `d0'` are parsed documents, the pages of `d0` are the first pages of `d0'`; both runs end well with the same statistics,
the fonts that occur on the first pages are the same, and the network predicts the same roles for the blocks of these pages. -/
structure SameButMore (lib : Pipeline.Lib) (n : ℕ) (cfg : Config) (d0 d0' d d' : Document) : Prop where
  precision : n ≤ 3
  sorts : LibOk lib
  parsed : ParsedDoc n d0
  parsed' : ParsedDoc n d0'
  pages : d0.pages <+: d0'.pages
  numbered : PagesNumbered d0
  run : RunOf lib cfg d0 d
  run' : RunOf lib cfg d0' d'
  stats : SameStatistics d d'
  fonts : ∀ f, (f = [] ∨ f = d.stats.mostFreqFontName ∨ ∃ l ∈ d.lines, l.line.fontName = f) → d0'.fontInfos f = d0.fontInfos f
  roles : Enabled cfg .readingOrder → ∀ x x' rs rs', BeforeOrder lib cfg d0 x → BeforeOrder lib cfg d0' x' →
    predictRoles lib x = .ok rs → predictRoles lib x' = .ok rs' → rs <+: rs'

theorem ap_result {n : ℕ} {d0 d0' d d' : Document} (h : SameButMore lib n cfg d0 d0' d d') : ∃ e e', TraceOf lib cfg d0 d e ∧ TraceOf lib cfg d0' d' e' ∧
    Front (e 10) (e' 10) ∧ Front d d' := by
  obtain ⟨parse, dur, a, ts, ts', h1, h2⟩ := h.run
  obtain ⟨parse', dur', a', us, us', h1', h2'⟩ := h.run'
  obtain ⟨e, he⟩ := tr_trace h1 h2
  obtain ⟨e', he'⟩ := tr_trace h1' h2'
  have hF := ap_front h.precision h.sorts h.parsed h.parsed' he he' h.pages h.numbered h.stats h.fonts h.roles
  refine ⟨e, e', he, he', hF, ?_⟩
  obtain ⟨_, _, q1, q2, _⟩ := ap_late he
  obtain ⟨_, _, q1', q2', _⟩ := ap_late he'
  obtain ⟨ps, g1⟩ := hF.pages
  rw [he.result, he'.result]
  refine ⟨?_, ?_⟩
  · unfold linesFromBlocks
    simp only
    rw [q1, q1', g1, List.map_append]
    exact ⟨_, rfl⟩
  · unfold linesFromBlocks
    simp only
    rw [q2, q2']; exact hF.lines

/-- C83 (pages): further pages at the end change nothing on the pages before them, as long as the statistics of the document, the fonts and the predicted roles are the
same: the same characters, words, segments, text lines, blocks, roles, and the same order of the blocks. -/
theorem c83_pages {n : ℕ} {d0 d0' d d' : Document} (h : SameButMore lib n cfg d0 d0' d d') : BeginsLike d d' := by
  obtain ⟨_, _, _, _, _, hF⟩ := ap_result h
  obtain ⟨ps, g⟩ := hF.pages
  obtain ⟨ls, g'⟩ := hF.lines
  exact ⟨⟨ps, g.symm⟩, ⟨ls, g'.symm⟩⟩

/-- C83 (text): unless the last word of the shorter document ends with a hyphen, the plain text of the longer document begins with the text of the shorter one (but for
the line break at its end), in both formats and for every selection of roles. -/
theorem c83_text {n : ℕ} {d0 d0' d d' : Document} (h : SameButMore lib n cfg d0 d0' d d') (hE : ¬ EndsHyphenated d) (roles : List Role) :
    (∃ text more, Serialize.plainText roles (toSDoc d) = text ++ ['\n'] ∧ Serialize.plainText roles (toSDoc d') = text ++ more) ∧
    ∃ text more, Serialize.plainTextExtended roles (toSDoc d) = text ++ ['\n'] ∧ Serialize.plainTextExtended roles (toSDoc d') = text ++ more := by
  obtain ⟨e, e', he, he', hF, hFd⟩ := ap_result h
  have hi := tr_inv h.precision h.sorts h.parsed he
  have hi' := tr_inv h.precision h.sorts h.parsed' he'
  have hlines : ∀ p ∈ (e 10).pages, ∀ b ∈ p.blocks, ∀ i ∈ b.block.lines, i < (e 10).lines.length := by
    intro p hp b hb i hib
    obtain ⟨p0, _, hp0⟩ := pl_forall₂_right hi.i10.pages p hp
    have hbl := hp0.blocks
    by_cases hR : (ranOf cfg).blocks = true
    · rw [if_pos hR] at hbl
      have hm := hbl.1.subset (List.mem_flatMap.mpr ⟨b, hb, hib⟩)
      have : i ∈ List.range (e 10).lines.length := by rw [← hi.i10.ranks]; exact List.mem_flatMap.mpr ⟨p, hp, hm⟩
      exact List.mem_range.mp this
    · rw [if_neg hR] at hbl
      rw [hbl] at hb; cases hb
  have hy := ap_hyphens h.parsed h.parsed' hi hi' he he' hF hlines hE
  obtain ⟨_, _, q1, q2, _⟩ := ap_late he
  have hlines' : ∀ p ∈ d.pages, ∀ b ∈ p.blocks, ∀ i ∈ b.block.lines, i < d.lines.length := by
    rw [he.result]
    unfold linesFromBlocks
    simp only
    rw [q1, q2]
    intro p hp
    obtain ⟨p0, hp0, rfl⟩ := List.mem_map.mp hp
    exact hlines p0 hp0
  obtain ⟨ps, _, g⟩ := ap_toSPages hFd hlines' hy
  unfold Serialize.plainText Serialize.plainTextExtended
  rw [g]
  refine ⟨?_, ?_⟩
  · obtain ⟨t, ht⟩ := ap_writePages roles (fun _ => []) [] (ps.mapIdx fun k p => toSPage d' (k + d.pages.length) p) (toSDoc d).pages false
    exact ⟨_, t ++ ['\n'], rfl, by rw [ht, List.append_assoc]⟩
  · obtain ⟨t, ht⟩ := ap_writePages roles Serialize.blockPrefix ['\n', Char.ofNat 12] (ps.mapIdx fun k p => toSPage d' (k + d.pages.length) p) (toSDoc d).pages false
    exact ⟨_, t ++ ['\n'], rfl, by rw [ht, List.append_assoc]⟩

end

/-! ## Examples and limits -/

/-- A character on page `k`. -/
def apGlyph (k : ℤ) (x y : ℚ) (t : Char) : Glyph :=
  { plGlyph x y t with pos := { (plGlyph x y t).pos with pageNum := k }, base := y + 10 }

/-- A raised small character. -/
def apSup (k : ℤ) (x y : ℚ) (t : Char) : Glyph :=
  { apGlyph k x y t with fontSize := 6, base := y + 5, pos := { pageNum := k, leftX := x, upperY := y, rightX := x + 5, lowerY := y + 6 } }

/-- A row of characters. -/
def apRow (k : ℤ) (x y : ℚ) (s : List Char) : List Glyph := s.mapIdx fun i t => apGlyph k (x + 5 * i) y t

/-- A page with these characters. -/
def apPage (k : ℤ) (cs : List Glyph) : Pipeline.Page := { pageNum := k, width := 200, height := 200, characters := cs }

/-- A document with these pages. -/
def apDoc (ps : List Pipeline.Page) : Document := { pages := ps, fontInfos := fun _ => some ⟨400, false⟩ }

/-- A page with two rows. -/
def apTwo (k : ℤ) : Pipeline.Page := apPage k (apRow k 10 10 "ab".toList ++ apRow k 10 22 "cd".toList)

theorem ap_glyph_good (k x y : ℤ) (t : Char) (hx : 0 < x ∧ x < 1000) (hy : 0 < y ∧ y < 1000) : GoodGlyph 1 (apGlyph k x y t) := by
  have h := plGlyph_good x y t hx hy
  exact ⟨⟨h.box.1, h.box.2, h.box.3, h.box.4, h.box.5⟩, h.size⟩

theorem apTwo_good (k : ℤ) : ∀ c ∈ (apTwo k).characters, GoodGlyph 1 c ∧ c.pos.pageNum = k := by
  intro c hc
  have e : (apTwo k).characters = [apGlyph k (10 : ℤ) (10 : ℤ) 'a', apGlyph k (15 : ℤ) (10 : ℤ) 'b', apGlyph k (10 : ℤ) (22 : ℤ) 'c', apGlyph k (15 : ℤ) (22 : ℤ) 'd'] := by
    simp [apTwo, apPage, apRow]; norm_num
  rw [e] at hc
  simp only [List.mem_cons, List.not_mem_nil, or_false] at hc
  rcases hc with rfl | rfl | rfl | rfl <;> exact ⟨ap_glyph_good _ _ _ _ (by norm_num) (by norm_num), rfl⟩

theorem apDoc_parsed {ks : List ℤ} : ParsedDoc 1 (apDoc (ks.map apTwo)) := by
  refine ⟨?_, ?_, ?_, ?_, ?_, rfl, rfl⟩
  · intro p hp c hc
    obtain ⟨k, _, rfl⟩ := List.mem_map.mp hp
    exact (apTwo_good k c hc).1
  all_goals
    intro p hp
    obtain ⟨k, _, rfl⟩ := List.mem_map.mp hp
    simp [apTwo, apPage]

/-- The run on a document. -/
def apRun (d : Document) : Outcome (ℤ × Cli.PState Document) := Cli.process (env refPipeline none (fun _ _ _ => .ok d) (fun _ => 0)) plConfig ⟨{}, none⟩

/-- The premises are met: a page with the rows `ab` and `cd`, and the same with a second page. -/
theorem apDoc_premises : ∃ d d', SameButMore refPipeline 1 plConfig (apDoc [apTwo 1]) (apDoc [apTwo 1, apTwo 2]) d d' ∧ ¬ EndsHyphenated d := by
  have hp : ParsedDoc 1 (apDoc [apTwo 1]) := apDoc_parsed (ks := [1])
  have hp' : ParsedDoc 1 (apDoc [apTwo 1, apTwo 2]) := apDoc_parsed (ks := [1, 2])
  have key : (match apRun (apDoc [apTwo 1]), apRun (apDoc [apTwo 1, apTwo 2]) with
      | .ok (c, r), .ok (c', r') => decide (c = 0 ∧ c' = 0 ∧ r'.doc.stats.avgCharWidth = r.doc.stats.avgCharWidth ∧ r'.doc.stats.avgCharHeight = r.doc.stats.avgCharHeight ∧
          r'.doc.stats.mostFreqFontSize = r.doc.stats.mostFreqFontSize ∧ r'.doc.stats.mostFreqFontName = r.doc.stats.mostFreqFontName ∧
          r'.doc.stats.mostFreqWordDistance = r.doc.stats.mostFreqWordDistance ∧ r'.doc.stats.mostFreqWordHeight = r.doc.stats.mostFreqWordHeight ∧
          r'.doc.stats.mostFreqLineDistance = r.doc.stats.mostFreqLineDistance ∧
          (∀ l ∈ r.doc.lines, r'.doc.stats.mostFreqLineDistancePerFontSize l.line.fontSize = r.doc.stats.mostFreqLineDistancePerFontSize l.line.fontSize) ∧
          (writtenWords r.doc).map (·.text) = [['a', 'b'], ['c', 'd']])
      | _, _ => false) = true := by decide +kernel
  have hroles : (match runAll (stagesBeforeOrder.flatMap (stageSteps (env refPipeline none (fun _ _ x => .ok x) fun _ => 0) plConfig)) (apDoc [apTwo 1]),
      runAll (stagesBeforeOrder.flatMap (stageSteps (env refPipeline none (fun _ _ x => .ok x) fun _ => 0) plConfig)) (apDoc [apTwo 1, apTwo 2]) with
      | .ok d, .ok d' => match predictRoles refPipeline d, predictRoles refPipeline d' with
        | .ok a, .ok b => a.isPrefixOf b
        | _, _ => false
      | _, _ => true) = true := by decide +kernel
  cases h1 : apRun (apDoc [apTwo 1]) with
  | throw m => rw [h1] at key; cases key
  | ub m => rw [h1] at key; simp at key
  | ok a =>
    cases h2 : apRun (apDoc [apTwo 1, apTwo 2]) with
    | throw m => rw [h1, h2] at key; cases key
    | ub m => rw [h1, h2] at key; simp at key
    | ok b =>
      obtain ⟨c, r⟩ := a
      obtain ⟨c', r'⟩ := b
      rw [h1, h2] at key
      obtain ⟨rfl, rfl, k1, k2, k3, k4, k5, k6, k7, k8, k9⟩ := of_decide_eq_true key
      refine ⟨r.doc, r'.doc, ⟨by decide, refPipeline_ok, hp, hp', ⟨[apTwo 2], rfl⟩, ?_, ⟨_, _, _, _, _, rfl, h1⟩, ⟨_, _, _, _, _, rfl, h2⟩, ⟨k1, k2, k3, k4, k5, k6, k7, k8⟩, fun _ _ => rfl, ?_⟩, ?_⟩
      · intro k p hk
        cases k with
        | zero => cases hk; exact ⟨rfl, fun c hc => (apTwo_good 1 c hc).2⟩
        | succ k => cases hk
      · intro _ x x' rs rs' hx hx' q q'
        unfold BeforeOrder at hx hx'
        rw [hx, hx'] at hroles
        simp only at hroles
        rw [q, q'] at hroles
        exact List.isPrefixOf_iff_prefix.mp hroles
      · rintro ⟨w, hw, _, hw2⟩
        have : ((writtenWords r.doc).map (·.text)).getLast? = some w.text := by rw [List.getLast?_map, hw]; rfl
        rw [k9] at this
        simp only [List.getLast?_cons_cons, List.getLast?_singleton, Option.some.injEq] at this
        rw [← this] at hw2
        revert hw2; decide

example : printed (apDoc [apTwo 1]) = some "ab cd\n".toList ∧ printed (apDoc [apTwo 1, apTwo 2]) = some "ab cd\n\nab cd\n".toList := by
  constructor <;> decide +kernel

/-- Limits of C83: if the last word ends with a hyphen, it is joined with the first word of the next page. -/
theorem c83_hyphen_refuted : printed (apDoc [apPage 1 (apRow 1 10 10 "aa-".toList)]) = some "aa-\n".toList ∧
    printed (apDoc [apPage 1 (apRow 1 10 10 "aa-".toList), apTwo 2]) = some "aaab\n\ncd\n".toList := by
  constructor <;> decide +kernel

/-- Limits of C83: further pages may change the statistics, and with them the paragraphs of the pages before: one paragraph becomes two. -/
theorem c83_statistics_refuted : printed (apDoc [apPage 1 (apRow 1 10 10 "aa".toList ++ apRow 1 10 30 "bb".toList)]) = some "aa bb\n".toList ∧
    printed (apDoc [apPage 1 (apRow 1 10 10 "aa".toList ++ apRow 1 10 30 "bb".toList), apPage 2 (apRow 2 10 10 "cc".toList ++ apRow 2 10 22 "cc".toList ++ apRow 2 10 34 "cc".toList)]) =
      some "aa\n\nbb\n\ncc cc cc\n".toList := by
  constructor <;> decide +kernel

/-- Pages in front do change the pages behind them: a raised `1` on the first page makes the line with a raised `1` at its beginning on the second page a footnote. -/
theorem c83_pages_in_front_refuted : printed (apDoc [apPage 1 (apRow 1 10 10 "cccc".toList ++ [apSup 1 10 22 '1'] ++ apRow 1 15 22 "dd".toList)]) = some "cccc 1dd\n".toList ∧
    printed (apDoc [apPage 1 (apRow 1 10 10 "aaaa".toList ++ apRow 1 10 22 "bbbb".toList), apPage 2 (apRow 2 10 10 "cccc".toList ++ [apSup 2 10 22 '1'] ++ apRow 2 15 22 "dd".toList)]) =
      some "aaaa bbbb\n\ncccc 1dd\n".toList ∧
    printed (apDoc [apPage 1 (apRow 1 10 10 "aaaa".toList ++ [apSup 1 30 10 '1'] ++ apRow 1 10 22 "bbbb".toList),
      apPage 2 (apRow 2 10 10 "cccc".toList ++ [apSup 2 10 22 '1'] ++ apRow 2 15 22 "dd".toList)]) = some "aaaa1 bbbb\n\ncccc\n\n1dd\n".toList := by
  refine ⟨?_, ?_, ?_⟩ <;> decide +kernel

end Verif.Props

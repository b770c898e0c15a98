import Verif.Props.Append
import Verif.Props.Prediction
import Verif.Spec.BlankPages

/-!
# C94: pages without text at the end change nothing
-/

namespace Verif.Props

open Verif.Math Verif.Elements Verif.Spec Verif.Words Verif.TextLines Verif.Pipeline Verif.Counter
open Verif.ReadingOrder (RElem Role)
open Verif.Cli (Stage StageConfig Env Config)

section
variable {lib : Pipeline.Lib} {cfg : Config}

/-- Loops over pages or segments: the ones without content at the end do not matter. -/
theorem bk_foldl {α β : Type} (f : β → List α → β) (hf : ∀ k, f k [] = k) (as : List (List α)) : ∀ (bs : List (List α)) (k : β), (∀ b ∈ bs, b = []) →
    (as ++ bs).foldl f k = as.foldl f k := by
  intro bs k hb
  rw [List.foldl_append]
  generalize as.foldl f k = k'
  induction bs generalizing k' with
  | nil => rfl
  | cons b bs ih =>
    rw [List.foldl_cons, hb b (by simp), hf]
    exact ih (fun c hc => hb c (by simp [hc])) k'

theorem bk_glyphStatistics (h : HashOrder) (s : Statistics.Stats) (as bs : List (List Glyph)) (hb : ∀ b ∈ bs, b = []) :
    Statistics.glyphStatistics h s (as ++ bs) = Statistics.glyphStatistics h s as := by
  unfold Statistics.glyphStatistics
  rw [bk_foldl (fun s page => page.foldl Statistics.glyphStep s) (fun _ => rfl) as bs {} hb]

theorem bk_wordStatistics (h : HashOrder) (s : Statistics.Stats) (as bs : List (List Word)) (hb : ∀ b ∈ bs, b = []) :
    Statistics.wordStatistics h s (as ++ bs) = Statistics.wordStatistics h s as := by
  unfold Statistics.wordStatistics
  rw [bk_foldl (fun k page => Statistics.wordLoop s.mostFreqFontSize none page k) (fun _ => rfl) as bs {} hb]

theorem bk_lineStatistics (h : LineLib) (s : Statistics.Stats) (as bs : List (List Statistics.BasedLine)) (hb : ∀ b ∈ bs, b = []) :
    Statistics.lineStatistics h s (as ++ bs) = Statistics.lineStatistics h s as := by
  unfold Statistics.lineStatistics
  rw [bk_foldl (fun k seg => Statistics.lineLoop seg k) (fun _ => rfl) as bs {} hb]

/-- A page without characters has no words. -/
theorem bk_words {n : ℕ} {R : Ran} {ls : List TextLine} {p0 p : Page} (h : PageInv lib n R ls p0 p) (hc : p0.characters = []) : p.words = [] := by
  have h1 := h.chars
  have hcs : p.characters = [] := by
    by_cases hm : R.marks = true
    · rw [if_pos hm, hc] at h1
      exact (Outcome.ok.inj h1).symm
    · rw [if_neg hm] at h1; rw [h1, hc]
  have h2 := h.words
  by_cases hw : R.words = true
  · rw [if_pos hw] at h2
    obtain ⟨ws, a, e1, e2⟩ := h2
    rw [hcs] at e1
    have : ws = [] := by
      have := Outcome.ok.inj e1
      exact (congrArg Prod.fst this).symm
    rw [e2, this]; rfl
  · rw [if_neg hw] at h2; exact h2

/-- A page without characters has no text lines. -/
theorem bk_lines {n : ℕ} {R : Ran} {d0 d : Document} {p0 p : Page} (hi : DocInv lib n R d0 d) (hpm : p ∈ d.pages) (h : PageInv lib n R d.lines p0 p) (hc : p0.characters = []) :
    ∀ s ∈ p.segments, s.lines = [] := by
  have hw := bk_words h hc
  have h1 := h.lines
  by_cases hl : R.lines = true
  · rw [if_pos hl, hw] at h1
    have h2 := h1 ⟨fun _ => none, fun _ => false⟩ 0
    have h3 : sWordsAt ⟨fun _ => none, fun _ => false⟩ 0 d.lines (p.segments.flatMap (·.lines)) = [] := by
      apply List.Perm.eq_nil
      by_cases hs : R.segments = true
      · rw [if_pos hs] at h2; exact h2
      · rw [if_neg hs] at h2; exact h2
    intro s hs
    by_contra hne
    obtain ⟨i, hi'⟩ := List.exists_mem_of_ne_nil _ hne
    have hmem : i ∈ p.segments.flatMap (·.lines) := List.mem_flatMap.mpr ⟨s, hs, hi'⟩
    have hlt : i < d.lines.length := by
      have : i ∈ List.range d.lines.length := by rw [← hi.ranks]; exact List.mem_flatMap.mpr ⟨p, hpm, hmem⟩
      exact List.mem_range.mp this
    unfold sWordsAt at h3
    rw [List.map_eq_nil_iff, List.flatMap_eq_nil_iff] at h3
    have h4 := h3 i hmem
    unfold wordsAt at h4
    rw [List.getElem?_eq_getElem hlt] at h4
    exact (hi.good _ (List.getElem_mem hlt)).nonempty h4
  · rw [if_neg hl] at h1; exact h1

theorem bk_blocks {n : ℕ} {R : Ran} {d0 d : Document} {p0 p : Page} (hi : DocInv lib n R d0 d) (hpm : p ∈ d.pages) (h : PageInv lib n R d.lines p0 p) (hc : p0.characters = []) :
    p.blocks = [] := by
  have hl := bk_lines hi hpm h hc
  have h1 := h.blocks
  by_cases hb : R.blocks = true
  · rw [if_pos hb] at h1
    have hz : p.segments.flatMap (·.lines) = [] := List.flatMap_eq_nil_iff.mpr hl
    rw [hz] at h1
    have hz2 := h1.1.eq_nil
    by_contra hne
    obtain ⟨b, hbm⟩ := List.exists_mem_of_ne_nil _ hne
    exact (h1.2 b hbm).2.1 (List.flatMap_eq_nil_iff.mp hz2 b hbm)
  · rw [if_neg hb] at h1; exact h1

theorem bk_forall₂ {α β : Type} {R : α → β → Prop} : ∀ {as as' : List α} {bs bs' : List β}, as.length = bs.length → List.Forall₂ R (as ++ as') (bs ++ bs') → List.Forall₂ R as' bs'
  | [], _, [], _, _, h => h
  | _ :: _, _, _ :: _, _, hl, h => by
    rw [List.cons_append, List.cons_append] at h
    cases h with
    | cons _ ht => exact bk_forall₂ (by simpa using hl) ht

/-- The further pages of a stage come from further pages without characters. -/
theorem bk_more {n : ℕ} {R R' : Ran} {d0 d0' d d' : Document} {ps qs : List Page} (hi : DocInv lib n R d0 d) (hi' : DocInv lib n R' d0' d') (hp : d0'.pages = d0.pages ++ ps)
    (hq : d'.pages = d.pages ++ qs) (hb : ∀ p ∈ ps, p.characters = []) : ∀ q ∈ qs, ∃ p0, p0.characters = [] ∧ PageInv lib n R' d'.lines p0 q := by
  have h := hi'.pages
  rw [hp, hq] at h
  have hlen := hi.pages.length_eq
  have h2 := bk_forall₂ hlen h
  intro q hm
  obtain ⟨p0, h3, h4⟩ := pl_forall₂_right h2 q hm
  exact ⟨p0, hb p0 h3, h4⟩

/-- The statistics are the same. -/
theorem bk_stats {n : ℕ} (hn : n ≤ 3) (hl : LibOk lib) {d0 d0' x x' : Document} {e e' : ℕ → Document} (hp : ParsedDoc n d0) (hp' : ParsedDoc n d0')
    (h : TraceOf lib cfg d0 x e) (h' : TraceOf lib cfg d0' x' e') (hb : WithBlankPages d0 d0') :
    (e' 4).stats = (e 4).stats ∧ (e' 8).stats = (e 8).stats ∧ (e' 8).lines = (e 8).lines := by
  have hi := tr_inv hn hl hp h
  have hi' := tr_inv hn hl hp' h'
  obtain ⟨ps, hpp, hblank, hst⟩ := hb
  have hpre : d0.pages <+: d0'.pages := ⟨ps, hpp.symm⟩
  obtain ⟨f0, f1, f2, f3⟩ := ap_front3 hp hp' h h' hpre
  have h1 : (e' 1).stats = (e 1).stats := by
    refine ap_did (Q := fun m m' => m'.stats = m.stats) (by decide) h.glyphStatistics h'.glyphStatistics (by rw [h.start, h'.start, hst]) fun _ m m' a b => ?_
    have a1 : glyphStage lib (e 0) = .ok m := a
    have b1 : glyphStage lib (e' 0) = .ok m' := b
    unfold glyphStage at a1 b1
    rw [h.start] at a1
    rw [h'.start, hpp, List.map_append, bk_glyphStatistics _ _ _ _ (by
      intro c hc
      obtain ⟨p, hpm, rfl⟩ := List.mem_map.mp hc
      exact hblank p hpm), hst] at b1
    cases hs : Statistics.glyphStatistics lib.lines.hash d0.stats (d0.pages.map (·.characters)) with
    | throw m => rw [hs] at a1; cases a1
    | ub m => rw [hs] at a1; cases a1
    | ok r =>
      rw [hs] at a1 b1
      rw [← Outcome.ok.inj a1, ← Outcome.ok.inj b1]
  have h2 : (e' 2).stats = (e 2).stats :=
    ap_did (Q := fun m m' => m'.stats = m.stats) (by decide) h.diacritics h'.diacritics h1 fun _ m m' a b => by rw [(ap_pages a).2.2, (ap_pages b).2.2, h1]
  have h3 : (e' 3).stats = (e 3).stats :=
    ap_did (Q := fun m m' => m'.stats = m.stats) (by decide) h.words h'.words h2 fun _ m m' a b => by rw [(ap_pages a).2.2, (ap_pages b).2.2, h2]
  have h4 : (e' 4).stats = (e 4).stats := by
    refine ap_did (Q := fun m m' => m'.stats = m.stats) (by decide) h.wordStatistics h'.wordStatistics h3 fun _ m m' a b => ?_
    obtain ⟨qs, hq⟩ := f3.pages
    have hm := bk_more hi.i3 hi'.i3 hpp hq hblank
    have a1 : wordStatsStage lib (e 3) = .ok m := a
    have b1 : wordStatsStage lib (e' 3) = .ok m' := b
    unfold wordStatsStage at a1 b1
    rw [hq, List.map_append, bk_wordStatistics _ _ _ _ (by
      intro c hc
      obtain ⟨q, hqm, rfl⟩ := List.mem_map.mp hc
      obtain ⟨p0, g1, g2⟩ := hm q hqm
      exact bk_words g2 g1), h3] at b1
    cases hs : Statistics.wordStatistics lib.lines.hash (e 3).stats ((e 3).pages.map (·.words)) with
    | throw m => rw [hs] at a1; cases a1
    | ub m => rw [hs] at a1; cases a1
    | ok r =>
      rw [hs] at a1 b1
      rw [← Outcome.ok.inj a1, ← Outcome.ok.inj b1]
  have f7 := ap_front7 hp hp' h h' hpre ⟨by rw [h4], by rw [h4], by rw [h4], by rw [h4]⟩
  obtain ⟨_, _, s7, _⟩ := ap_early h
  obtain ⟨_, _, s7', _⟩ := ap_early h'
  have h7 : (e' 7).stats = (e 7).stats := by rw [s7, s7', h4]
  obtain ⟨qs, hq⟩ := f7.pages
  have hm := bk_more hi.i7 hi'.i7 hpp hq hblank
  have hno : ∀ q ∈ qs, ∀ s ∈ q.segments, s.lines = [] := by
    intro q hqm
    obtain ⟨p0, g1, g2⟩ := hm q hqm
    exact bk_lines hi'.i7 (by rw [hq]; exact List.mem_append_right _ hqm) g2 g1
  have hlines : (e' 7).lines = (e 7).lines := by
    obtain ⟨ls, hls⟩ := f7.lines
    have r := hi.i7.ranks
    have r' := hi'.i7.ranks
    have hz : (qs.flatMap fun p => p.segments.flatMap (·.lines)) = [] := List.flatMap_eq_nil_iff.mpr fun q hqm => List.flatMap_eq_nil_iff.mpr (hno q hqm)
    rw [hq, List.flatMap_append, hz, List.append_nil, r] at r'
    have hlen := congrArg List.length r'
    rw [List.length_range, List.length_range, hls, List.length_append] at hlen
    have : ls = [] := List.length_eq_zero_iff.mp (by omega)
    rw [hls, this, List.append_nil]
  refine ⟨h4, ?_⟩
  refine ap_did (Q := fun m m' => m'.stats = m.stats ∧ m'.lines = m.lines) (by decide) h.lineStatistics h'.lineStatistics ⟨h7, hlines⟩ fun _ m m' a b => ?_
  obtain ⟨_, _, k1, _⟩ := ap_lineStats a
  obtain ⟨_, _, k1', _⟩ := ap_lineStats b
  refine ⟨?_, by rw [k1, k1', hlines]⟩
  have a1 : lineStatsStage lib (e 7) = .ok m := a
  have b1 : lineStatsStage lib (e' 7) = .ok m' := b
  unfold lineStatsStage at a1 b1
  have hbl : basedLines (e' 7) = basedLines (e 7) := by
    funext s; unfold basedLines; rw [hlines]
  rw [hq, List.flatMap_append, hbl, bk_lineStatistics _ _ _ _ (by
    intro c hc
    obtain ⟨q, hqm, hc⟩ := List.mem_flatMap.mp hc
    obtain ⟨s, hs, rfl⟩ := List.mem_map.mp hc
    unfold basedLines
    rw [hno q hqm s hs]; rfl), h7] at b1
  cases hs : Statistics.lineStatistics lib.lines (e 7).stats ((e 7).pages.flatMap fun p => p.segments.map (basedLines (e 7))) with
  | throw m => rw [hs] at a1; cases a1
  | ub m => rw [hs] at a1; cases a1
  | ok r =>
    rw [hs] at a1 b1
    rw [← Outcome.ok.inj a1, ← Outcome.ok.inj b1]

/-- The premises of C94: both runs end well; the fonts that occur are the same, and the network predicts the same roles. -/
structure BlankRuns (lib : Pipeline.Lib) (n : ℕ) (cfg : Config) (d0 d0' d d' : Document) : Prop where
  precision : n ≤ 3
  sorts : LibOk lib
  parsed : ParsedDoc n d0
  parsed' : ParsedDoc n d0'
  blank : WithBlankPages d0 d0'
  numbered : PagesNumbered d0
  run : RunOf lib cfg d0 d
  run' : RunOf lib cfg d0' d'
  fonts : ∀ f, (f = [] ∨ f = d.stats.mostFreqFontName ∨ ∃ l ∈ d.lines, l.line.fontName = f) → d0'.fontInfos f = d0.fontInfos f
  roles : Enabled cfg .readingOrder → ∀ x x' rs rs', BeforeOrder lib cfg d0 x → BeforeOrder lib cfg d0' x' →
    predictRoles lib x = .ok rs → predictRoles lib x' = .ok rs' → rs <+: rs'

theorem bk_flags {n : ℕ} {d0 d0' x x' : Document} {e e' : ℕ → Document} (hp : ParsedDoc n d0) (hp' : ParsedDoc n d0') (hi : TraceInv lib n cfg d0 e) (hi' : TraceInv lib n cfg d0' e')
    (h : TraceOf lib cfg d0 x e) (h' : TraceOf lib cfg d0' x' e') {qs : List Page} (hq : (e' 10).pages = (e 10).pages ++ qs) (hl : (e' 10).lines = (e 10).lines)
    (hb : ∀ q ∈ qs, q.blocks = []) : (e' 11).hyphens = (e 11).hyphens := by
  have hy : (e' 10).hyphens = (e 10).hyphens := by rw [hi.i10.hyphens, hp.hyphens, hi'.i10.hyphens, hp'.hyphens]
  refine ap_did (Q := fun m m' => m'.hyphens = m.hyphens) (by decide) h.dehyphenation h'.dehyphenation hy fun _ m m' a b => ?_
  have a' : m = _ := (Outcome.ok.inj a).symm
  have b' : m' = _ := (Outcome.ok.inj b).symm
  have hall : Dehyphenation.allLines (toSDoc (e' 10)) = Dehyphenation.allLines (toSDoc (e 10)) := by
    unfold Dehyphenation.allLines toSDoc
    have hpg : ∀ k p, toSPage (e' 10) k p = toSPage (e 10) k p := by
      intro k p
      unfold toSPage toSBlock
      rw [hl, hy]
    have hf : toSPage (e' 10) = toSPage (e 10) := by funext k p; exact hpg k p
    simp only
    rw [hq, List.mapIdx_append, List.flatMap_append, hf]
    have hz : ((qs.mapIdx fun i => toSPage (e 10) (i + (e 10).pages.length)).flatMap fun p => p.blocks.flatMap (·.lines)) = [] := by
      rw [List.flatMap_eq_nil_iff]
      intro p hpm
      obtain ⟨k, hk, rfl⟩ := List.mem_mapIdx.mp hpm
      unfold toSPage
      rw [hb _ (List.getElem_mem hk)]; rfl
    rw [hz, List.append_nil]
  rw [a', b']
  simp only
  rw [hall, hy]

/-- C94 (result): pages without characters at the end of a document add pages without words, text lines and paragraphs, and change nothing else: not the statistics, not
the lines and paragraphs of the pages before, not their roles and order, not the hyphenated words. -/
theorem c94_result {n : ℕ} {d0 d0' d d' : Document} (h : BlankRuns lib n cfg d0 d0' d d') : OnlyBlankPagesMore d d' := by
  obtain ⟨parse, dur, a, ts, ts', h1, h2⟩ := h.run
  obtain ⟨parse', dur', a', us, us', h1', h2'⟩ := h.run'
  obtain ⟨e, he⟩ := tr_trace h1 h2
  obtain ⟨e', he'⟩ := tr_trace h1' h2'
  have hi := tr_inv h.precision h.sorts h.parsed he
  have hi' := tr_inv h.precision h.sorts h.parsed' he'
  obtain ⟨_, t1, t2⟩ := bk_stats h.precision h.sorts h.parsed h.parsed' he he' h.blank
  obtain ⟨⟨l1, l2⟩, _, l3, l4, l5, _⟩ := ap_late he
  obtain ⟨⟨l1', l2'⟩, _, l3', l4', l5', _⟩ := ap_late he'
  have hst : d'.stats = d.stats := by rw [l1, l1', t1]
  have hpre : d0.pages <+: d0'.pages := by
    obtain ⟨ps, hpp, _⟩ := h.blank
    exact ⟨ps, hpp.symm⟩
  have hF := ap_front h.precision h.sorts h.parsed h.parsed' he he' hpre h.numbered
    ⟨by rw [hst], by rw [hst], by rw [hst], by rw [hst], by rw [hst], by rw [hst], by rw [hst], fun l _ => by rw [hst]⟩ h.fonts h.roles
  obtain ⟨ps, hpp, hblank, _⟩ := h.blank
  obtain ⟨qs, hq⟩ := hF.pages
  have hm := bk_more hi.i10 hi'.i10 hpp hq hblank
  have hlines : (e' 10).lines = (e 10).lines := by rw [l5, l5', t2]
  have hbl : ∀ q ∈ qs, q.blocks = [] := by
    intro q hqm
    obtain ⟨p0, g1, g2⟩ := hm q hqm
    exact bk_blocks hi'.i10 (by rw [hq]; exact List.mem_append_right _ hqm) g2 g1
  refine ⟨⟨qs.map fun p => { p with textLines := p.blocks.flatMap (·.block.lines) }, ?_, ?_⟩, by rw [l2, l2', t2], hst, ?_⟩
  · rw [he.result, he'.result]
    unfold linesFromBlocks
    simp only
    rw [l3, l3', hq, List.map_append]
  · intro p hpm
    obtain ⟨q, hqm, rfl⟩ := List.mem_map.mp hpm
    obtain ⟨p0, g1, g2⟩ := hm q hqm
    have hw : q.words = [] := bk_words g2 g1
    refine ⟨hw, ?_, hbl q hqm⟩
    simp only
    rw [hbl q hqm]; rfl
  · rw [he.result, he'.result]
    exact bk_flags h.parsed h.parsed' hi hi' he he' hq hlines hbl

/-- The further pages as the serializers see them. -/
theorem bk_shown {d d' : Document} (h : OnlyBlankPagesMore d d') : ∃ qs : List Serialize.SPage, (toSDoc d').pages = (toSDoc d).pages ++ qs ∧ (∀ q ∈ qs, q.blocks = []) ∧
    qs.length = d'.pages.length - d.pages.length := by
  obtain ⟨ps, hq, hb⟩ := h.pages
  have hf : toSPage d' = toSPage d := by
    funext k p
    unfold toSPage toSBlock
    rw [h.lines, h.hyphens]
  refine ⟨ps.mapIdx fun i => toSPage d (i + d.pages.length), ?_, ?_, by rw [hq]; simp⟩
  · show d'.pages.mapIdx (toSPage d') = d.pages.mapIdx (toSPage d) ++ _
    rw [hq, hf, List.mapIdx_append]
  · intro p hpm
    obtain ⟨k, hk, rfl⟩ := List.mem_mapIdx.mp hpm
    unfold toSPage
    rw [(hb _ (List.getElem_mem hk)).2.2]; rfl

/-- The runs keep the pages and fonts. -/
theorem bk_kept {n : ℕ} (hn : n ≤ 3) (hl : LibOk lib) {d0 d : Document} (hp : ParsedDoc n d0) (h : RunOf lib cfg d0 d) : d.pages.length = d0.pages.length ∧ d.fontInfos = d0.fontInfos := by
  obtain ⟨parse, dur, a, ts, ts', h1, h2⟩ := h
  obtain ⟨e, he⟩ := tr_trace h1 h2
  have hi := tr_inv hn hl hp he
  obtain ⟨_, _, l3, _⟩ := ap_late he
  have hf : (e 11).fontInfos = (e 10).fontInfos := ap_did1 (Q := fun x => x.fontInfos = (e 10).fontInfos) he.dehyphenation rfl fun m hm => by
    have : m = _ := (Outcome.ok.inj hm).symm
    rw [if_neg (by decide), this]
  rw [he.result]
  refine ⟨?_, ?_⟩
  · unfold linesFromBlocks
    simp only
    rw [l3, List.length_map, hi.i10.pages.length_eq]
  · show (e 11).fontInfos = d0.fontInfos
    rw [hf, hi.i10.fonts]

theorem bk_writePages (roles : List Role) (head : Serialize.SBlock → Text.Str) (qs : List Serialize.SPage) (hq : ∀ q ∈ qs, q.blocks = []) (foot : Text.Str) (ps : List Serialize.SPage) : ∀ prev,
    Serialize.writePages roles head foot prev (ps ++ qs) = Serialize.writePages roles head foot prev ps ++ (qs.map fun _ => foot).flatten := by
  induction ps with
  | nil =>
    induction qs with
    | nil => intro prev; simp [Serialize.writePages]
    | cons q qs ih =>
      intro prev
      have := ih (fun q' hq' => hq q' (by simp [hq'])) prev
      simp only [List.nil_append, Serialize.writePages, hq q (by simp), Serialize.writeBlocks, List.map_cons, List.flatten_cons] at this ⊢
      rw [this]
  | cons p ps ih =>
    intro prev
    simp only [List.cons_append, Serialize.writePages, ih, List.append_assoc]

/-- C94 (text): the plain text is the same, for every selection of roles; the plain text with control characters has one more page break (a line break and a form feed) for each further page. -/
theorem c94_text {n : ℕ} {d0 d0' d d' : Document} (h : BlankRuns lib n cfg d0 d0' d d') (roles : List Role) :
    Serialize.plainText roles (toSDoc d') = Serialize.plainText roles (toSDoc d) ∧
    ∃ text, Serialize.plainTextExtended roles (toSDoc d) = text ++ ['\n'] ∧
      Serialize.plainTextExtended roles (toSDoc d') = text ++ (List.replicate (d0'.pages.length - d0.pages.length) ['\n', Char.ofNat 12]).flatten ++ ['\n'] := by
  obtain ⟨qs, h1, h2, h3⟩ := bk_shown (c94_result h)
  have hlen : qs.length = d0'.pages.length - d0.pages.length := by
    rw [h3, (bk_kept h.precision h.sorts h.parsed h.run).1, (bk_kept h.precision h.sorts h.parsed' h.run').1]
  unfold Serialize.plainText Serialize.plainTextExtended
  rw [h1]
  refine ⟨?_, _, rfl, ?_⟩
  · rw [bk_writePages _ _ _ h2]
    simp
  · rw [bk_writePages _ _ _ h2, ← hlen, List.map_const']

/-- C94 (JSONL): if the fonts of the documents are the same, the records of words, characters and paragraphs are the same. -/
theorem c94_records {n : ℕ} {d0 d0' d d' : Document} (h : BlankRuns lib n cfg d0 d0' d d') (hf : d0'.fontInfos = d0.fontInfos) (P : Serialize.Printer) (roles : List Role)
    (units : List Serialize.Unit') (hu : ∀ u ∈ units, u ≠ .pages ∧ u ≠ .figures ∧ u ≠ .shapes) :
    Serialize.jsonl P roles (toSDoc d') units = Serialize.jsonl P roles (toSDoc d) units := by
  obtain ⟨qs, h1, h2, _⟩ := bk_shown (c94_result h)
  have hfi : (toSDoc d').fontInfos = (toSDoc d).fontInfos := by
    unfold toSDoc
    rw [(bk_kept h.precision h.sorts h.parsed h.run).2, (bk_kept h.precision h.sorts h.parsed' h.run').2, hf]
  generalize toSDoc d = a at h1 hfi ⊢
  generalize toSDoc d' = b at h1 hfi ⊢
  have hsel : Serialize.selectedBlocks roles b = Serialize.selectedBlocks roles a := by
    unfold Serialize.selectedBlocks
    rw [h1, List.flatMap_append]
    have : (qs.flatMap fun p => p.blocks.filter (Serialize.selected roles)) = [] := by
      rw [List.flatMap_eq_nil_iff]
      intro q hq
      rw [h2 q hq]; rfl
    rw [this, List.append_nil]
  have hc : ∀ blk w cs, Serialize.serializeChars P b blk w cs = Serialize.serializeChars P a blk w cs := by
    intro blk w cs
    induction cs with
    | nil => rfl
    | cons c cs ih => unfold Serialize.serializeChars; rw [ih, hfi]
  have hw : ∀ blk ws, Serialize.serializeWordChars P b blk ws = Serialize.serializeWordChars P a blk ws := by
    intro blk ws
    induction ws with
    | nil => rfl
    | cons w ws ih => unfold Serialize.serializeWordChars; rw [ih, hc]
  have hb : ∀ bs, Serialize.serializeBlockChars P b bs = Serialize.serializeBlockChars P a bs := by
    intro bs
    induction bs with
    | nil => rfl
    | cons w ws ih => unfold Serialize.serializeBlockChars; rw [ih, hw]
  induction units with
  | nil => rfl
  | cons u us ih =>
    have h0 := hu u (by simp)
    have : Serialize.serializeUnit P roles b u = Serialize.serializeUnit P roles a u := by
      cases u with
      | pages => exact absurd rfl h0.1
      | figures => exact absurd rfl h0.2.1
      | shapes => exact absurd rfl h0.2.2
      | textLines => rfl
      | textBlocks => simp only [Serialize.serializeUnit, Serialize.serializeTextBlocks, hsel]
      | words => simp only [Serialize.serializeUnit, Serialize.serializeWords, hsel]
      | characters => simp only [Serialize.serializeUnit, Serialize.serializeCharacters, hsel, hb]
    unfold Serialize.jsonl
    rw [this, ih fun u hu' => hu u (by simp [hu'])]

end

/-! ## Example and limits -/

/-- A page with a figure and a shape and no characters. -/
def bkPage (k : ℤ) : Pipeline.Page :=
  { pageNum := k, width := 200, height := 200, characters := [], figures := [{ pageNum := k, leftX := 10, upperY := 10, rightX := 50, lowerY := 50 }] }

/-- The first document: its last word ends with a hyphen. -/
def bkDoc : Document := apDoc [apPage 1 (apRow 1 10 10 "ab".toList ++ apRow 1 10 22 "cd-".toList)]

/-- With two pages without text. -/
def bkDoc' : Document := apDoc [apPage 1 (apRow 1 10 10 "ab".toList ++ apRow 1 10 22 "cd-".toList), bkPage 2, bkPage 3]


theorem bkDoc_parsed : ParsedDoc 1 bkDoc ∧ ParsedDoc 1 bkDoc' ∧ PagesNumbered bkDoc := by
  have hg : ∀ c ∈ (apPage 1 (apRow 1 10 10 "ab".toList ++ apRow 1 10 22 "cd-".toList)).characters, GoodGlyph 1 c ∧ c.pos.pageNum = 1 := by
    intro c hc
    have e : (apPage 1 (apRow 1 10 10 "ab".toList ++ apRow 1 10 22 "cd-".toList)).characters = [apGlyph 1 (10 : ℤ) (10 : ℤ) 'a', apGlyph 1 (15 : ℤ) (10 : ℤ) 'b',
        apGlyph 1 (10 : ℤ) (22 : ℤ) 'c', apGlyph 1 (15 : ℤ) (22 : ℤ) 'd', apGlyph 1 (20 : ℤ) (22 : ℤ) '-'] := by
      simp [apPage, apRow]; norm_num
    rw [e] at hc
    simp only [List.mem_cons, List.not_mem_nil, or_false] at hc
    rcases hc with rfl | rfl | rfl | rfl | rfl <;> exact ⟨ap_glyph_good _ _ _ _ (by norm_num) (by norm_num), rfl⟩
  have hbox : ∀ k : ℤ, ∀ b ∈ (bkPage k).figures ++ (bkPage k).graphics ++ (bkPage k).shapes, RoundedBox 1 b := by
    intro k b hb
    simp only [bkPage, List.append_nil, List.mem_singleton] at hb
    subst hb
    refine ⟨⟨10, ?_⟩, ⟨10, ?_⟩, ⟨50, ?_⟩, ⟨50, ?_⟩⟩ <;> simp only <;> decide +kernel
  refine ⟨⟨?_, ?_, ?_, ?_, ?_, rfl, rfl⟩, ⟨?_, ?_, ?_, ?_, ?_, rfl, rfl⟩, ?_⟩
  all_goals first
    | (intro k p hk
       cases k with
       | zero => cases hk; exact ⟨rfl, fun c hc => (hg c hc).2⟩
       | succ k => cases hk)
    | skip
  all_goals
    intro p hp
    simp only [bkDoc, bkDoc', apDoc, List.mem_cons, List.not_mem_nil, or_false] at hp
  · subst hp; exact fun c hc => (hg c hc).1
  · subst hp; intro b hb; simp [apPage] at hb
  · subst hp; rfl
  · subst hp; rfl
  · subst hp; rfl
  · rcases hp with rfl | rfl | rfl
    · exact fun c hc => (hg c hc).1
    · intro c hc; cases hc
    · intro c hc; cases hc
  · rcases hp with rfl | rfl | rfl
    · intro b hb; simp [apPage] at hb
    · exact hbox 2
    · exact hbox 3
  all_goals rcases hp with rfl | rfl | rfl <;> rfl

/-- The premises are met: a page whose last word ends with a hyphen, and the same document with two pages that have a figure and no text. -/
theorem c94_premises : ∃ d d', BlankRuns refPipeline 1 plConfig bkDoc bkDoc' d d' ∧ bkDoc'.fontInfos = bkDoc.fontInfos := by
  obtain ⟨hp, hp', hN⟩ := bkDoc_parsed
  have key : (match apRun bkDoc, apRun bkDoc' with
      | .ok (c, _), .ok (c', _) => decide (c = 0 ∧ c' = 0)
      | _, _ => false) = true := by decide +kernel
  have hroles : (match runAll (stagesBeforeOrder.flatMap (stageSteps (env refPipeline none (fun _ _ x => .ok x) fun _ => 0) plConfig)) bkDoc,
      runAll (stagesBeforeOrder.flatMap (stageSteps (env refPipeline none (fun _ _ x => .ok x) fun _ => 0) plConfig)) bkDoc' with
      | .ok d, .ok d' => match predictRoles refPipeline d, predictRoles refPipeline d' with
        | .ok a, .ok b => a.isPrefixOf b
        | _, _ => false
      | _, _ => true) = true := by decide +kernel
  cases h1 : apRun bkDoc with
  | throw m => rw [h1] at key; cases key
  | ub m => rw [h1] at key; simp at key
  | ok a =>
    cases h2 : apRun bkDoc' with
    | throw m => rw [h1, h2] at key; cases key
    | ub m => rw [h1, h2] at key; simp at key
    | ok b =>
      obtain ⟨c, r⟩ := a
      obtain ⟨c', r'⟩ := b
      rw [h1, h2] at key
      obtain ⟨rfl, rfl⟩ := of_decide_eq_true key
      refine ⟨r.doc, r'.doc, ⟨by decide, refPipeline_ok, hp, hp', ⟨[bkPage 2, bkPage 3], rfl, ?_, rfl⟩, hN, ⟨_, _, _, _, _, rfl, h1⟩, ⟨_, _, _, _, _, rfl, h2⟩, fun _ _ => rfl, ?_⟩, rfl⟩
      · intro p hp
        simp only [List.mem_cons, List.not_mem_nil, or_false] at hp
        rcases hp with rfl | rfl <;> rfl
      · intro _ x x' rs rs' hx hx' q q'
        unfold BeforeOrder at hx hx'
        rw [hx, hx'] at hroles
        simp only at hroles
        rw [q, q'] at hroles
        exact List.isPrefixOf_iff_prefix.mp hroles

example : printed bkDoc = some "ab cd-\n".toList ∧ printed bkDoc' = some "ab cd-\n".toList := by
  constructor <;> decide +kernel

/-- A network that predicts a paragraph for a block with the value 1 in the first column (the last page of the document), and a title for any other. -/
def bkNet : ℕ × List ℚ → List Roles.FPage → Outcome (ℕ × List (Option ℚ)) := fun t _ =>
  .ok (14, (List.range t.1).flatMap fun i => (List.range 14).map fun j => some (if j = (if t.2[15 * i]? = some 1 then 0 else 6) then 1 else 0))

/-- The roles and texts of the blocks with this network. -/
def bkShown (d : Document) : Option (List (Role × Text.Str)) :=
  match Cli.process (env (withNetwork refPipeline bkNet) none (fun _ _ _ => .ok d) (fun _ => 0)) plConfig ⟨{}, none⟩ with
  | .ok (_, r) => some (((toSDoc r.doc).pages.flatMap (·.blocks)).map fun b => (b.role, printedBlock b))
  | _ => none

/-- The premise on the roles is necessary: the network is given the number of the page in relation to the number of pages, so that a page without text at the end may
change the roles on all pages before it. -/
theorem c94_roles_refuted : bkShown (apDoc [apTwo 1, apTwo 2]) = some [(.title, "ab cd".toList), (.paragraph, "ab cd".toList)] ∧
    bkShown (apDoc [apTwo 1, apTwo 2, bkPage 3]) = some [(.title, "ab cd".toList), (.title, "ab cd".toList)] := by
  constructor <;> decide +kernel

end Verif.Props

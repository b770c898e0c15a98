import Verif.Spec.Ranks
import Verif.Props.Prediction
import Verif.Props.EndToEnd
import Verif.Props.Formats

/-!
# C96: ranks tell the extraction order
-/

namespace Verif.Props

open Verif.Math Verif.Elements Verif.Spec Verif.Words Verif.TextLines Verif.Pipeline Verif.Serialize
open Verif.ReadingOrder (RElem Role)
open Verif.Cli (Stage StageConfig Env Config)

variable {lib : Pipeline.Lib} {n : ℕ} {cfg : Config} {d0 d : Document}

/-! ## Merging marks keeps the ranks -/

theorem rk_attach (compose : List ℕ → Text.Str) (cs : List Glyph) (i b u : ℕ) (cur base : Glyph) (hi : cs[i]? = some cur) (hb : cs[b]? = some base) :
    (Diacritics.attach compose cs i b u cur base).map (·.rank) = cs.map (·.rank) := by
  have hset : ∀ (l : List Glyph) (j : ℕ) (x : Glyph), (l.map (·.rank))[j]? = some x.rank → (l.set j x).map (·.rank) = l.map (·.rank) := by
    intro l j x hx
    rw [List.map_set]
    obtain ⟨hj, hx⟩ := List.getElem?_eq_some_iff.mp hx
    rw [← hx]
    exact List.set_getElem_self hj
  unfold Diacritics.attach
  have h1 := hset cs i { cur with markOf := some base.uid } (by rw [List.getElem?_map, hi]; rfl)
  rw [hset _ b _ (by rw [h1, List.getElem?_map, hb]; rfl), h1]

theorem rk_step (compose : List ℕ → Text.Str) (cs cs' : List Glyph) (i : ℕ) (h : Diacritics.step compose cs i = .ok cs') :
    cs'.map (·.rank) = cs.map (·.rank) := by
  unfold Diacritics.step at h
  split at h
  · cases h; rfl
  next cur hc =>
  simp only at h
  split at h
  · cases h; rfl
  next u hu =>
  have hp : ∀ base, (if i > 0 then cs[i - 1]? else none) = some base → cs[i - 1]? = some base := by
    intro base hb
    by_cases h0 : i > 0
    · rw [if_pos h0] at hb; exact hb
    · rw [if_neg h0] at hb; cases hb
  generalize (if i > 0 then cs[i - 1]? else none) = prev at h hp
  split at h
  · cases h; rfl
  split at h
  · cases prev with
    | some base => cases h; exact rk_attach compose cs i (i - 1) u cur base hc (hp base rfl)
    | none => cases h
  · cases hn : cs[i + 1]? with
    | some base => rw [hn] at h; cases h; exact rk_attach compose cs i (i + 1) u cur base hc hn
    | none => rw [hn] at h; cases h

theorem rk_run (compose : List ℕ → Text.Str) (cs : List Glyph) : ∀ (k : ℕ) (cs' : List Glyph), Diacritics.run compose cs k = .ok cs' →
    cs'.map (·.rank) = cs.map (·.rank) := by
  intro k
  induction k with
  | zero => intro cs' h; cases h; rfl
  | succ k ih =>
    intro cs' h
    rw [Diacritics.run] at h
    cases hr : Diacritics.run compose cs k with
    | ok s => rw [hr] at h; exact (rk_step compose s cs' k h).trans (ih s hr)
    | throw m => rw [hr] at h; cases h
    | ub m => rw [hr] at h; cases h

theorem rk_chars {R : Ran} {ls : List TextLine} {p0 p : Page} (hi : PageInv lib n R ls p0 p) :
    p.characters.map (·.rank) = p0.characters.map (·.rank) := by
  have := hi.chars
  split at this
  · exact rk_run _ _ _ _ this
  · rw [this]

/-! ## The words -/

/-- The words of a page: the word at position `i` has rank `i`; their characters are characters of the page in their order. -/
theorem rk_words {R : Ran} {ls : List TextLine} {p0 p : Page} (hi : PageInv lib n R ls p0 p) :
    (∀ (i : ℕ) (w : Word), p.words[i]? = some w → w.rank = i) ∧
    ((p.words.map (·.chars)).flatten.map (·.rank)).Sublist (p.characters.map (·.rank)) := by
  have hW := hi.words
  split at hW
  · obtain ⟨ws, a, h1, h2⟩ := hW
    obtain ⟨ws', a', q1, q2, q3, q4, q5⟩ := pl_words lib.lines.hash (Active.reset p.pageNum) p.pageNum p.characters hi.glyphs
    rw [h1] at q1
    simp only [Outcome.ok.injEq, Prod.mk.injEq] at q1
    obtain ⟨rfl, rfl⟩ := q1
    have hch : p.words.map (·.chars) = ws.map (·.chars) := by
      apply List.ext_getElem?
      intro i
      obtain ⟨ps, po, g⟩ := pl_merge_get ws q2 i
      rw [List.getElem?_map, List.getElem?_map, h2, g, Option.map_map]
      rfl
    refine ⟨?_, ?_⟩
    · intro i w hw
      obtain ⟨ps, po, g⟩ := pl_merge_get ws q2 i
      rw [h2, g] at hw
      cases hv : ws[i]? with
      | none => rw [hv] at hw; cases hw
      | some v =>
        rw [hv] at hw
        simp only [Option.map_some, Option.some.injEq] at hw
        rw [← hw]
        exact q4 i v hv
    · rw [hch, q3]
      exact List.filter_sublist.map _
  · rw [hW]
    exact ⟨(fun i w hw => (by simp at hw)), (by simp)⟩

/-- The printed words are words of the page. -/
theorem rk_printed {R : Ran} {ls : List TextLine} {p0 p : Page} (hi : PageInv lib n R ls p0 p) (f : Dehyphenation.Flags) (k : ℕ) :
    ∀ w ∈ sWordsAt f k ls (p.blocks.flatMap (·.block.lines)), ∃ x ∈ p.words, w = toSWord f k x := by
  intro w hw
  have hb := hi.blocks
  by_cases hB : R.blocks = true
  swap
  · rw [if_neg hB] at hb; rw [hb] at hw; cases hw
  rw [if_pos hB] at hb
  have hw : w ∈ sWordsAt f k ls (p.segments.flatMap (·.lines)) := ((hb.1.flatMap_right _).map _).subset hw
  have hl := hi.lines
  by_cases hL : R.lines = true
  swap
  · rw [if_neg hL] at hl
    have : p.segments.flatMap (·.lines) = [] := List.flatMap_eq_nil_iff.mpr hl
    rw [this] at hw; cases hw
  rw [if_pos hL] at hl
  have hw := (hl f k).subset hw
  by_cases hS : R.segments = true
  swap
  · rw [if_neg hS] at hw; cases hw
  rw [if_pos hS] at hw
  obtain ⟨x, hx, rfl⟩ := List.mem_map.mp hw
  obtain ⟨y, hy, hxy⟩ := List.mem_flatMap.mp hx
  exact ⟨x, pl_wordGroup_mem hy hxy, rfl⟩

/-- The printed words of a page of the finished document, with the page as it was parsed. -/
theorem rk_page (h : EndedRun lib n cfg d0 d) (k : ℕ) (p : SPage) (hk : (toSDoc d).pages[k]? = some p) :
    ∃ p0 q, d0.pages[k]? = some p0 ∧ d.pages[k]? = some q ∧ q.characters.map (·.rank) = p0.characters.map (·.rank) ∧
      (∀ (i : ℕ) (w : Word), q.words[i]? = some w → w.rank = i) ∧
      ((q.words.map (·.chars)).flatten.map (·.rank)).Sublist (p0.characters.map (·.rank)) ∧
      ∀ w, PrintedOn p w → ∃ x ∈ q.words, w = toSWord d.hyphens k x := by
  obtain ⟨e, he⟩ := h.trace
  have hi := tr_inv h.precision h.sorts h.parsed he
  obtain ⟨_, _, q1, q2, _⟩ := ap_late he
  have hres : d.pages = (e 10).pages.map fun p => { p with textLines := p.blocks.flatMap (·.block.lines) } := by
    rw [he.result]; unfold linesFromBlocks; simp only; rw [q1]
  have hline : d.lines = (e 10).lines := by rw [he.result]; exact q2
  unfold toSDoc at hk
  rw [List.getElem?_mapIdx] at hk
  cases hq : d.pages[k]? with
  | none => rw [hq] at hk; cases hk
  | some q =>
    rw [hq] at hk
    simp only [Option.map_some, Option.some.injEq] at hk
    rw [hres, List.getElem?_map] at hq
    cases hx : (e 10).pages[k]? with
    | none => rw [hx] at hq; cases hq
    | some x =>
      rw [hx] at hq
      simp only [Option.map_some, Option.some.injEq] at hq
      obtain ⟨p0, hp0, hpi⟩ := pl_forall₂_get (List.Forall₂.flip hi.i10.pages) k x hx
      obtain ⟨g1, g2⟩ := rk_words hpi
      have g3 := rk_chars hpi
      subst hq
      refine ⟨p0, _, hp0, rfl, g3, g1, g3 ▸ g2, ?_⟩
      rintro w ⟨b, hb, l, hl, hw⟩
      have : w ∈ pageWords p := by
        unfold pageWords wordsOf
        exact List.mem_flatMap.mpr ⟨l, List.mem_flatMap.mpr ⟨b, hb, hl⟩, hw⟩
      rw [← hk, pl_pageWords, hline] at this
      exact rk_printed hpi d.hyphens k w this

/-- Characters of different words, or of different pages. -/
theorem rk_flatten {l : List (List ℤ)} (h : l.flatten.Pairwise (· < ·)) : (∀ a ∈ l, a.Pairwise (· < ·)) ∧
    ∀ (i j : ℕ) (a b : List ℤ), l[i]? = some a → l[j]? = some b → i < j → ∀ x ∈ a, ∀ y ∈ b, x < y := by
  obtain ⟨h1, h2⟩ := List.pairwise_flatten.mp h
  refine ⟨h1, ?_⟩
  intro i j a b hi hj hij x hx y hy
  obtain ⟨hi', rfl⟩ := List.getElem?_eq_some_iff.mp hi
  obtain ⟨hj', rfl⟩ := List.getElem?_eq_some_iff.mp hj
  exact List.pairwise_iff_getElem.mp h2 i j hi' hj' hij x hx y hy

theorem rk_drawn (h : DrawnInOrder d0) : ((d0.pages.map fun p => p.characters.map (·.rank)).flatten).Pairwise (· < ·) := by
  unfold DrawnInOrder at h
  rw [List.map_flatMap, List.flatMap_def] at h
  exact h

/-- **C96.** If the characters were drawn in the order of their ranks, then sorting the printed words by page and rank lists them in the
order in which they were drawn: all characters of a word on an earlier page, or of smaller rank on the same page, were drawn before
those of the other word, and the characters of a word are in their order; two words of a page that share their rank are the same word. -/
theorem c96_words (h : EndedRun lib n cfg d0 d) (hd : DrawnInOrder d0) : WordsRanked (toSDoc d) := by
  obtain ⟨f1, f2⟩ := rk_flatten (rk_drawn hd)
  have hmem : ∀ {k : ℕ} {p0 : Page}, d0.pages[k]? = some p0 → (p0.characters.map (·.rank)).Pairwise (· < ·) := by
    intro k p0 hk
    exact f1 _ (List.mem_map.mpr ⟨p0, List.mem_of_getElem? hk, rfl⟩)
  have hin : ∀ {q : Page} {x : Word} {r : List ℤ}, x ∈ q.words → ((q.words.map (·.chars)).flatten.map (·.rank)).Sublist r →
      ∀ a ∈ x.chars.map toSChar, a.rank ∈ r := by
    intro q x r hx hs a ha
    obtain ⟨g, hg, rfl⟩ := List.mem_map.mp ha
    exact hs.subset (List.mem_map.mpr ⟨g, List.mem_flatten.mpr ⟨_, List.mem_map.mpr ⟨x, hx, rfl⟩, hg⟩, rfl⟩)
  refine ⟨?_, ?_, ?_⟩
  · intro p hp w hw
    obtain ⟨k, hk⟩ := List.getElem?_of_mem hp
    obtain ⟨p0, q, h0, hq, g1, g2, g3, g4⟩ := rk_page h k p hk
    obtain ⟨x, hx, rfl⟩ := g4 w hw
    obtain ⟨i, hi⟩ := List.getElem?_of_mem hx
    refine ⟨?_, ?_⟩
    · show 0 ≤ x.rank
      rw [g2 i x hi]; exact Int.natCast_nonneg i
    · show ((x.chars.map toSChar).map (·.rank)).Pairwise (· < ·)
      rw [List.map_map]
      have := (hmem h0).sublist g3
      rw [List.map_flatten, List.map_map] at this
      exact (rk_flatten this).1 _ (List.mem_map.mpr ⟨x, hx, rfl⟩)
  · intro i j p q hp hq v w hv hw hij a ha b hb
    obtain ⟨p0, p1, h0, h1, g1, g2, g3, g4⟩ := rk_page h i p hp
    obtain ⟨q0, q1, h0', h1', g1', g2', g3', g4'⟩ := rk_page h j q hq
    obtain ⟨x, hx, rfl⟩ := g4 v hv
    obtain ⟨y, hy, rfl⟩ := g4' w hw
    rcases hij with hij | ⟨rfl, hr⟩
    · refine f2 i j (p0.characters.map (·.rank)) (q0.characters.map (·.rank)) (by rw [List.getElem?_map, h0]; rfl) (by rw [List.getElem?_map, h0']; rfl)
        hij _ (hin hx g3 a ha) _ (hin hy g3' b hb)
    · rw [h1] at h1'
      obtain rfl : p1 = q1 := by simpa using h1'
      obtain ⟨s, hs⟩ := List.getElem?_of_mem hx
      obtain ⟨t, ht⟩ := List.getElem?_of_mem hy
      have hst : s < t := by
        have hr : x.rank < y.rank := hr
        rw [g2 s x hs, g2 t y ht] at hr
        exact Int.ofNat_lt.mp hr
      have := (hmem h0).sublist g3
      rw [List.map_flatten, List.map_map] at this
      obtain ⟨u, hu, rfl⟩ := List.mem_map.mp ha
      obtain ⟨z, hz, rfl⟩ := List.mem_map.mp hb
      exact (rk_flatten this).2 s t (x.chars.map (·.rank)) (y.chars.map (·.rank)) (by rw [List.getElem?_map, hs]; rfl)
        (by rw [List.getElem?_map, ht]; rfl) hst _ (List.mem_map.mpr ⟨u, hu, rfl⟩) _ (List.mem_map.mpr ⟨z, hz, rfl⟩)
  · intro p hp v w hv hw hr
    obtain ⟨k, hk⟩ := List.getElem?_of_mem hp
    obtain ⟨p0, q, h0, hq, g1, g2, g3, g4⟩ := rk_page h k p hk
    obtain ⟨x, hx, rfl⟩ := g4 v hv
    obtain ⟨y, hy, rfl⟩ := g4 w hw
    obtain ⟨s, hs⟩ := List.getElem?_of_mem hx
    obtain ⟨t, ht⟩ := List.getElem?_of_mem hy
    have hr : x.rank = y.rank := hr
    rw [g2 s x hs, g2 t y ht] at hr
    have hst : s = t := Int.ofNat_inj.mp hr
    subst hst
    rw [hs] at ht
    obtain rfl : x = y := by simpa using ht
    rfl

/-- **C96.** No stage changes the ranks of the characters of a page, and every printed character is a character of its page. -/
theorem c96_characters (h : EndedRun lib n cfg d0 d) : d.pages.map (fun p => p.characters.map (·.rank)) = d0.pages.map (fun p => p.characters.map (·.rank)) ∧
    ∀ (k : ℕ) (p0 : Page) (p : SPage), d0.pages[k]? = some p0 → (toSDoc d).pages[k]? = some p → ∀ w, PrintedOn p w → ∀ c ∈ w.chars, ∃ c0 ∈ p0.characters, c.rank = c0.rank := by
  refine ⟨?_, ?_⟩
  · obtain ⟨e, he⟩ := h.trace
    have hi := tr_inv h.precision h.sorts h.parsed he
    obtain ⟨_, _, q1, q2, _⟩ := ap_late he
    have hres : d.pages = (e 10).pages.map fun p => { p with textLines := p.blocks.flatMap (·.block.lines) } := by
      rw [he.result]; unfold linesFromBlocks; simp only; rw [q1]
    rw [hres, List.map_map]
    have hf := hi.i10.pages
    generalize (e 10).pages = ps at hf
    generalize d0.pages = ps0 at hf
    clear hres
    induction hf with
    | nil => rfl
    | cons hab _ ih =>
      rw [List.map_cons, List.map_cons, ih]
      have := rk_chars hab
      simp only [Function.comp_apply, this]
  · intro k p0 p h0 hk w hw c hc
    obtain ⟨p0', q, h0', hq, g1, g2, g3, g4⟩ := rk_page h k p hk
    rw [h0] at h0'
    obtain rfl : p0 = p0' := by simpa using h0'
    obtain ⟨x, hx, rfl⟩ := g4 w hw
    obtain ⟨g, hg, rfl⟩ := List.mem_map.mp hc
    have := g3.subset (List.mem_map.mpr ⟨g, List.mem_flatten.mpr ⟨_, List.mem_map.mpr ⟨x, hx, rfl⟩, hg⟩, rfl⟩)
    obtain ⟨c0, hc0, e⟩ := List.mem_map.mp this
    exact ⟨c0, hc0, e.symm⟩

/-! ## The blocks -/

/-- The blocks of a page as they were detected. -/
structure Detected (p : Page) : Prop where
  ranks : p.blocks.map (·.block.rank) = List.range p.blocks.length
  cover : p.blocks.flatMap (·.block.lines) = p.segments.flatMap (·.lines)

theorem rk_blocksStage {R : Ran} (h : DocInv lib n { R with blocks := false } d0 d) {m : Document} (hm : blocksStage lib d = .ok m) :
    ∀ p ∈ m.pages, Detected p := by
  have hflat : (d.pages.map fun p => p.segments.map (·.lines)).flatten.flatten = List.range d.lines.length := by
    rw [← h.ranks]
    generalize d.pages = ps
    induction ps with
    | nil => rfl
    | cons p ps ih =>
      rw [List.map_cons, List.flatten_cons, List.flatten_append, ih, List.flatMap_cons, List.flatMap_def (l := p.segments)]
  obtain ⟨s', bss, h1, h2⟩ := c30_blocks_partition lib.lines.hash (blocksDoc lib d) (blocksState d)
    (d.pages.map fun p => p.segments.map (·.lines)) (by rw [hflat]; exact List.nodup_range)
  unfold blocksStage at hm
  rw [h1] at hm
  simp only [Outcome.bind, Outcome.ok.injEq] at hm
  rw [← hm]
  simp only
  have hno : ∀ p ∈ d.pages, p.blocks = [] := by
    intro p hp
    obtain ⟨p0, _, hi⟩ := pl_forall₂_right h.pages p hp
    simpa using hi.blocks
  clear hm h1 hflat h
  generalize d.pages = ps at h2 hno
  induction ps generalizing bss with
  | nil => cases h2; intro p hp; simp at hp
  | cons p ps ih =>
    rw [List.map_cons] at h2
    cases h2 with
    | @cons _ bs _ bss hpo h2 =>
      intro x hx
      rw [List.zipWith_cons_cons] at hx
      rcases List.mem_cons.mp hx with rfl | hx
      · obtain ⟨⟨parts, e1, e2⟩, _, e3, _⟩ := hpo
        refine ⟨?_, ?_⟩
        · simp only [hno p (by simp), List.nil_append, List.map_map, List.length_map]
          apply List.ext_getElem?
          intro i
          rw [List.getElem?_map]
          cases hb : bs[i]? with
          | none => simp [List.getElem?_eq_none_iff.mp hb]
          | some b =>
            obtain ⟨hi, _⟩ := List.getElem?_eq_some_iff.mp hb
            rw [List.getElem?_range hi]
            simp [(e3 i b hb).1]
        · simp only [hno p (by simp), List.nil_append, List.flatMap_map]
          rw [← e1]
          clear e1 e3 hx
          generalize p.segments = ss at e2
          induction ss generalizing parts with
          | nil => cases e2; rfl
          | cons s ss ih2 =>
            rw [List.map_cons] at e2
            cases e2 with
            | cons hab e2 =>
              rw [List.flatten_cons, List.flatMap_append, List.flatMap_cons, ih2 _ e2, ← hab, List.flatMap_def]
      · exact ih bss h2 (fun q hq => hno q (by simp [hq])) x hx

/-- The blocks of a page, perhaps in another order than that of their ranks. -/
def Reordered (cover : Prop) (p : Page) : Prop := ∃ bs : List TextBlocks.Block, bs.Perm (p.blocks.map (·.block)) ∧ bs.map (·.rank) = List.range bs.length ∧
  (cover → bs.flatMap (·.lines) = p.segments.flatMap (·.lines))

theorem rk_trace (h : EndedRun lib n cfg d0 d) : (∀ p ∈ d.pages, Reordered (Enabled cfg .blocks) p) ∧
    (¬ Enabled cfg .readingOrder → ∀ p ∈ d.pages, p.blocks.map (·.block.rank) = List.range p.blocks.length) ∧
    (d.pages.flatMap fun p => p.segments.flatMap (·.lines)) = List.range d.lines.length := by
  obtain ⟨e, he⟩ := h.trace
  have hi := tr_inv h.precision h.sorts h.parsed he
  obtain ⟨_, _, q1, q2, _⟩ := ap_late he
  have hres : d.pages = (e 10).pages.map fun p => { p with textLines := p.blocks.flatMap (·.block.lines) } := by
    rw [he.result]; unfold linesFromBlocks; simp only; rw [q1]
  have hline : d.lines = (e 10).lines := by rw [he.result]; exact q2
  have h9 : ∀ p ∈ (e 9).pages, p.blocks.map (·.block.rank) = List.range p.blocks.length ∧
      (Enabled cfg .blocks → p.blocks.flatMap (·.block.lines) = p.segments.flatMap (·.lines)) := by
    have hd := he.blocks
    unfold Did at hd
    by_cases hE : Enabled cfg .blocks
    · rw [if_pos hE] at hd
      obtain ⟨m, g1, g2⟩ := hd
      rw [if_neg (by decide)] at g2
      intro p hp
      rw [g2] at hp
      have := rk_blocksStage hi.i8 g1 p hp
      exact ⟨this.ranks, fun _ => this.cover⟩
    · rw [if_neg hE] at hd
      intro p hp
      rw [hd] at hp
      obtain ⟨p0, _, hpi⟩ := pl_forall₂_right hi.i8.pages p hp
      have hb : p.blocks = [] := by simpa using hpi.blocks
      rw [hb]
      exact ⟨rfl, fun h => absurd h hE⟩
  have h9r : ∀ p ∈ (e 9).pages, Reordered (Enabled cfg .blocks) p := by
    intro p hp
    obtain ⟨g1, g2⟩ := h9 p hp
    refine ⟨p.blocks.map (·.block), List.Perm.refl _, ?_, ?_⟩
    · rw [List.map_map, List.length_map]; exact g1
    · intro hE; rw [List.flatMap_map]; exact g2 hE
  have h10 : (∀ p ∈ (e 10).pages, Reordered (Enabled cfg .blocks) p) ∧
      (¬ Enabled cfg .readingOrder → ∀ p ∈ (e 10).pages, p.blocks.map (·.block.rank) = List.range p.blocks.length) := by
    have hd := he.readingOrder
    unfold Did at hd
    by_cases hE : Enabled cfg .readingOrder
    · rw [if_pos hE] at hd
      obtain ⟨m, g1, g2⟩ := hd
      rw [if_neg (by decide)] at g2
      refine ⟨?_, fun hn => absurd hE hn⟩
      intro p hp
      rw [g2] at hp
      have g1 : orderStage lib (e 9) = .ok m := g1
      unfold orderStage at g1
      cases hr : predictRoles lib (e 9) with
      | throw m => rw [hr] at g1; cases g1
      | ub m => rw [hr] at g1; cases g1
      | ok rs =>
        rw [hr] at g1
        have g1 : _ = m := Outcome.ok.inj g1
        rw [← g1] at hp
        simp only at hp
        obtain ⟨x, hx, rfl⟩ := List.mem_map.mp hp
        have hro := pl_assignRoles (e 9).pages rs (pl_predictRoles_length hr)
        obtain ⟨k, hk⟩ := List.getElem?_of_mem hx
        obtain ⟨y, hy, hyx⟩ := pl_forall₂_get (List.Forall₂.flip hro) k x hk
        obtain ⟨p0, hp0, hpi⟩ := pl_forall₂_get (List.Forall₂.flip hi.i9.pages) k y hy
        obtain ⟨hsame, hblocks⟩ := hyx
        obtain ⟨bs, r1, r2, r3⟩ := h9r y (List.mem_of_getElem? hy)
        have hboxes : ∀ b ∈ x.blocks, PageBox n b.block.pos := by
          intro b hb
          have hin : b.block ∈ y.blocks.map (·.block) := by rw [← hblocks]; exact List.mem_map.mpr ⟨b, hb, rfl⟩
          obtain ⟨z, hz, ez⟩ := List.mem_map.mp hin
          rw [← ez]
          have hB := hpi.blocks
          split at hB
          · exact (hB.2 z hz).1
          · rw [hB] at hz; cases hz
        have hfig : ∀ b ∈ x.figures ++ x.graphics ++ x.shapes, RoundedBox n b := by
          rw [hsame]
          simp only
          rw [hpi.figures, hpi.graphics, hpi.shapes]
          exact h.parsed.boxes p0 (List.mem_of_getElem? hp0)
        have hperm := pl_orderPage h.precision h.sorts (e 9).stats x hboxes hfig
        have hseg : (orderPage lib (e 9).stats x).segments = y.segments := by
          show x.segments = y.segments
          rw [hsame]
        refine ⟨bs, r1.trans ?_, r2, ?_⟩
        · rw [← hblocks]; exact (hperm.map _).symm
        · rw [hseg]; exact r3
    · rw [if_neg hE] at hd
      rw [hd]
      exact ⟨h9r, fun _ p hp => (h9 p hp).1⟩
  refine ⟨?_, ?_, ?_⟩
  · intro p hp
    rw [hres] at hp
    obtain ⟨x, hx, rfl⟩ := List.mem_map.mp hp
    exact h10.1 x hx
  · intro hE p hp
    rw [hres] at hp
    obtain ⟨x, hx, rfl⟩ := List.mem_map.mp hp
    exact h10.2 hE x hx
  · rw [hres, hline, ← hi.i10.ranks, List.flatMap_map]

/-- **C96.** The blocks of every page are numbered 0, 1, 2, ... -/
theorem c96_blocks (h : EndedRun lib n cfg d0 d) : BlocksNumbered (toSDoc d) := by
  intro p hp
  obtain ⟨k, hk, rfl⟩ := List.mem_mapIdx.mp hp
  obtain ⟨bs, h1, h2, _⟩ := (rk_trace h).1 _ (List.getElem_mem hk)
  show (((d.pages[k]).blocks.map (toSBlock d k)).map (·.rank)).Perm ((List.range ((d.pages[k]).blocks.map (toSBlock d k)).length).map fun i : ℕ => (i : ℤ))
  have h3 := (h1.map (·.rank)).symm
  rw [h2, h1.length_eq, List.length_map, List.map_map] at h3
  have h4 := h3.map fun i : ℕ => (i : ℤ)
  rw [List.map_map] at h4
  rw [List.map_map, List.length_map]
  exact h4

/-- **C96.** Without the reading order, the blocks are printed in the order of their ranks. -/
theorem c96_detection_order (h : EndedRun lib n cfg d0 d) (hr : ¬ Enabled cfg .readingOrder) : BlocksInOrder (toSDoc d) := by
  intro p hp
  obtain ⟨k, hk, rfl⟩ := List.mem_mapIdx.mp hp
  have h3 := (rk_trace h).2.1 hr _ (List.getElem_mem hk)
  show ((d.pages[k]).blocks.map (toSBlock d k)).map (·.rank) = (List.range ((d.pages[k]).blocks.map (toSBlock d k)).length).map _
  have h4 := congrArg (List.map fun i : ℕ => (i : ℤ)) h3
  rw [List.map_map] at h4
  rw [List.map_map, List.length_map]
  exact h4

theorem rk_choose {α β : Type} {R : α → β → Prop} (l : List α) (h : ∀ a ∈ l, ∃ b, R a b) : ∃ m, List.Forall₂ R l m := by
  induction l with
  | nil => exact ⟨[], .nil⟩
  | cons a l ih =>
    obtain ⟨b, hb⟩ := h a (by simp)
    obtain ⟨m, hm⟩ := ih fun x hx => h x (by simp [hx])
    exact ⟨b :: m, .cons hb hm⟩

/-- **C96.** The blocks of the document, page after page in the order of their ranks, contain the text lines of the document in the order of
the ranks of the lines, each once, whatever the reading order is. -/
theorem c96_lines (h : EndedRun lib n cfg d0 d) (hb : Enabled cfg .blocks) : ∃ bss : List (List TextBlocks.Block),
    List.Forall₂ (fun (p : Page) bs => bs.Perm (p.blocks.map (·.block)) ∧ bs.map (·.rank) = List.range bs.length) d.pages bss ∧
      bss.flatten.flatMap (·.lines) = List.range d.lines.length := by
  obtain ⟨h1, _, h3⟩ := rk_trace h
  obtain ⟨bss, hf⟩ := rk_choose d.pages h1
  refine ⟨bss, pl_forall₂_imp hf fun p bs _ r => ⟨r.1, r.2.1⟩, ?_⟩
  rw [← h3]
  clear h1 h3
  generalize d.pages = ps at hf
  induction hf with
  | nil => rfl
  | cons hab _ ih => rw [List.flatten_cons, List.flatMap_append, List.flatMap_cons, ih, hab.2.2 hb]

/-! ## Documents that were read from a file -/

theorem rk_place {clip : Parsing.Clip} {make : ℤ → ℕ → Parsing.Elem} {s s' : Parsing.State} (h : Parsing.place clip make s = .ok s') : s'.pages = s.pages := by
  unfold Parsing.place at h
  cases hp : s.page with
  | none => rw [hp] at h; cases h
  | some p => rw [hp] at h; cases h; rfl

theorem rk_stepPages (t : Parsing.Tables) (s s' : Parsing.State) (e : Parsing.Event) (h : Parsing.step t s e = .ok s') : s.pages.length ≤ s'.pages.length := by
  cases e with
  | startPage n clip => cases h; simp [Parsing.State.docPages]
  | endPage => cases h; exact le_refl _
  | updateFont f =>
    have h : Parsing.updateFont t f s = .ok s' := h
    unfold Parsing.updateFont at h
    cases f with
    | none => cases h; exact le_refl _
    | some f =>
      simp only at h
      cases hf : Parsing.findFont s.fonts (f.gfx.name.getD f.gfx.address) with
      | some k => rw [hf] at h; cases h; exact le_refl _
      | none =>
        rw [hf] at h
        simp only at h
        cases hp : Parsing.parseFont t f with
        | ok new => rw [hp] at h; cases h; exact le_refl _
        | throw m => rw [hp] at h; cases h
        | ub m => rw [hp] at h; cases h
  | drawChar ev =>
    simp only [Parsing.step] at h
    cases hf : s.font with
    | none => rw [hf] at h; cases h; exact le_refl _
    | some font =>
      rw [hf] at h
      simp only at h
      split at h
      · cases h; exact le_refl _
      · cases hg : ev.font with
        | none => rw [hg] at h; cases h
        | some f => rw [hg] at h; rw [rk_place h]
  | stroke points clip =>
    simp only [Parsing.step] at h
    rw [rk_place h]
  | drawGraphic ctm clip =>
    simp only [Parsing.step] at h
    cases hg : Parsing.graphicBox clip.round ctm with
    | none => rw [hg] at h; cases h; exact le_refl _
    | some b => rw [hg] at h; rw [rk_place h]

theorem rk_drawnBy (t : Parsing.Tables) (s : Parsing.State) (e : Parsing.Event) (i : Parsing.Item) (h : Parsing.drawnBy t s e = some i) : i.page = s.pages.length := by
  unfold Parsing.drawnBy at h
  cases e with
  | startPage n clip => cases h
  | endPage => cases h
  | updateFont f => cases h
  | drawChar ev =>
    simp only at h
    split at h
    · split at h
      · cases h
      · cases h; rfl
    · cases h
  | stroke points clip => cases h; rfl
  | drawGraphic ctm clip =>
    simp only at h
    cases hg : Parsing.graphicBox clip.round ctm with
    | none => rw [hg] at h; cases h
    | some b => rw [hg] at h; cases h; rfl

theorem rk_history (t : Parsing.Tables) : ∀ (es : List Parsing.Event) (s : Parsing.State), (∀ i ∈ Parsing.history t s es, s.pages.length ≤ i.page) ∧
    (Parsing.history t s es).Pairwise fun i j => i.page ≤ j.page := by
  intro es
  induction es with
  | nil => intro s; exact ⟨(fun i hi => (by cases hi)), .nil⟩
  | cons e es ih =>
    intro s
    rw [Parsing.history]
    have key : ∀ l : List Parsing.Item, (∀ i ∈ l, s.pages.length ≤ i.page) → (l.Pairwise fun i j => i.page ≤ j.page) →
        (∀ i ∈ (Parsing.drawnBy t s e).toList ++ l, s.pages.length ≤ i.page) ∧ ((Parsing.drawnBy t s e).toList ++ l).Pairwise fun i j => i.page ≤ j.page := by
      intro l g1 g2
      cases hd : Parsing.drawnBy t s e with
      | none => exact ⟨(by simpa using g1), (by simpa using g2)⟩
      | some i =>
        have := rk_drawnBy t s e i hd
        simp only [Option.toList_some, List.singleton_append]
        refine ⟨?_, List.pairwise_cons.mpr ⟨fun j hj => by rw [this]; exact g1 j hj, g2⟩⟩
        intro j hj
        rcases List.mem_cons.mp hj with rfl | hj
        · rw [this]
        · exact g1 j hj
    cases hs : Parsing.step t s e with
    | ok s' => exact key _ (fun i hi => le_trans (rk_stepPages t s s' e hs) ((ih s').1 i hi)) (ih s').2
    | throw m => exact key [] (fun i hi => (by cases hi)) .nil
    | ub m => exact key [] (fun i hi => (by cases hi)) .nil

/-- **C96.** In a document that was read from a file, the characters have increasing ranks, page after page. -/
theorem c96_file (t : Parsing.Tables) (es : List Parsing.Event) (s : Parsing.State) (h : Parsing.run t {} es = .ok s) : DrawnInOrder (EndToEnd.toDocument s) := by
  unfold DrawnInOrder
  rw [List.map_flatMap, List.flatMap_def, List.pairwise_flatten]
  have hfig := c50_figures t es s h
  obtain ⟨_, _, hranks⟩ := c50_routing t es s h
  have hpage : ∀ p : Parsing.Page, (EndToEnd.toPage p).characters.map (·.rank) = p.content.characters.map fun c => (c.rank : ℤ) := by
    intro p
    show (p.content.characters.map EndToEnd.toGlyph).map (·.rank) = _
    rw [List.map_map]
    rfl
  have hpages : (EndToEnd.toDocument s).pages.map (fun p => p.characters.map (·.rank)) = s.docPages.map fun p => p.content.characters.map fun c => (c.rank : ℤ) := by
    show (s.docPages.map EndToEnd.toPage).map _ = _
    rw [List.map_map]
    exact List.map_congr_left fun p _ => hpage p
  rw [hpages]
  refine ⟨?_, ?_⟩
  · intro l hl
    obtain ⟨p, hp, rfl⟩ := List.mem_map.mp hl
    have := (hfig p hp).2.2.1
    rw [List.pairwise_map] at this ⊢
    exact this.imp fun h => by exact_mod_cast h
  · rw [List.pairwise_map, List.pairwise_iff_getElem]
    intro i j hi hj hij x hx y hy
    obtain ⟨c, hc, rfl⟩ := List.mem_map.mp hx
    obtain ⟨c', hc', rfl⟩ := List.mem_map.mp hy
    rw [c75_characters t es s h i _ (List.getElem?_eq_getElem hi)] at hc
    rw [c75_characters t es s h j _ (List.getElem?_eq_getElem hj)] at hc'
    have key : ∀ {k : ℕ} {clip : Parsing.Clip} {c : Parsing.PChar}, c ∈ Spec.EndToEnd.pageChars t es k clip →
        ∃ a : Parsing.Item, ∃ m, (Parsing.history t {} es)[m]? = some a ∧ a.page = k ∧ c.rank = m := by
      intro k clip c hc
      unfold Spec.EndToEnd.pageChars at hc
      obtain ⟨a, ha, hac⟩ := List.mem_filterMap.mp hc
      obtain ⟨m, hm⟩ := List.getElem?_of_mem ha
      refine ⟨a, m, hm, ?_⟩
      have hr : ((Parsing.history t {} es).map fun i => i.elem.rank)[m]? = some a.elem.rank := by rw [List.getElem?_map, hm]; rfl
      rw [hranks] at hr
      obtain ⟨hm', _⟩ := List.getElem?_eq_some_iff.mp hm
      rw [List.getElem?_range hm'] at hr
      have hr : m = a.elem.rank := by simpa using hr
      unfold Spec.EndToEnd.charOn at hac
      cases he : a.elem with
      | char x =>
        rw [he] at hac hr
        simp only at hac
        split at hac
        · next hh =>
          cases hac
          exact ⟨hh.1, hr.symm⟩
        · cases hac
      | shape p r => rw [he] at hac; cases hac
      | graphic p r => rw [he] at hac; cases hac
    obtain ⟨a, m, hm, ha, hr⟩ := key hc
    obtain ⟨b, m', hm', hb, hr'⟩ := key hc'
    rw [hr, hr']
    have : m < m' := by
      by_contra hlt
      rcases Nat.lt_or_ge m' m with hlt' | hge
      · obtain ⟨g, rfl⟩ := List.getElem?_eq_some_iff.mp hm
        obtain ⟨g', rfl⟩ := List.getElem?_eq_some_iff.mp hm'
        have := List.pairwise_iff_getElem.mp (rk_history t es {}).2 m' m g' g hlt'
        omega
      · have : m = m' := by omega
        subst this
        rw [hm] at hm'
        obtain rfl : a = b := by simpa using hm'
        omega
    exact_mod_cast this

/-- **C96.** The ranks in the output of a complete run on a file, whatever the options. -/
theorem c96_run {numbers : Text.Str → List ℚ} {events : List Parsing.Event} {dur : ℕ → ℕ} {ts ts' : Option (List (Text.Str × ℕ))} {d' : Document}
    (hl : LibOk lib) (h : Drawable numbers cfg events)
    (hrun : Cli.process (env lib none (EndToEnd.parse numbers events) dur) cfg ⟨{}, ts⟩ = .ok (0, ⟨d', ts'⟩)) :
    WordsRanked (toSDoc d') ∧ BlocksNumbered (toSDoc d') := by
  obtain ⟨s, h1, h2⟩ := ee_parse h
  have hr : EndedRun lib 1 cfg (EndToEnd.toDocument s) d' := ⟨by decide, hl, c75_parsed _ _ _ h1 h.inPage, _, _, _, _, _, h2 _ _, hrun⟩
  exact ⟨c96_words hr (c96_file _ _ _ h1), c96_blocks hr⟩

/-! ## Examples -/

/-- The ranks of the printed words and of their characters, by block. -/
def rkShown (r : Outcome (ℤ × Cli.PState Document)) : Option (List (ℤ × List (ℤ × List ℤ))) :=
  match r with
  | .ok (0, r) => some (((toSDoc r.doc).pages.flatMap (·.blocks)).map fun b => (b.rank, (b.lines.flatMap (·.words)).map fun w => (w.rank, w.chars.map (·.rank))))
  | _ => none

/-- Two pages; on the first one a word at the top on the right, drawn before one at the bottom on the left. -/
def rkEvents : List Parsing.Event :=
  [.startPage 1 ⟨0, 0, 600, 800⟩, .updateFont (some ⟨exParseGfx, none⟩), eeChar 400 700 ⟨0, 0, 600, 800⟩ "a" "a", eeChar 405 700 ⟨0, 0, 600, 800⟩ "b" "b",
   eeChar 100 300 ⟨0, 0, 600, 800⟩ "c" "c", eeChar 120 500 ⟨100, 100, 200, 400⟩ "c" "c", eeChar 120 300 ⟨0, 0, 600, 800⟩ "d" "d", .endPage,
   .startPage 2 ⟨0, 0, 600, 800⟩, eeChar 100 600 ⟨0, 0, 600, 800⟩ "e" "e", .endPage]

theorem rkEvents_drawable : Drawable (fun _ => []) plConfig rkEvents := by
  refine ⟨⟨?_, ⟨rfl, rfl, rfl, rfl, rfl, rfl, rfl, rfl, rfl, rfl, rfl, rfl, trivial⟩⟩, ee_inPage ?_⟩
  · intro g hg
    cases Option.some.inj hg
    rfl
  · decide +kernel

/-- The premises of the theorems are met by a complete run; in the output the block with rank 1 comes before that with rank 0. -/
theorem c96_premises : LibOk refPipeline ∧ Drawable (fun _ => []) plConfig rkEvents ∧
    rkShown (Cli.process (env refPipeline none (EndToEnd.parse (fun _ => []) rkEvents) fun _ => 0) plConfig ⟨{}, none⟩) =
      some [(1, [(1, [2]), (2, [4])]), (0, [(0, [0, 1])]), (0, [(0, [5])])] := by
  refine ⟨refPipeline_ok, rkEvents_drawable, ?_⟩
  decide +kernel

/-- C96, refuted part: with the reading order, the rank of a block is not its position in the output. -/
theorem c96_output_order_refuted : ¬ ∀ (lib : Pipeline.Lib) (n : ℕ) (cfg : Config) (d0 d : Document), EndedRun lib n cfg d0 d → BlocksInOrder (toSDoc d) := by
  intro hall
  have key : (match Cli.process (env refPipeline none (EndToEnd.parse (fun _ => []) rkEvents) fun _ => 0) plConfig ⟨{}, none⟩ with
      | .ok (0, r) => decide ((toSDoc r.doc).pages.map (fun p => p.blocks.map (·.rank)) = [[1, 0], [0]])
      | _ => false) = true := by decide +kernel
  obtain ⟨s, h1, h2⟩ := ee_parse rkEvents_drawable
  revert key
  cases hx : Cli.process (env refPipeline none (EndToEnd.parse (fun _ => []) rkEvents) fun _ => 0) plConfig ⟨{}, none⟩ with
  | throw m => intro h; cases h
  | ub m => intro h; cases h
  | ok r =>
    obtain ⟨k, r⟩ := r
    cases k with
    | negSucc k => intro h; cases h
    | ofNat k =>
      cases k with
      | succ k => intro h; cases h
      | zero =>
        obtain ⟨d', ts'⟩ := r
        intro h
        have h := of_decide_eq_true h
        have hr : EndedRun refPipeline 1 plConfig (EndToEnd.toDocument s) d' :=
          ⟨by decide, refPipeline_ok, c75_parsed _ _ _ h1 rkEvents_drawable.inPage, _, _, _, _, _, h2 _ _, hx⟩
        have hb := hall _ _ _ _ _ hr
        simp only at h
        cases hp : (toSDoc d').pages with
        | nil => rw [hp] at h; cases h
        | cons p ps =>
          rw [hp, List.map_cons] at h
          have hp1 := hb p (by rw [hp]; simp)
          have h3 := (List.cons.inj h).1
          rw [h3] at hp1
          cases hl : (List.range p.blocks.length) with
          | nil => rw [hl] at hp1; cases hp1
          | cons a l =>
            have h0 : a = 0 := by
              have : (List.range p.blocks.length)[0]? = some a := by rw [hl]; rfl
              obtain ⟨_, h4⟩ := List.getElem?_eq_some_iff.mp this
              simpa using h4.symm
            rw [hl, List.map_cons, h0] at hp1
            cases (List.cons.inj hp1).1

/-- The ranks of the figures in the end. -/
def rkFigures (r : Outcome (ℤ × Cli.PState Document)) : Option (List ℤ) :=
  match r with
  | .ok (0, r) => some (((toSDoc r.doc).pages.flatMap (·.figures)).map (·.rank))
  | _ => none

/-- C96, refuted part: figures do not get a rank, they are printed with the rank -1. -/
theorem c96_figures_refuted : rkFigures (Cli.process (env refPipeline none (EndToEnd.parse (fun _ => []) rkEvents) fun _ => 0) plConfig ⟨{}, none⟩) = some [-1] ∧
    ∀ d : Document, ∀ p ∈ (toSDoc d).pages, ∀ f ∈ p.figures, f.rank = -1 := by
  refine ⟨by decide +kernel, ?_⟩
  intro d p hp f hf
  obtain ⟨k, hk, rfl⟩ := List.mem_mapIdx.mp hp
  obtain ⟨b, hb, rfl⟩ := List.mem_map.mp hf
  rfl

end Verif.Props

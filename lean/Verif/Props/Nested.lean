import Verif.Spec.Nested
import Verif.Props.LineContent

/-!
# C91: characters lie in their word, words in their line, lines in their block
-/

namespace Verif.Props

open Verif.Math Verif.Elements Verif.Spec Verif.Words Verif.TextLines Verif.Pipeline Verif.Counter
open Verif.Cli (Config)

variable {lib : Pipeline.Lib} {n : ℕ} {cfg : Config} {d0 d' : Document}

theorem nb_tidy (b : Box) : tidyBox b = normBox b := by
  simp only [tidyBox, normBox, minimum_eq_min, maximum_eq_max, min_comm, max_comm]

/-- Every edge of a hull is the edge of one of the boxes. -/
theorem nb_hull_inside {bs : List Box} {b R : Box} (h : IsHull bs b) (hR : ∀ x ∈ bs, Inside R x) : Inside R b := by
  obtain ⟨⟨⟨a1, m1, e1⟩, _⟩, ⟨⟨a2, m2, e2⟩, _⟩, ⟨⟨a3, m3, e3⟩, _⟩, ⟨⟨a4, m4, e4⟩, _⟩⟩ := h
  have h1 := hR a1 m1
  have h2 := hR a2 m2
  have h3 := hR a3 m3
  have h4 := hR a4 m4
  refine ⟨⟨?_, ?_⟩, ⟨?_, ?_⟩, ⟨?_, ?_⟩, ⟨?_, ?_⟩⟩
  · rw [← e1]; exact h1.left.1
  · rw [← e3]; exact h3.left.2
  · rw [← e1]; exact h1.right.1
  · rw [← e3]; exact h3.right.2
  · rw [← e2]; exact h2.upper.1
  · rw [← e4]; exact h4.upper.2
  · rw [← e2]; exact h2.lower.1
  · rw [← e4]; exact h4.lower.2

theorem nb_inside_tidy {R b : Box} : Inside R (tidyBox b) ↔ Inside R b := by
  constructor
  · rintro ⟨⟨h1, _⟩, ⟨_, h4⟩, ⟨h5, _⟩, ⟨_, h8⟩⟩
    simp only [tidyBox, le_min_iff, max_le_iff] at h1 h4 h5 h8
    exact ⟨h1, h4, h5, h8⟩
  · rintro ⟨h1, h2, h3, h4⟩
    refine ⟨⟨?_, ?_⟩, ⟨?_, ?_⟩, ⟨?_, ?_⟩, ⟨?_, ?_⟩⟩ <;> simp only [tidyBox]
    · exact le_min h1.1 h1.2
    · exact le_trans h1.1 (le_max_left _ _)
    · exact le_trans (min_le_left _ _) h2.1
    · exact max_le h2.1 h2.2
    · exact le_min h3.1 h3.2
    · exact le_trans h3.1 (le_max_left _ _)
    · exact le_trans (min_le_left _ _) h4.1
    · exact max_le h4.1 h4.2

/-- A hull of well-formed boxes contains them. -/
theorem nb_hull_contains {bs : List Box} {b x : Box} (h : IsHull bs b) (hx : x ∈ bs) (hw : WellFormedBox x) : Inside b x := by
  have h1 := h.left.2 x hx
  have h2 := h.upper.2 x hx
  have h3 := h.right.2 x hx
  have h4 := h.lower.2 x hx
  exact ⟨⟨h1, le_trans h1 hw.1⟩, ⟨le_trans hw.1 h3, h3⟩, ⟨h2, le_trans h2 hw.2⟩, ⟨le_trans hw.2 h4, h4⟩⟩

theorem nb_tidy_wf (b : Box) : WellFormedBox (tidyBox b) := by
  constructor <;> simp only [tidyBox]
  · exact le_trans (min_le_left _ _) (le_max_left _ _)
  · exact le_trans (min_le_left _ _) (le_max_left _ _)

theorem nb_hull_wf {bs : List Box} {b : Box} (h : IsHull bs b) (hw : ∀ x ∈ bs, WellFormedBox x) : WellFormedBox b := by
  obtain ⟨x, hx, _⟩ := h.left.1
  have := nb_hull_contains h hx (hw x hx)
  exact ⟨le_trans this.left.1 this.right.1, le_trans this.upper.1 this.lower.1⟩

theorem nb_tidy_of_wf {b : Box} (h : WellFormedBox b) : tidyBox b = b := by
  unfold tidyBox
  rw [min_eq_left h.1, max_eq_right h.1, min_eq_left h.2, max_eq_right h.2]

theorem nb_inside_trans {a b c : Box} (h1 : Inside a b) (h2 : Inside b c) : Inside a c :=
  ⟨⟨le_trans h1.left.1 h2.left.1, le_trans h1.left.1 h2.left.2⟩, ⟨le_trans h2.right.1 h1.right.2, le_trans h2.right.2 h1.right.2⟩,
    ⟨le_trans h1.upper.1 h2.upper.1, le_trans h1.upper.1 h2.upper.2⟩, ⟨le_trans h2.lower.1 h1.lower.2, le_trans h2.lower.2 h1.lower.2⟩⟩

/-! ## The words -/

theorem nb_words (h : FullRun lib n cfg d0 d') (p : Page) (hp : p ∈ d'.pages) :
    ∀ w ∈ p.words, w.chars ≠ [] ∧ (∀ c ∈ w.chars, c ∈ p.characters) ∧ IsHull (w.chars.map (·.pos)) w.pos := by
  obtain ⟨p0, _, hi⟩ := pl_forall₂_right (wi_final h).pages p hp
  have hw := hi.words
  unfold ranOf at hw
  simp only [decide_eq_true (h.stages .words (by decide)), if_true] at hw
  obtain ⟨ws, a, g1, g2⟩ := hw
  obtain ⟨ws', a', f1, f2, f3, f4, f5⟩ := pl_words lib.lines.hash (Active.reset p.pageNum) p.pageNum p.characters hi.glyphs
  rw [g1] at f1
  simp only [Outcome.ok.injEq, Prod.mk.injEq] at f1
  obtain ⟨rfl, rfl⟩ := f1
  intro w hw
  rw [g2] at hw
  obtain ⟨v, hv, q1, q2, rfl⟩ := pl_merge_mem ws f2 hw
  have hmem : ∀ c ∈ v.chars, c ∈ p.characters := by
    intro c hc
    have : c ∈ (ws.map (·.chars)).flatten := List.mem_flatten.mpr ⟨_, List.mem_map.mpr ⟨v, hv, rfl⟩, hc⟩
    rw [f3] at this
    exact List.mem_of_mem_filter this
  refine ⟨(f5 v hv).2.2.1, hmem, ?_⟩
  obtain ⟨i, hvi⟩ := List.getElem?_of_mem hv
  obtain ⟨w', h5, h6⟩ := c24_page_words _ _ _ _ _ _ g1 i v hvi
  have := c24_box_partial lib.lines.hash v.chars (f5 v hv).2.2.1 (fun c hc => pl_positive (hi.glyphs c (hmem c hc)).box) w' h5
  show IsHull (v.chars.map (·.pos)) v.pos
  rw [h6] at this ⊢
  exact this

/-! ## The lines -/

theorem nb_scriptWords {mf b : ℚ} {ws ws' : List Word} (h : List.Forall₂ (WordFlagged mf b) ws ws') : ∀ w ∈ ws', ∃ v ∈ ws, SamePlace v w := by
  induction h with
  | nil => intro w hw; cases hw
  | @cons v v' ws ws' hr _ ih =>
    intro w hw
    rcases List.mem_cons.mp hw with rfl | hw
    · refine ⟨v, by simp, ?_⟩
      obtain ⟨e, hc⟩ := hr
      have e1 : v.pos = w.pos := by rw [← e]
      refine ⟨e1, ?_⟩
      generalize v.chars = cs at hc
      generalize w.chars = cs' at hc
      induction hc with
      | nil => rfl
      | cons g _ ih => rw [List.map_cons, List.map_cons, ih, show _ = _ from (congrArg (fun g : Glyph => g.pos) g.rest :)]
    · obtain ⟨x, hx, hs⟩ := ih w hw
      exact ⟨x, by simp [hx], hs⟩

theorem nb_lines (h : FullRun lib n cfg d0 d') (p : Page) (hp : p ∈ d'.pages) :
    ∀ i ∈ lineNumbers p, AtLine d' i fun l => l.line.words ≠ [] ∧ (∀ w ∈ l.line.words, ∃ v ∈ p.words, SamePlace v w) ∧
      IsHull (l.line.words.map fun w => tidyBox w.pos) l.line.pos := by
  obtain ⟨k, hk⟩ := List.getElem?_of_mem hp
  have hgood : ∀ w ∈ p.words, GoodWord n w := by
    obtain ⟨p0, _, hi⟩ := pl_forall₂_right (wi_final h).pages p (List.mem_of_getElem? hk)
    exact hi.good
  obtain ⟨s1, s4, ps2, ps3, ps6, ls6, bst, bss, rs, hW⟩ := h.whole
  obtain ⟨p0, p2, p3, p6, bs, hf⟩ := wi_finished h.parsed hW k p hk
  obtain ⟨m, t1, hl, ho, hr, hd⟩ := wi_pageLines h.parsed hW hf
  rw [show p3.words = p.words by rw [hf.page, hf.only6]] at ho
  have hsorts := c26_sorts_are_permutations h.sorts.lines h.precision
  obtain ⟨ss', tls, g1, _, _, g3, g4⟩ := pl_linesOfSegments hsorts s4.avgCharWidth p.words hgood (segmentPage lib s4 p3).segments m hl
  rw [ho] at g1
  simp only [Outcome.ok.injEq, Prod.mk.injEq] at g1
  obtain ⟨_, rfl⟩ := g1
  intro i hi
  rw [hr, List.mem_range'_1] at hi
  obtain ⟨j, rfl⟩ : ∃ j, i = m + j := ⟨i - m, by omega⟩
  have hj : j < t1.length := by omega
  have e := List.getElem?_eq_getElem hj
  have hmem : t1[j] ∈ t1 := List.getElem_mem hj
  have hdj := hd j _ e
  refine ⟨_, hdj, ?_⟩
  have hc := c69_line_content h _ (List.mem_of_getElem? hdj)
  have hfl : List.Forall₂ (WordFlagged s4.mostFreqFontSize t1[j].line.base) t1[j].line.words (Scripts.scriptLine s4.mostFreqFontSize t1[j].line).1.words :=
    (scriptWords_spec _ _ _ {}).1
  refine ⟨?_, ?_, ?_⟩
  · intro hn
    have hne := (g4 _ hmem).nonempty
    have hlen := hfl.length_eq
    have hn' : (Scripts.scriptLine s4.mostFreqFontSize t1[j].line).1.words = [] := hn
    rw [hn'] at hlen
    exact hne (List.length_eq_zero_iff.mp hlen)
  · intro w hw
    obtain ⟨v, hv, hs⟩ := nb_scriptWords hfl w hw
    refine ⟨v, ?_, hs⟩
    have := g3.subset (List.mem_flatMap.mpr ⟨_, hmem, hv⟩)
    obtain ⟨u, hu, hvu⟩ := List.mem_flatMap.mp this
    refine pl_wordGroup_mem ?_ hvu
    obtain ⟨s, _, hu⟩ := List.mem_flatMap.mp hu
    obtain ⟨i, _, hi⟩ := List.mem_filterMap.mp hu
    exact List.mem_of_getElem? hi
  · have := hc.box
    rw [show (fun w : Word => normBox w.pos) = fun w => tidyBox w.pos from funext fun w => (nb_tidy w.pos).symm] at this
    exact this

/-! ## The blocks -/

theorem nb_block_made (h : FullRun lib n cfg d0 d') (p : Page) (hp : p ∈ d'.pages) (b : TextBlock) (hb : b ∈ p.blocks) :
    ∃ V : TextBlocks.Doc, Made V b.block ∧ ∀ (i : ℕ) (l : TextLine), d'.lines[i]? = some l → V.line i = l.line := by
  obtain ⟨k, hk⟩ := List.getElem?_of_mem hp
  obtain ⟨s1, s4, ps2, ps3, ps6, ls6, bst, bss, rs, hW, hB⟩ := h.wholeBoxes
  obtain ⟨p0, p2, p3, p6, bs, hf⟩ := wi_finished h.parsed hW k p hk
  obtain ⟨st, hF⟩ := wi_bss h hW
  have hbs : b.block ∈ bs := by
    have := (wi_blocks_perm h hB hf).subset hb
    obtain ⟨i, hi⟩ := List.getElem?_of_mem this
    rw [List.getElem?_zipWith] at hi
    cases hx : bs[i]? with
    | none => rw [hx] at hi; simp at hi
    | some x =>
      rw [hx] at hi
      cases hy : ((rs.drop (blocksBefore (blocksAdded lib ps6 bss) k)).take bs.length)[i]? with
      | none => rw [hy] at hi; simp at hi
      | some y =>
        rw [hy] at hi
        simp only [Option.some.injEq] at hi
        rw [← hi]; exact List.mem_of_getElem? hx
  have hpage : (d'.pages.map fun p => p.segments.map (·.lines))[k]? = some (p.segments.map (·.lines)) := by rw [List.getElem?_map, hk]; rfl
  obtain ⟨pbs, hp1, hfin⟩ : PageOf (blocksDocOn lib d' ps6) (List.range d'.lines.length) (blocksState d') st bst (p.segments.map (·.lines)) bs := by
    rw [List.forall₂_iff_get] at hF
    have l1 := (List.getElem?_eq_some_iff.mp hpage).1
    have l2 := (List.getElem?_eq_some_iff.mp hf.atB).1
    have := hF.2 k l1 l2
    rw [List.get_eq_getElem, List.get_eq_getElem] at this
    rw [List.getElem?_eq_getElem l1] at hpage
    have e2 := hf.atB
    rw [List.getElem?_eq_getElem l2] at e2
    simp only [Option.some.injEq] at hpage e2
    rw [hpage, e2] at this
    exact this
  refine ⟨_, hfin.made b.block hbs, ?_⟩
  intro i l hl
  unfold blocksDocOn blocksDoc
  simp only [hl, Option.map_some, Option.getD_some]

/-- **C91 (boxes).** In the finished document the box of a word is the smallest one around its characters, the box of a line the smallest one around its words, and the box of a block the smallest one around
its lines; the characters, words and lines are those of the same page. -/
theorem c91_boxes (h : FullRun lib n cfg d0 d') : ∀ p ∈ d'.pages, NestedBoxes d' p := by
  intro p hp
  have hl := nb_lines h p hp
  refine ⟨nb_words h p hp, hl, ?_⟩
  intro b hb
  obtain ⟨V, hm, hV⟩ := nb_block_made h p hp b hb
  have hcov : ∀ i ∈ b.block.lines, i ∈ lineNumbers p := by
    intro i hi
    have := c69_text_lines h p hp
    rw [this.1] at this
    exact this.2.subset (List.mem_flatMap.mpr ⟨b, hb, hi⟩)
  refine ⟨hm.nonempty, hcov, ?_⟩
  obtain ⟨f, r, hfr⟩ := List.exists_cons_of_ne_nil hm.nonempty
  rw [hm.box f (by rw [hfr]; rfl)]
  have hlist : ((b.block.lines.map V.line).map fun l => normBox l.pos) = b.block.lines.map (lineBox d') := by
    rw [List.map_map]
    apply List.map_congr_left
    intro i hi
    obtain ⟨l, hli, _, _, hh⟩ := hl i (hcov i hi)
    have hwf : WellFormedBox l.line.pos := nb_hull_wf hh (by intro x hx; obtain ⟨w, _, rfl⟩ := List.mem_map.mp hx; exact nb_tidy_wf _)
    simp only [Function.comp_apply, lineBox, hV i l hli, hli, Option.map_some, Option.getD_some]
    rw [← nb_tidy, nb_tidy_of_wf hwf]
  rw [hlist]
  refine extendAll_isHull (by simpa using hm.nonempty) rfl rfl rfl rfl ?_
  intro e he
  obtain ⟨i, hi, rfl⟩ := List.mem_map.mp he
  obtain ⟨l, hli, _⟩ := hl i (hcov i hi)
  have := (wi_final h).good l (List.mem_of_getElem? hli)
  unfold lineBox
  rw [hli]
  exact pl_positive this.box

/-- **C91 (containment).** A block contains its lines, a line contains its words. -/
theorem c91_contains (h : FullRun lib n cfg d0 d') (p : Page) (hp : p ∈ d'.pages) (b : TextBlock) (hb : b ∈ p.blocks) :
    ∀ i ∈ b.block.lines, AtLine d' i fun l => Inside b.block.pos l.line.pos ∧ ∀ w ∈ l.line.words, Inside l.line.pos w.pos ∧ Inside b.block.pos w.pos := by
  have hn := c91_boxes h p hp
  obtain ⟨_, hm, hh⟩ := hn.blocks b hb
  intro i hi
  obtain ⟨l, hl, _, _, hb'⟩ := hn.lines i (hm i hi)
  have hwf : WellFormedBox l.line.pos := nb_hull_wf hb' (by intro x hx; obtain ⟨w, _, rfl⟩ := List.mem_map.mp hx; exact nb_tidy_wf _)
  have h1 : Inside b.block.pos l.line.pos := by
    refine nb_hull_contains hh (List.mem_map.mpr ⟨i, hi, ?_⟩) hwf
    unfold lineBox; rw [hl]; rfl
  refine ⟨l, hl, h1, ?_⟩
  intro w hw
  have h2 : Inside l.line.pos w.pos := nb_inside_tidy.mp (nb_hull_contains hb' (List.mem_map.mpr ⟨w, hw, rfl⟩) (nb_tidy_wf _))
  exact ⟨h2, nb_inside_trans h1 h2⟩

/-! ## From the parsed characters -/

/-- What holds of the boxes of all parsed characters of a page, and is kept when the box of a mark is added to that of its base, holds of the boxes of the characters of the finished page. -/
theorem nb_characters (h : FullRun lib n cfg d0 d') {P : Box → Prop} (hP : ∀ a b, P a → P b → P (a.extend b)) (k : ℕ) (p0 p : Page) (h0 : d0.pages[k]? = some p0)
    (hk : d'.pages[k]? = some p) (hc : ∀ c ∈ p0.characters, P c.pos) : ∀ c ∈ p.characters, P c.pos := by
  obtain ⟨s1, s4, ps2, ps3, ps6, ls6, bst, bss, rs, hW⟩ := h.whole
  obtain ⟨q0, p2, p3, p6, bs, hf⟩ := wi_finished h.parsed hW k p hk
  have hq := hf.at0
  rw [h0, Option.some.injEq] at hq
  subst hq
  obtain ⟨out, o1, o2⟩ := pl_diacritics_keep (P := fun c => P c.pos) ⟨fun _ _ h => h, fun _ _ _ _ hb hc => hP _ _ hb hc⟩ lib.compose p0.characters hc
  rw [hf.marks] at o1
  cases o1
  rw [show p.characters = p2.characters by rw [hf.page, hf.only6, hf.only3]]
  exact o2

theorem nb_extend_wf (a b : Box) (ha : WellFormedBox a) (hb : WellFormedBox b) : WellFormedBox (a.extend b) := by
  constructor <;> simp only [Box.extend, minimum_eq_min, maximum_eq_max]
  · exact le_trans (min_le_left _ _) (le_trans ha.1 (le_max_left _ _))
  · exact le_trans (min_le_left _ _) (le_trans ha.2 (le_max_left _ _))

theorem nb_extend_inside {R : Box} (a b : Box) (ha : Inside R a) (hb : Inside R b) : Inside R (a.extend b) := by
  obtain ⟨a1, a2, a3, a4⟩ := ha
  obtain ⟨b1, b2, b3, b4⟩ := hb
  refine ⟨⟨?_, ?_⟩, ⟨?_, ?_⟩, ⟨?_, ?_⟩, ⟨?_, ?_⟩⟩ <;> simp only [Box.extend, minimum_eq_min, maximum_eq_max]
  · exact le_min a1.1 b1.1
  · exact le_trans a1.2 (le_max_left _ _)
  · exact le_trans (min_le_left _ _) a2.1
  · exact max_le a2.2 b2.2
  · exact le_min a3.1 b3.1
  · exact le_trans a3.2 (le_max_left _ _)
  · exact le_trans (min_le_left _ _) a4.1
  · exact max_le a4.2 b4.2

/-- **C91 (regions).** A region that contains all characters drawn on a page - the page itself, for instance - contains all words, lines and blocks of this page. -/
theorem c91_region (h : FullRun lib n cfg d0 d') (R : Box) (k : ℕ) (p0 p : Page) (h0 : d0.pages[k]? = some p0) (hk : d'.pages[k]? = some p)
    (hR : ∀ c ∈ p0.characters, Inside R c.pos) :
    (∀ w ∈ p.words, Inside R w.pos) ∧ (∀ i ∈ lineNumbers p, AtLine d' i fun l => Inside R l.line.pos) ∧ ∀ b ∈ p.blocks, Inside R b.block.pos := by
  have hc := nb_characters h (P := Inside R) nb_extend_inside k p0 p h0 hk hR
  have hn := c91_boxes h p (List.mem_of_getElem? hk)
  have hw : ∀ w ∈ p.words, Inside R w.pos := by
    intro w hw
    obtain ⟨_, h2, h3⟩ := hn.words w hw
    refine nb_hull_inside h3 ?_
    intro x hx
    obtain ⟨c, hc', rfl⟩ := List.mem_map.mp hx
    exact hc c (h2 c hc')
  have hl : ∀ i ∈ lineNumbers p, AtLine d' i fun l => Inside R l.line.pos := by
    intro i hi
    obtain ⟨l, h1, _, h3, h4⟩ := hn.lines i hi
    refine ⟨l, h1, nb_hull_inside h4 ?_⟩
    intro x hx
    obtain ⟨w, hw', rfl⟩ := List.mem_map.mp hx
    obtain ⟨v, hv, hs⟩ := h3 w hw'
    rw [nb_inside_tidy, ← hs.1]
    exact hw v hv
  refine ⟨hw, hl, ?_⟩
  intro b hb
  obtain ⟨_, h2, h3⟩ := hn.blocks b hb
  refine nb_hull_inside h3 ?_
  intro x hx
  obtain ⟨i, hi, rfl⟩ := List.mem_map.mp hx
  obtain ⟨l, h1, h4⟩ := hl i (h2 i hi)
  unfold lineBox
  rw [h1]
  exact h4

/-- **C91 (characters).** If the boxes of the characters drawn on a page are well-formed, then every word contains its characters, and so do the line and the block of the word. -/
theorem c91_characters_partial (h : FullRun lib n cfg d0 d') (k : ℕ) (p0 p : Page) (h0 : d0.pages[k]? = some p0) (hk : d'.pages[k]? = some p)
    (hwf : ∀ c ∈ p0.characters, WellFormedBox c.pos) :
    (∀ w ∈ p.words, ∀ c ∈ w.chars, Inside w.pos c.pos) ∧
    ∀ b ∈ p.blocks, ∀ i ∈ b.block.lines, AtLine d' i fun l => ∀ w ∈ l.line.words, ∀ c ∈ w.chars,
      Inside w.pos c.pos ∧ Inside l.line.pos c.pos ∧ Inside b.block.pos c.pos := by
  have hp := List.mem_of_getElem? hk
  have hc := nb_characters h nb_extend_wf k p0 p h0 hk hwf
  have hn := c91_boxes h p hp
  have hw : ∀ w ∈ p.words, ∀ c ∈ w.chars, Inside w.pos c.pos := by
    intro w hw c hc'
    obtain ⟨_, h2, h3⟩ := hn.words w hw
    exact nb_hull_contains h3 (List.mem_map.mpr ⟨c, hc', rfl⟩) (hc c (h2 c hc'))
  refine ⟨hw, ?_⟩
  intro b hb i hi
  obtain ⟨l, hl, h1, h2⟩ := c91_contains h p hp b hb i hi
  obtain ⟨l', hl', _, h3, _⟩ := hn.lines i ((hn.blocks b hb).2.1 i hi)
  rw [hl, Option.some.injEq] at hl'
  subst hl'
  refine ⟨l, hl, ?_⟩
  intro w hw' c hc'
  obtain ⟨v, hv, hs⟩ := h3 w hw'
  have h4 : Inside w.pos c.pos := by
    have : c.pos ∈ v.chars.map (·.pos) := by rw [hs.2]; exact List.mem_map.mpr ⟨c, hc', rfl⟩
    obtain ⟨e, he, hec⟩ := List.mem_map.mp this
    rw [← hs.1, ← hec]
    exact hw v hv e he
  exact ⟨h4, nb_inside_trans (h2 w hw').1 h4, nb_inside_trans (h2 w hw').2 h4⟩

/-! ## The records of the output -/

/-- **C91 (records).** In what the serializers get, every word lies in its block, and - if the characters drawn have well-formed boxes - every character lies in its word and its block. -/
theorem c91_records (h : FullRun lib n cfg d0 d') (k : ℕ) (p0 : Page) (sp : Serialize.SPage) (h0 : d0.pages[k]? = some p0) (hk : (toSDoc d').pages[k]? = some sp) :
    ∀ b ∈ sp.blocks, ∀ l ∈ b.lines, ∀ w ∈ l.words, Inside b.pos w.pos ∧
      ((∀ c ∈ p0.characters, WellFormedBox c.pos) → ∀ c ∈ w.chars, Inside w.pos c.pos ∧ Inside b.pos c.pos) := by
  have hk' : (d'.pages.mapIdx (toSPage d'))[k]? = some sp := hk
  rw [List.getElem?_mapIdx, Option.map_eq_some_iff] at hk'
  obtain ⟨p, hp, rfl⟩ := hk'
  intro b hb l hl w hw
  have hb' : b ∈ p.blocks.map (toSBlock d' k) := hb
  obtain ⟨tb, htb, rfl⟩ := List.mem_map.mp hb'
  have hl' : l ∈ tb.block.lines.map fun i => (⟨(((d'.lines[i]?).map fun l => l.line.words).getD []).map (toSWord d'.hyphens k)⟩ : Serialize.SLine) := hl
  obtain ⟨i, hi, rfl⟩ := List.mem_map.mp hl'
  obtain ⟨tl, h1, _, h2⟩ := c91_contains h p (List.mem_of_getElem? hp) tb htb i hi
  have hw' : w ∈ (((d'.lines[i]?).map fun l => l.line.words).getD []).map (toSWord d'.hyphens k) := hw
  rw [h1] at hw'
  obtain ⟨v, hv, rfl⟩ := List.mem_map.mp hw'
  refine ⟨(h2 v hv).2, ?_⟩
  intro hwf c hc
  have hc' : c ∈ v.chars.map toSChar := hc
  obtain ⟨g, hg, rfl⟩ := List.mem_map.mp hc'
  obtain ⟨tl', h1', h3⟩ := (c91_characters_partial h k p0 p h0 hp hwf).2 tb htb i hi
  rw [h1, Option.some.injEq] at h1'
  subst h1'
  have := h3 v hv g hg
  exact ⟨this.1, this.2.2⟩

/-! ## The segments -/

/-- **C91 (segments).** If the characters drawn on a page have well-formed boxes, every segment contains its words; and it contains its lines, if no word of the page is attached to another one (the words
attached to an operator are put into its line, whichever segment they are in). -/
theorem c91_segments_partial (h : FullRun lib n cfg d0 d') (k : ℕ) (p0 p : Page) (h0 : d0.pages[k]? = some p0) (hk : d'.pages[k]? = some p)
    (hwf : ∀ c ∈ p0.characters, WellFormedBox c.pos) :
    ∀ s ∈ p.segments, (∀ e ∈ s.elements, e.kind = .word → ∀ w, p.words[e.uid]? = some w → Inside s.pos w.pos) ∧
      ((∀ w ∈ p.words, w.parts = []) → ∀ i ∈ s.lines, AtLine d' i fun l => Inside s.pos l.line.pos) := by
  have hp := List.mem_of_getElem? hk
  have hc := nb_characters h nb_extend_wf k p0 p h0 hk hwf
  have hn := c91_boxes h p hp
  have hww : ∀ w ∈ p.words, WellFormedBox w.pos := by
    intro w hw
    obtain ⟨_, h2, h3⟩ := hn.words w hw
    refine nb_hull_wf h3 ?_
    intro x hx
    obtain ⟨c, hc', rfl⟩ := List.mem_map.mp hx
    exact hc c (h2 c hc')
  obtain ⟨q0, hq0, hi⟩ := pl_forall₂_right (wi_final h).pages p hp
  obtain ⟨E, e1, e2, e3, e4, e5⟩ := c69_segments h p hp
  have hE : ∀ e ∈ E.words ++ E.figures ++ E.graphics ++ E.shapes, RoundedBox n e.pos ∧ (e.kind = .word → ∃ w, p.words[e.uid]? = some w ∧ e.pos = w.pos) := by
    have hb := h.parsed.boxes q0 hq0
    rw [← hi.figures, ← hi.graphics, ← hi.shapes] at hb
    intro e he
    simp only [List.mem_append] at he
    rcases he with ((he | he) | he) | he <;> obtain ⟨j, hj⟩ := List.getElem?_of_mem he
    · rw [e1] at hj
      obtain ⟨w, hw, rfl⟩ := Option.map_eq_some_iff.mp hj
      exact ⟨(hi.good w (List.mem_of_getElem? hw)).1.rounded, fun _ => ⟨w, hw, rfl⟩⟩
    · rw [e2] at hj
      obtain ⟨b, hb', rfl⟩ := Option.map_eq_some_iff.mp hj
      exact ⟨hb b (by simp [List.mem_of_getElem? hb']), fun hc => by cases hc⟩
    · rw [e3] at hj
      obtain ⟨b, hb', rfl⟩ := Option.map_eq_some_iff.mp hj
      exact ⟨hb b (by simp [List.mem_of_getElem? hb']), fun hc => by cases hc⟩
    · rw [e4] at hj
      obtain ⟨b, hb', rfl⟩ := Option.map_eq_some_iff.mp hj
      exact ⟨hb b (by simp [List.mem_of_getElem? hb']), fun hc => by cases hc⟩
  obtain ⟨hx, hy⟩ := c17_sorts_are_permutations h.sorts.seg h.precision
  have hcov := (c21_segments_cover ⟨d'.stats.avgCharWidth, d'.stats.avgCharHeight, d'.stats.mostFreqWordDistance⟩ lib.seg hx hy E fun e he => (hE e he).1).1
  have hwords : ∀ s ∈ p.segments, ∀ e ∈ s.elements, e.kind = .word → ∀ w, p.words[e.uid]? = some w → Inside s.pos w.pos := by
    intro s hs e he hkind w hw
    have hsm : (s.elements, s.pos) ∈ p.segments.map fun s => (s.elements, s.pos) := List.mem_map.mpr ⟨s, hs, rfl⟩
    rw [e5] at hsm
    obtain ⟨g, hg, hgs⟩ := List.mem_map.mp hsm
    simp only [Prod.mk.injEq] at hgs
    obtain ⟨g1, g2⟩ := hgs
    have heg : e ∈ g.elements := by rw [g1]; exact he
    obtain ⟨v, hv, hev⟩ := (hE e (hcov.subset (List.mem_flatten.mpr ⟨_, List.mem_map.mpr ⟨g, hg, rfl⟩, heg⟩))).2 hkind
    rw [hw, Option.some.injEq] at hv
    subst hv
    have hcon : s.pos.leftX ≤ w.pos.leftX ∧ s.pos.upperY ≤ w.pos.upperY ∧ w.pos.rightX ≤ s.pos.rightX ∧ w.pos.lowerY ≤ s.pos.lowerY := by
      obtain ⟨es, _, rfl⟩ := List.mem_map.mp hg
      rw [← g2, ← hev]
      exact extendAll_contains _ (es.map (·.pos)) e.pos (List.mem_map.mpr ⟨e, heg, rfl⟩)
    obtain ⟨c1, c2, c3, c4⟩ := hcon
    have hf := hww w (List.mem_of_getElem? hw)
    exact ⟨⟨c1, le_trans c1 hf.1⟩, ⟨le_trans hf.1 c3, c3⟩, ⟨c2, le_trans c2 hf.2⟩, ⟨le_trans hf.2 c4, c4⟩⟩
  intro s hs
  refine ⟨hwords s hs, ?_⟩
  intro hparts i his
  obtain ⟨s1, s4, ps2, ps3, ps6, ls6, bst, bss, rs, hW⟩ := h.whole
  obtain ⟨p0', p2, p3, p6, bs, hf⟩ := wi_finished h.parsed hW k p hk
  obtain ⟨m, t1, hl, ho, hr, hd⟩ := wi_pageLines h.parsed hW hf
  rw [show p3.words = p.words by rw [hf.page, hf.only6]] at ho
  obtain ⟨s0, hs0, pre, ls, post, ht, hseg⟩ := wi_linesOfSegments ho s hs
  have hsorts := c26_sorts_are_permutations h.sorts.lines h.precision
  obtain ⟨s', tls, g1, g2, g3, g4, g5, g6⟩ := pl_linesOfSegment hsorts s4.avgCharWidth p.words hi.good (m + pre.length) s0 (hl s0 hs0)
  rw [hseg] at g1
  simp only [Outcome.ok.injEq, Prod.mk.injEq] at g1
  obtain ⟨rfl, rfl⟩ := g1
  rw [g2, List.mem_range'_1] at his
  obtain ⟨j, rfl⟩ : ∃ j, i = m + pre.length + j := ⟨i - (m + pre.length), by omega⟩
  have hj : j < ls.length := by omega
  have hget : t1[pre.length + j]? = some ls[j] := by
    rw [ht, List.append_assoc, List.getElem?_append_right (by omega), Nat.add_sub_cancel_left, List.getElem?_append_left hj, List.getElem?_eq_getElem hj]
  have hdj := hd _ _ hget
  rw [← Nat.add_assoc] at hdj
  refine ⟨_, hdj, ?_⟩
  have hbox := (c69_line_content h _ (List.mem_of_getElem? hdj)).box
  have hfl : List.Forall₂ (WordFlagged s4.mostFreqFontSize ls[j].line.base) ls[j].line.words (Scripts.scriptLine s4.mostFreqFontSize ls[j].line).1.words :=
    (scriptWords_spec _ _ _ {}).1
  refine nb_hull_inside hbox ?_
  intro x hx
  obtain ⟨w, hw, rfl⟩ := List.mem_map.mp hx
  rw [← nb_tidy, nb_inside_tidy]
  obtain ⟨v, hv, hsame⟩ := nb_scriptWords hfl w hw
  rw [← hsame.1]
  have hmem : ls[j] ∈ ls := List.getElem_mem hj
  have := g5.subset (List.mem_flatMap.mpr ⟨_, hmem, hv⟩)
  obtain ⟨u, hu, hvu⟩ := List.mem_flatMap.mp this
  obtain ⟨id, hid, hu'⟩ := List.mem_filterMap.mp hu
  obtain rfl : v = u := by
    unfold wordGroup at hvu
    rw [hparts u (List.mem_of_getElem? hu')] at hvu
    split at hvu <;> simp at hvu
    exact hvu
  unfold Segment.wordIds at hid
  obtain ⟨e, he, rfl⟩ := List.mem_map.mp hid
  rw [List.mem_filter] at he
  exact hwords s hs e (by rw [g3]; exact he.1) (by simpa using he.2) v hu'

/-! ## Upside-down text -/

/-- A character that is upside down, as the parser records it (`c63_upside_down_refuted`): the left edge lies right of the right edge. -/
def nbGlyph (x : ℚ) (t : Char) : Glyph :=
  { uid := 0, pos := { pageNum := 1, rotation := 2, leftX := x + 5, upperY := 10, rightX := x, lowerY := 20 }, text := [t], fontName := ['F'], fontSize := 10 }

/-- A page with a word that is upside down. -/
def nbDoc : Document :=
  { pages := [{ pageNum := 1, width := 200, height := 200, characters := [nbGlyph 45 'a', nbGlyph 40 'b', nbGlyph 35 'c'] }], fontInfos := fun _ => some ⟨400, false⟩ }

/-- The result of the run. -/
def nbResult : Option Document :=
  match Cli.process (env refPipeline none (fun _ _ _ => .ok nbDoc) (fun _ => 0)) plConfig ⟨{}, none⟩ with
  | .ok (_, r) => some r.doc
  | _ => none

theorem nbDoc_parsed : ParsedDoc 1 nbDoc := by
  have hg : ∀ (x : ℤ) (t : Char), 0 < x ∧ x < 1000 → GoodGlyph 1 (nbGlyph x t) := by
    intro x t hx
    obtain ⟨⟨⟨h1, h2, h3, h4⟩, h5, h6, h7, h8⟩, h9⟩ := plGlyph_good x 10 t hx (by norm_num)
    have e : (((10 : ℤ) : ℚ)) = 10 := by norm_num
    have e2 : ((plGlyph x (10 : ℤ) t).pos.lowerY) = 20 := by show ((10 : ℤ) : ℚ) + 10 = 20; norm_num
    rw [e2] at h4 h8
    have e3 : ((plGlyph x (10 : ℤ) t).pos.upperY) = 10 := e
    rw [e3] at h2 h6
    exact ⟨⟨⟨h3, h2, h1, h4⟩, h7, h6, h5, h8⟩, h9⟩
  refine ⟨?_, ?_, ?_, ?_, ?_, rfl, rfl⟩
  · intro p hp c hc
    rw [show nbDoc.pages = [_] from rfl, List.mem_singleton] at hp
    subst hp
    simp only [List.mem_cons, List.not_mem_nil, or_false] at hc
    rcases hc with rfl | rfl | rfl
    · exact_mod_cast hg 45 'a' (by norm_num)
    · exact_mod_cast hg 40 'b' (by norm_num)
    · exact_mod_cast hg 35 'c' (by norm_num)
  all_goals
    intro p hp
    rw [show nbDoc.pages = [_] from rfl, List.mem_singleton] at hp
    subst hp
    try rfl
  intro b hb
  simp at hb

/-- **C91 is false for text that is upside down** (finding): the box of the word "abc" reaches from 40 to 45, although its characters reach from 35 to 50; the line and the block have the same box. -/
theorem c91_upside_down_refuted : ∃ d', FullRun refPipeline 1 plConfig nbDoc d' ∧
    (∃ p ∈ d'.pages, ∃ w ∈ p.words, ∃ c ∈ w.chars, ¬ Inside w.pos c.pos) ∧
    ∃ p ∈ d'.pages, ∃ b ∈ p.blocks, ∃ i ∈ b.block.lines, AtLine d' i fun l => ∃ w ∈ l.line.words, ∃ c ∈ w.chars, ¬ Inside b.block.pos c.pos := by
  have hrun : ∃ d' ts', Cli.process (env refPipeline none (fun _ _ _ => .ok nbDoc) (fun _ => 0)) plConfig ⟨{}, none⟩ = .ok (0, ⟨d', ts'⟩) := by
    rcases pl_process (by decide) refPipeline_ok (fun _ _ _ => .ok nbDoc) (fun _ => 0) plConfig {} nbDoc none rfl nbDoc_parsed with
      ⟨d', ts', h, _⟩ | ⟨_, _, _, ⟨m, _, h⟩ | ⟨m, _, h⟩⟩
    · exact ⟨d', ts', h⟩
    · have : (Cli.process (env refPipeline none (fun _ _ _ => .ok nbDoc) (fun _ => 0)) plConfig ⟨{}, none⟩).isOk = true := by decide +kernel
      rw [h] at this; cases this
    · have : (Cli.process (env refPipeline none (fun _ _ _ => .ok nbDoc) (fun _ => 0)) plConfig ⟨{}, none⟩).isOk = true := by decide +kernel
      rw [h] at this; cases this
  obtain ⟨d', ts', hrun⟩ := hrun
  refine ⟨d', ⟨by decide, refPipeline_ok, fun st _ => rfl, nbDoc_parsed, ⟨_, _, _, _, _, rfl, hrun⟩⟩, ?_⟩
  have hr : nbResult = some d' := by unfold nbResult; rw [hrun]
  have h1 : (nbResult.map fun d => d.pages.any fun p => p.words.any fun w => w.chars.any fun c => decide (w.pos.rightX < c.pos.leftX)) = some true := by decide +kernel
  have h2 : (nbResult.map fun d => d.pages.any fun p => p.blocks.any fun b => b.block.lines.any fun i => (d.lines[i]?).any fun l => l.line.words.any fun w => w.chars.any fun c =>
      decide (b.block.pos.rightX < c.pos.leftX)) = some true := by decide +kernel
  rw [hr] at h1 h2
  simp only [Option.map_some, Option.some.injEq, List.any_eq_true, decide_eq_true_eq, Option.any_eq_true] at h1 h2
  obtain ⟨p, hp, w, hw, c, hc, hlt⟩ := h1
  obtain ⟨p', hp', b, hb, i, hi, l, hl, w', hw', c', hc', hlt'⟩ := h2
  refine ⟨⟨p, hp, w, hw, c, hc, fun hin => ?_⟩, ⟨p', hp', b, hb, i, hi, l, hl, w', hw', c', hc', fun hin => ?_⟩⟩
  · exact absurd hin.right.1 (not_le.mpr hlt)
  · exact absurd hin.right.1 (not_le.mpr hlt')

/-! ## Examples -/

/-- The assumptions are met by `wiDoc`: a complete run, well-formed characters inside the page, no attached words; and there is something to contain: two pages with blocks, lines, words and characters. -/
theorem c91_premises : (∃ d', FullRun refPipeline 1 plConfig wiDoc d') ∧ (∀ p ∈ wiDoc.pages, ∀ c ∈ p.characters, WellFormedBox c.pos) ∧
    (∀ p ∈ wiDoc.pages, ∀ c ∈ p.characters, Inside { leftX := 0, upperY := 0, rightX := 200, lowerY := 200 } c.pos) ∧
    wiResult.map (fun d => d.pages.map fun p => (p.blocks.length, (lineNumbers p).length, p.words.length, p.characters.length, p.words.all fun w => w.parts.isEmpty)) =
      some [(1, 2, 4, 7, true), (3, 3, 4, 7, true)] ∧
    wiResult.map (fun d => d.pages.map fun p => p.blocks.map fun b => (b.block.pos.leftX, b.block.pos.upperY, b.block.pos.rightX, b.block.pos.lowerY)) =
      some [[(10, 10, 45, 32)], [(10, 10, 35, 20), (30, 22, 40, 32), (30, 34, 40, 44)]] := by
  obtain ⟨d', h, _⟩ := wiDoc_run
  refine ⟨⟨d', h⟩, ?_, ?_, ?_, ?_⟩
  · have : (wiDoc.pages.all fun p => p.characters.all fun c => decide (c.pos.leftX ≤ c.pos.rightX) && decide (c.pos.upperY ≤ c.pos.lowerY)) = true := by decide +kernel
    simp only [List.all_eq_true, Bool.and_eq_true, decide_eq_true_eq] at this
    exact this
  · have : (wiDoc.pages.all fun p => p.characters.all fun c => decide (0 ≤ c.pos.leftX) && decide (0 ≤ c.pos.rightX) && (decide (c.pos.leftX ≤ 200) && decide (c.pos.rightX ≤ 200)) &&
        (decide (0 ≤ c.pos.upperY) && decide (0 ≤ c.pos.lowerY) && (decide (c.pos.upperY ≤ 200) && decide (c.pos.lowerY ≤ 200)))) = true := by decide +kernel
    simp only [List.all_eq_true, Bool.and_eq_true, decide_eq_true_eq] at this
    intro p hp c hc
    obtain ⟨⟨h1, h2⟩, h3, h4⟩ := this p hp c hc
    exact ⟨h1, h2, h3, h4⟩
  · decide +kernel
  · decide +kernel

end Verif.Props

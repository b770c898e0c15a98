import Verif.Props.Wiring

/-!
# C69: roles, reading order and output of the finished document
-/

namespace Verif.Props

open Verif.Math Verif.Elements Verif.Spec Verif.Words Verif.TextLines Verif.Pipeline Verif.Counter Verif.Statistics
open Verif.ReadingOrder (RElem Role)
open Verif.Cli (Stage StageConfig Env Config)

variable {lib : Pipeline.Lib} {n : ℕ} {cfg : Config} {d0 d' : Document}

/-- **C69 (lines of the pages).** In the finished document the text lines of a page are the lines of its blocks, in the order of the blocks, and these are all lines of its segments. -/
theorem c69_text_lines (h : FullRun lib n cfg d0 d') (p : Page) (hp : p ∈ d'.pages) :
    p.textLines = p.blocks.flatMap (·.block.lines) ∧ p.textLines.Perm (lineNumbers p) := by
  have h1 : p.textLines = p.blocks.flatMap (·.block.lines) := by
    obtain ⟨s1, s4, ps2, ps3, ps6, ls6, bst, bss, rs, hW⟩ := h.whole
    obtain ⟨k, hk⟩ := List.getElem?_of_mem hp
    obtain ⟨p0, p2, p3, p6, bs, hf⟩ := wi_finished h.parsed hW k p hk
    exact congrArg Page.textLines hf.page
  refine ⟨h1, ?_⟩
  rw [h1]
  obtain ⟨p0, _, hi⟩ := pl_forall₂_right (wi_final h).pages p hp
  have := hi.blocks
  unfold ranOf at this
  simp only [decide_eq_true (h.stages .blocks (by decide)), if_true] at this
  exact this.1

/-! ## Output -/

theorem wi_printed (d : Document) (k : ℕ) (b : TextBlock) : printedBlock (toSBlock d k b) = printedText d k b := by
  unfold printedBlock printedText
  congr 1
  have e1 : (toSBlock d k b).lines.flatMap (·.words) = (b.block.lines.flatMap fun i => (lineAtRank d i).words).map (toSWord d.hyphens k) := by
    unfold toSBlock
    simp only [List.flatMap_map, List.map_flatMap]
    congr 1
    funext i
    unfold lineAtRank
    cases d.lines[i]? <;> rfl
  rw [e1]
  generalize (b.block.lines.flatMap fun i => (lineAtRank d i).words) = ws
  induction ws with
  | nil => rfl
  | cons w ws ih =>
    rw [List.map_cons, List.filterMap_cons]
    have hw : printedWord d k w = if (toSWord d.hyphens k w).second = true then none else
        some ((toSWord d.hyphens k w).first.getD (((toSWord d.hyphens k w).chars.filter fun c => c.isBase || !c.isMark).flatMap fun c => if c.isBase then c.withMark else c.text)) := by
      unfold printedWord toSWord
      simp only [List.filter_map, List.flatMap_map]
      congr 4
      congr 1
      funext c
      simp only [Function.comp_apply, toSChar]
      cases c.markOf <;> rfl
    rw [hw]
    by_cases hs : (toSWord d.hyphens k w).second = true
    · rw [List.filter_cons_of_neg (by simpa using hs), if_pos hs]
      exact ih
    · rw [List.filter_cons_of_pos (by simpa using hs), if_neg hs, List.map_cons, ih]

theorem wi_blocksInOrder (d : Document) : (toSDoc d).pages.flatMap (·.blocks) = (blocksInOrder d).map fun x => toSBlock d x.1 x.2 := by
  unfold toSDoc blocksInOrder
  simp only
  rw [List.map_flatten, List.flatMap_def]
  congr 1
  apply List.ext_getElem?
  intro i
  simp only [List.getElem?_map, List.getElem?_mapIdx]
  cases d.pages[i]? with
  | none => rfl
  | some p => simp [toSPage, Function.comp_def]

/-- **C69 (output).** The plain text output of a document consists of the printed texts of its blocks whose role is selected, in document order, with a blank line in between. -/
theorem c69_output (roles : List Role) (d : Document) :
    Serialize.plainText roles (toSDoc d) =
      ['\n', '\n'].intercalate (((blocksInOrder d).filter fun x => decide (x.2.role ∈ roles)).map fun x => printedText d x.1 x.2) ++ ['\n'] := by
  rw [c34_plain_text_partial, wi_blocksInOrder, List.filter_map, List.map_map]
  congr 2
  have : ((fun b : Serialize.SBlock => decide (b.role ∈ roles)) ∘ fun x : ℕ × TextBlock => toSBlock d x.1 x.2) = fun x : ℕ × TextBlock => decide (x.2.role ∈ roles) := rfl
  rw [this]
  apply List.map_congr_left
  intro x _
  exact wi_printed d x.1 x.2

/-! ## Roles and reading order -/

theorem wi_zip (lib : Pipeline.Lib) (bs : List TextBlocks.Block) (r : List Role) :
    List.zipWith (fun (b : TextBlock) r => { b with role := r }) (bs.map fun b => (⟨b, lib.uninitialised⟩ : TextBlock)) r = List.zipWith TextBlock.mk bs r := by
  rw [List.zipWith_map_left]

theorem wi_features {s1 s4 : Stats} {ps2 ps3 ps6 : List Page} {ls6 : List TextLine} {bst : TextBlocks.State} {bss : List (List TextBlocks.Block)} {rs : List Role}
    (h : FullRun lib n cfg d0 d') (hW : WholeRun lib d0 d' s1 s4 ps2 ps3 ps6 ls6 bst bss rs) :
    (blocksAdded lib ps6 bss).map (featurePage lib { d' with pages := blocksAdded lib ps6 bss }) =
      List.zipWith (fun (p : Page) bs => (⟨p.width, p.height, bs.map (featuresOf lib.wide d')⟩ : Roles.FPage)) d'.pages bss := by
  obtain ⟨l0, l3, l6⟩ := wi_lengths h hW
  apply List.ext_getElem?
  intro k
  rw [List.getElem?_map, List.getElem?_zipWith]
  cases hk : d'.pages[k]? with
  | none =>
    have : (blocksAdded lib ps6 bss)[k]? = none := by
      rw [List.getElem?_eq_none_iff] at hk ⊢
      unfold blocksAdded
      rw [List.length_zipWith]
      omega
    rw [this]; rfl
  | some p =>
    obtain ⟨p0, p2, p3, p6, bs, hf⟩ := wi_finished h.parsed hW k p hk
    have hb6 : p6.blocks = [] := by rw [hf.only6, hf.only3, hf.only2]; exact h.parsed.blocks p0 (List.mem_of_getElem? hf.at0)
    have : (blocksAdded lib ps6 bss)[k]? = some { p6 with textLines := p6.segments.flatMap (·.lines), blocks := p6.blocks ++ bs.map fun b => ⟨b, lib.uninitialised⟩ } := by
      unfold blocksAdded
      rw [List.getElem?_zipWith, hf.at6, hf.atB]
    rw [this, hf.atB]
    simp only [Option.map_some, featurePage, hb6, List.nil_append, List.map_map, Option.some.injEq, Roles.FPage.mk.injEq]
    refine ⟨by rw [hf.page], by rw [hf.page], ?_⟩
    apply List.map_congr_left
    intro b _
    simp only [Function.comp_apply, featuresOf, blockWords, Roles.FBlock.mk.injEq, true_and]
    congr 2
    funext i
    unfold lineAtRank
    cases d'.lines[i]? <;> rfl

theorem wi_blocksBefore {s1 s4 : Stats} {ps2 ps3 ps6 : List Page} {ls6 : List TextLine} {bst : TextBlocks.State} {bss : List (List TextBlocks.Block)} {rs : List Role}
    (h : FullRun lib n cfg d0 d') (hW : WholeRun lib d0 d' s1 s4 ps2 ps3 ps6 ls6 bst bss rs) (k : ℕ) (hk : k ≤ d'.pages.length) :
    blocksBefore (blocksAdded lib ps6 bss) k = ((bss.take k).map List.length).sum := by
  induction k with
  | zero => simp [blocksBefore]
  | succ k ih =>
    have hkl : k < d'.pages.length := by omega
    obtain ⟨p0, p2, p3, p6, bs, hf⟩ := wi_finished h.parsed hW k _ (List.getElem?_eq_getElem hkl)
    have hb6 : p6.blocks = [] := by rw [hf.only6, hf.only3, hf.only2]; exact h.parsed.blocks p0 (List.mem_of_getElem? hf.at0)
    have e1 : (blocksAdded lib ps6 bss)[k]? = some { p6 with textLines := p6.segments.flatMap (·.lines), blocks := p6.blocks ++ bs.map fun b => ⟨b, lib.uninitialised⟩ } := by
      unfold blocksAdded
      rw [List.getElem?_zipWith, hf.at6, hf.atB]
    have ih' := ih (by omega)
    unfold blocksBefore at ih' ⊢
    rw [List.take_add_one, e1, List.flatMap_append, List.length_append, ih', List.take_add_one, hf.atB, List.map_append, List.sum_append]
    simp [hb6]

theorem wi_total {s1 s4 : Stats} {ps2 ps3 ps6 : List Page} {ls6 : List TextLine} {bst : TextBlocks.State} {bss : List (List TextBlocks.Block)} {rs : List Role}
    (h : FullRun lib n cfg d0 d') (hW : WholeRun lib d0 d' s1 s4 ps2 ps3 ps6 ls6 bst bss rs) :
    ((blocksAdded lib ps6 bss).flatMap (·.blocks)).length = bss.flatten.length ∧ bss.length = d'.pages.length := by
  obtain ⟨st, hF⟩ := wi_bss h hW
  have hlen := hF.length_eq
  rw [List.length_map] at hlen
  have := wi_blocksBefore h hW d'.pages.length le_rfl
  obtain ⟨l0, l3, l6⟩ := wi_lengths h hW
  unfold blocksBefore at this
  rw [List.take_of_length_le (by unfold blocksAdded; rw [List.length_zipWith]; omega), List.take_of_length_le (by omega)] at this
  rw [this, List.length_flatten]
  exact ⟨rfl, hlen.symm⟩

/-- **C69 (roles and reading order).** The roles of the blocks are what the prediction (C40, C41) makes of the network's output for the boxes, fonts and texts of the detected blocks, in the order of detection over all
pages; the blocks of a page are the detected ones with these roles, in the order that reading order detection (C33, C57) determines from these blocks and from the figures and shapes of the page. -/
theorem c69_roles (h : FullRun lib n cfg d0 d') :
    ∃ (bss : List (List TextBlocks.Block)) (roles : List (List Role)) (tensor : ℕ × List ℚ) (out : ℕ × List (Option ℚ)),
      List.Forall₂ (fun (p : Page) bs => (p.blocks.map (·.block)).Perm bs) d'.pages bss ∧
      Roles.layoutTensor lib.classes (fun f => (d'.fontInfos f).map fun i => (i.weight, i.isItalic))
        (List.zipWith (fun (p : Page) bs => (⟨p.width, p.height, bs.map (featuresOf lib.wide d')⟩ : Roles.FPage)) d'.pages bss) = .ok tensor ∧
      lib.network tensor (List.zipWith (fun (p : Page) bs => (⟨p.width, p.height, bs.map (featuresOf lib.wide d')⟩ : Roles.FPage)) d'.pages bss) = .ok out ∧
      Roles.predict out.2 out.1 bss.flatten.length = .ok (roles.flatten.map some) ∧
      ∀ (k : ℕ) (p : Page), d'.pages[k]? = some p → ∃ bs rs, bss[k]? = some bs ∧ roles[k]? = some rs ∧ rs.length = bs.length ∧
        p.blocks.Perm (List.zipWith TextBlock.mk bs rs) ∧
        ∃ order : List RElem,
          order = ReadingOrder.pageOrder ⟨d'.stats.avgCharWidth, d'.stats.avgCharHeight⟩ lib.order lib.sortTop
            ((List.zipWith TextBlock.mk bs rs).mapIdx fun i b => RElem.block i b.role b.block.pos) (p.figures.mapIdx fun i b => RElem.figure i b)
            (p.shapes.mapIdx fun i b => RElem.shape i b) ∧
          (∀ e ∈ order, ∃ i b, (List.zipWith TextBlock.mk bs rs)[i]? = some b ∧ e = RElem.block i b.role b.block.pos) ∧
          List.Forall₂ (fun (b : TextBlock) e => ∃ i, e = RElem.block i b.role b.block.pos ∧ (List.zipWith TextBlock.mk bs rs)[i]? = some b) p.blocks order := by
  obtain ⟨s1, s4, ps2, ps3, ps6, ls6, bst, bss, rs, hW, hB⟩ := h.wholeBoxes
  obtain ⟨ht, hlen⟩ := wi_total h hW
  have hrl := pl_predictRoles_length hW.roles
  simp only at hrl
  have hroles := hW.roles
  unfold predictRoles at hroles
  simp only at hroles
  rw [wi_features h hW, ht] at hroles
  obtain ⟨tensor, t1, hroles⟩ := wi_bind hroles
  obtain ⟨out, t2, hroles⟩ := wi_bind hroles
  obtain ⟨prs, t3, hroles⟩ := wi_bind hroles
  have hsome : prs = rs.map some := by
    by_cases hall : prs.all Option.isSome = true
    · rw [if_pos hall] at hroles
      have := wi_ok hroles
      rw [this, List.map_map]
      symm
      rw [List.all_eq_true] at hall
      conv_rhs => rw [← List.map_id prs]
      apply List.map_congr_left
      intro r hr
      have := hall r hr
      cases r with
      | none => simp at this
      | some r => rfl
    · rw [if_neg hall] at hroles; cases hroles
  let roles : List (List Role) := (List.range bss.length).map fun k => (rs.drop (((bss.take k).map List.length).sum)).take ((bss[k]?.map List.length).getD 0)
  have hflat : ∀ (xs : List (List TextBlocks.Block)) (r : List Role), r.length = xs.flatten.length →
      ((List.range xs.length).map fun k => (r.drop (((xs.take k).map List.length).sum)).take ((xs[k]?.map List.length).getD 0)).flatten = r := by
    intro xs
    induction xs with
    | nil => intro r hr; simp at hr; simp [hr]
    | cons x xs ih =>
      intro r hr
      rw [List.length_cons, List.range_succ_eq_map, List.map_cons, List.map_map, List.flatten_cons]
      have e := ih (r.drop x.length) (by simp at hr ⊢; omega)
      have : ((fun k => (r.drop ((((x :: xs).take k).map List.length).sum)).take (((x :: xs)[k]?.map List.length).getD 0)) ∘ Nat.succ) =
          fun k => ((r.drop x.length).drop (((xs.take k).map List.length).sum)).take ((xs[k]?.map List.length).getD 0) := by
        funext k
        simp [List.drop_drop]
      rw [this, e]
      simp
  refine ⟨bss, roles, tensor, out, ?_, t1, t2, ?_, ?_⟩
  · obtain ⟨V, S, S', bss', c1, c2, c3, c4, _⟩ := c69_blocks h
    rw [List.forall₂_iff_get]
    refine ⟨hlen.symm, ?_⟩
    intro k h1 h2
    obtain ⟨p0, p2, p3, p6, bs, hf⟩ := wi_finished h.parsed hW k _ (List.getElem?_eq_getElem h1)
    have hb : bss.get ⟨k, h2⟩ = bs := by
      have := hf.atB
      rw [List.getElem?_eq_getElem h2] at this
      simpa using this
    rw [hb]
    have hp := (wi_blocks_perm h hB hf).map (·.block)
    have hlr := wi_roles_length h hW hf
    refine hp.trans (List.Perm.of_eq ?_)
    generalize (rs.drop (blocksBefore (blocksAdded lib ps6 bss) k)).take bs.length = r at hlr
    clear * - hlr
    induction bs generalizing r with
    | nil => simp
    | cons b bs ih =>
      cases r with
      | nil => simp at hlr
      | cons x xs => simp only [List.zipWith_cons_cons, List.map_cons, ih xs (by simpa using hlr)]
  · rw [t3, hsome]
    show _ = Outcome.ok (List.map some roles.flatten)
    rw [show roles.flatten = rs from hflat bss rs (by rw [hrl]; exact ht)]
  · intro k p hk
    obtain ⟨p0, p2, p3, p6, bs, hf⟩ := wi_finished h.parsed hW k p hk
    have hkl : k < d'.pages.length := (List.getElem?_eq_some_iff.mp hk).1
    have hperm := wi_blocks_perm h hB hf
    have hlr := wi_roles_length h hW hf
    have hblocks := congrArg Page.blocks hf.page
    simp only [wi_zip] at hblocks
    rw [wi_blocksBefore h hW k (by omega)] at hperm hlr hblocks
    have hrk : roles[k]? = some ((rs.drop (((bss.take k).map List.length).sum)).take bs.length) := by
      show ((List.range bss.length).map _)[k]? = _
      rw [List.getElem?_map, List.getElem?_range (by omega), Option.map_some, hf.atB]
      rfl
    generalize (rs.drop (((bss.take k).map List.length).sum)).take bs.length = r at *
    refine ⟨bs, r, hf.atB, hrk, hlr, hperm, _, rfl, ?_⟩
    have hb6 : p6.blocks = [] := by rw [hf.only6, hf.only3, hf.only2]; exact h.parsed.blocks p0 (List.mem_of_getElem? hf.at0)
    have hadd : (blocksAdded lib ps6 bss)[k]? = some { p6 with textLines := p6.segments.flatMap (·.lines), blocks := p6.blocks ++ bs.map fun b => ⟨b, lib.uninitialised⟩ } := by
      unfold blocksAdded
      rw [List.getElem?_zipWith, hf.at6, hf.atB]
    obtain ⟨B1, B2⟩ := hB _ (List.mem_of_getElem? hadd)
    simp only [hb6, List.nil_append] at B1 B2
    have hfig : p.figures = p6.figures := by rw [hf.page]
    have hsha : p.shapes = p6.shapes := by rw [hf.page]
    rw [hfig, hsha]
    have hbox : ∀ b ∈ List.zipWith TextBlock.mk bs r, RoundedBox n b.block.pos := by
      intro b hb
      refine (B1 ⟨b.block, lib.uninitialised⟩ ?_).rounded
      rw [List.mem_map]
      refine ⟨b.block, ?_, rfl⟩
      clear * - hb
      induction bs generalizing r with
      | nil => simp at hb
      | cons x xs ih =>
        cases r with
        | nil => simp at hb
        | cons y ys =>
          simp only [List.zipWith_cons_cons, List.mem_cons] at hb
          rcases hb with rfl | hb
          · simp
          · exact List.mem_cons_of_mem _ (ih ys hb)
    generalize List.zipWith TextBlock.mk bs r = B at *
    have hall : ∀ e ∈ ReadingOrder.pageOrder ⟨d'.stats.avgCharWidth, d'.stats.avgCharHeight⟩ lib.order lib.sortTop
            (B.mapIdx fun i b => RElem.block i b.role b.block.pos) (p6.figures.mapIdx fun i b => RElem.figure i b)
            (p6.shapes.mapIdx fun i b => RElem.shape i b), ∃ i b, B[i]? = some b ∧ e = RElem.block i b.role b.block.pos := by
      obtain ⟨hx, hy⟩ := c17_sorts_are_permutations h.sorts.order h.precision
      have hp := c33_permutation ⟨d'.stats.avgCharWidth, d'.stats.avgCharHeight⟩ lib.order lib.sortTop hx hy h.sorts.sortTop
        (B.mapIdx fun i b => RElem.block i b.role b.block.pos) (p6.figures.mapIdx fun i b => RElem.figure i b)
            (p6.shapes.mapIdx fun i b => RElem.shape i b) (by
        intro e he
        obtain ⟨i, hi, rfl⟩ := List.mem_mapIdx.mp he
        rfl) (by
        intro e he
        rcases List.mem_append.mp he with he | he <;> obtain ⟨i, hi, rfl⟩ := List.mem_mapIdx.mp he <;> rfl) (by
        intro e he
        simp only [List.mem_append] at he
        rcases he with (he | he) | he <;> obtain ⟨i, hi, rfl⟩ := List.mem_mapIdx.mp he
        · exact hbox _ (List.getElem_mem hi)
        all_goals exact B2 _ (by simp [RElem.pos]))
      intro e he
      obtain ⟨i, hi, rfl⟩ := List.mem_mapIdx.mp (hp.subset he)
      exact ⟨i, B[i], List.getElem?_eq_getElem hi, rfl⟩
    refine ⟨hall, ?_⟩
    have hb2 : p.blocks = (ReadingOrder.pageOrder ⟨d'.stats.avgCharWidth, d'.stats.avgCharHeight⟩ lib.order lib.sortTop
            (B.mapIdx fun i b => RElem.block i b.role b.block.pos) (p6.figures.mapIdx fun i b => RElem.figure i b)
            (p6.shapes.mapIdx fun i b => RElem.shape i b)).filterMap (blockOf B) := hblocks
    rw [hb2]
    generalize ReadingOrder.pageOrder ⟨d'.stats.avgCharWidth, d'.stats.avgCharHeight⟩ lib.order lib.sortTop
            (B.mapIdx fun i b => RElem.block i b.role b.block.pos) (p6.figures.mapIdx fun i b => RElem.figure i b)
            (p6.shapes.mapIdx fun i b => RElem.shape i b) = O at hall
    clear * - hall
    induction O with
    | nil => exact List.Forall₂.nil
    | cons e O ih =>
      obtain ⟨i, b, hi, rfl⟩ := hall e (by simp)
      rw [List.filterMap_cons]
      simp only [blockOf, hi]
      exact List.Forall₂.cons ⟨i, rfl, hi⟩ (ih fun e he => hall e (by simp [he]))

/-! ### Examples -/

/-- A character of the second page. -/
def wiGlyph (x y : ℚ) (t : Char) : Glyph := { plGlyph x y t with pos := { (plGlyph x y t).pos with pageNum := 2 } }

/-- Two pages: that of `plDoc`, and one with three lines, the last two of which are indented. -/
def wiDoc : Document :=
  { plDoc with pages := plDoc.pages ++ [{ pageNum := 2, width := 200, height := 200, characters :=
      [wiGlyph 10 10 'g', wiGlyph 15 10 'h', wiGlyph 30 10 'i', wiGlyph 30 22 'j', wiGlyph 35 22 'k', wiGlyph 30 34 'l', wiGlyph 35 34 'm'] }] }

theorem wiDoc_parsed : ParsedDoc 1 wiDoc := by
  have hg : ∀ (x y : ℤ) (t : Char), 0 < x ∧ x < 1000 → 0 < y ∧ y < 1000 → GoodGlyph 1 (wiGlyph x y t) := by
    intro x y t hx hy
    obtain ⟨⟨h1, h2, h3, h4, h5⟩, h6⟩ := plGlyph_good x y t hx hy
    exact ⟨⟨h1, h2, h3, h4, h5⟩, h6⟩
  have hp := plDoc_parsed
  refine ⟨?_, ?_, ?_, ?_, ?_, rfl, rfl⟩
  · intro p hpm c hc
    rcases List.mem_append.mp hpm with hpm | hpm
    · exact hp.glyphs p hpm c hc
    rw [List.mem_singleton] at hpm
    subst hpm
    simp only [List.mem_cons, List.not_mem_nil, or_false] at hc
    rcases hc with rfl | rfl | rfl | rfl | rfl | rfl | rfl
    · exact hg 10 10 _ (by norm_num) (by norm_num)
    · exact hg 15 10 _ (by norm_num) (by norm_num)
    · exact hg 30 10 _ (by norm_num) (by norm_num)
    · exact hg 30 22 _ (by norm_num) (by norm_num)
    · exact hg 35 22 _ (by norm_num) (by norm_num)
    · exact hg 30 34 _ (by norm_num) (by norm_num)
    · exact hg 35 34 _ (by norm_num) (by norm_num)
  all_goals
    intro p hpm
    rcases List.mem_append.mp hpm with hpm | hpm
  · exact hp.boxes p hpm
  · rw [List.mem_singleton] at hpm; subst hpm; simp
  · exact hp.words p hpm
  · rw [List.mem_singleton] at hpm; subst hpm; simp
  · exact hp.segments p hpm
  · rw [List.mem_singleton] at hpm; subst hpm; simp
  · exact hp.blocks p hpm
  · rw [List.mem_singleton] at hpm; subst hpm; simp

/-- The document made of `wiDoc`. -/
def wiResult : Option Document :=
  match Cli.process (env refPipeline none (fun _ _ _ => .ok wiDoc) (fun _ => 0)) plConfig ⟨{}, none⟩ with
  | .ok (_, r) => some r.doc
  | _ => none

/-- The assumptions of the theorems are met by `wiDoc`. -/
theorem wiDoc_run : ∃ d', FullRun refPipeline 1 plConfig wiDoc d' ∧ wiResult = some d' := by
  have hrun : ∃ d' ts', Cli.process (env refPipeline none (fun _ _ _ => .ok wiDoc) (fun _ => 0)) plConfig ⟨{}, none⟩ = .ok (0, ⟨d', ts'⟩) := by
    rcases pl_process (by decide) refPipeline_ok (fun _ _ _ => .ok wiDoc) (fun _ => 0) plConfig {} wiDoc none rfl wiDoc_parsed with
      ⟨d', ts', h, _⟩ | ⟨_, _, _, ⟨m, _, h⟩ | ⟨m, _, h⟩⟩
    · exact ⟨d', ts', h⟩
    · have : (Cli.process (env refPipeline none (fun _ _ _ => .ok wiDoc) (fun _ => 0)) plConfig ⟨{}, none⟩).isOk = true := by decide +kernel
      rw [h] at this; cases this
    · have : (Cli.process (env refPipeline none (fun _ _ _ => .ok wiDoc) (fun _ => 0)) plConfig ⟨{}, none⟩).isOk = true := by decide +kernel
      rw [h] at this; cases this
  obtain ⟨d', ts', hrun⟩ := hrun
  refine ⟨d', ⟨by decide, refPipeline_ok, fun st _ => rfl, wiDoc_parsed, ⟨_, _, _, _, _, rfl, hrun⟩⟩, ?_⟩
  unfold wiResult
  rw [hrun]

example : PagesNumbered wiDoc := by
  intro k p hk
  match k with
  | 0 =>
    simp only [wiDoc, plDoc, List.cons_append, List.nil_append, List.getElem?_cons_zero, Option.some.injEq] at hk
    subst hk
    simp [plGlyph]
  | 1 =>
    simp only [wiDoc, plDoc, List.cons_append, List.nil_append, List.getElem?_cons_succ, List.getElem?_cons_zero, Option.some.injEq] at hk
    subst hk
    simp [wiGlyph]
  | k + 2 => simp [wiDoc, plDoc] at hk

example : wiDoc.stats.avgCharWidth = 0 ∧ (wiDoc.pages.all fun p => p.characters.all fun c => decide (c.pos.leftX ≤ c.pos.rightX)) = true := by decide +kernel

set_option synthInstance.maxSize 2000 in
set_option synthInstance.maxHeartbeats 200000 in
/-- On the second page the second line is a child of the first one and the third one the sibling of the second. -/
example : wiResult.map (fun d => (d.pages.map lineNumbers, d.lines.map fun l => (l.prevLine, l.nextLine, l.link.parent, l.link.prevSibling, l.link.nextSibling))) =
    some ([[0, 1], [2, 3, 4]], [(none, some 1, none, none, some 1), (some 0, none, none, some 0, none), (none, some 3, none, none, none),
      (some 2, some 4, some 2, none, some 4), (some 3, none, some 2, some 3, none)]) := by decide +kernel

example : wiResult.map (fun d => Serialize.plainText allRoles (toSDoc d)) = some "a bcde f\n\ngh i\n\njk\n\nlm\n".toList := by decide +kernel

end Verif.Props

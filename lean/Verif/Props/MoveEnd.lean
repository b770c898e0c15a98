import Verif.Props.MoveRun

/-!
# C81: moving the contents — blocks, reading order, output
-/

namespace Verif.Props

open Verif.Math Verif.Elements Verif.Counter Verif.Spec Verif.Words Verif.TextLines Verif.Pipeline
open Verif.PageSegmentation (PElem)
open Verif.ReadingOrder (RElem Role)
open Verif.Cli (Stage StageConfig Env Config)

/-! ## Blocks -/

theorem mv_blocksDoc {n : ℕ} {dx dy : ℚ} (lib : Pipeline.Lib) {d : Document} (h : mv_DocOk n dx dy d) :
    mv_Docs d.lines.length dx dy (blocksDoc lib d) (blocksDoc lib (moveDoc dx dy d)) := by
  have el : (moveDoc dx dy d).lines = d.lines.map (moveTextLine dx dy) := rfl
  have ep : (moveDoc dx dy d).pages = d.pages.map (movePage dx dy) := rfl
  constructor
  case line =>
    intro i hi
    simp only [blocksDoc, el, List.getElem?_map, List.getElem?_eq_getElem hi, Option.map_some, Option.getD_some]
    rfl
  case out =>
    intro i hi
    simp only [blocksDoc, el, List.getElem?_map, List.getElem?_eq_none (Nat.le_of_not_lt hi), Option.map_none, Option.getD_none]
    exact ⟨trivial, trivial⟩
  case link =>
    funext i
    simp only [blocksDoc, el, List.getElem?_map]
    cases d.lines[i]? <;> rfl
  case seg =>
    intro i hi
    simp only [blocksDoc, el, List.getElem?_map, List.getElem?_eq_getElem hi, Option.map_some, Option.getD_some]
    rfl
  case figures =>
    intro k
    simp only [blocksDoc, ep, List.getElem?_map]
    cases d.pages[k.toNat - 1]? <;> rfl
  case movable =>
    intro i hi
    simp only [blocksDoc, List.getElem?_eq_getElem hi, Option.map_some, Option.getD_some]
    exact (h.lines _ (List.getElem_mem hi)).movable
  all_goals rfl

theorem mv_zipBlocks (dx dy : ℚ) (u : Role) (ps : List Page) : ∀ bss : List (List TextBlocks.Block),
    List.zipWith (fun (p : Page) bs => { p with blocks := p.blocks ++ bs.map fun b => (⟨b, u⟩ : TextBlock) })
      (ps.map (movePage dx dy)) (bss.map (List.map (moveBlock dx dy))) =
    (List.zipWith (fun (p : Page) bs => { p with blocks := p.blocks ++ bs.map fun b => (⟨b, u⟩ : TextBlock) }) ps bss).map (movePage dx dy) := by
  induction ps with
  | nil => intro bss; rfl
  | cons p ps ih =>
    intro bss
    cases bss with
    | nil => rfl
    | cons bs bss =>
      rw [List.map_cons, List.map_cons, List.zipWith_cons_cons, List.zipWith_cons_cons, List.map_cons, ih]
      congr 1
      simp only [movePage, List.map_append, List.map_map]
      rfl

theorem mv_zipBlocks_mem (u : Role) (ps : List Page) : ∀ bss : List (List TextBlocks.Block),
    ∀ p' ∈ List.zipWith (fun (p : Page) bs => { p with blocks := p.blocks ++ bs.map fun b => (⟨b, u⟩ : TextBlock) }) ps bss,
    ∃ p ∈ ps, ∃ bs ∈ bss, p' = { p with blocks := p.blocks ++ bs.map fun b => (⟨b, u⟩ : TextBlock) } := by
  induction ps with
  | nil => intro bss p' h; cases h
  | cons p ps ih =>
    intro bss p' h
    cases bss with
    | nil => cases h
    | cons bs bss =>
      rw [List.zipWith_cons_cons] at h
      rcases List.mem_cons.mp h with rfl | h
      · exact ⟨p, by simp, bs, by simp, rfl⟩
      · obtain ⟨q, h1, b, h2, e⟩ := ih bss p' h
        exact ⟨q, by simp [h1], b, by simp [h2], e⟩

theorem mv_blocksStage {n : ℕ} {dx dy : ℚ} {lib : Pipeline.Lib} {R : Ran} {d0 d : Document} (h : mv_DocOk n dx dy d) (hi : DocInv lib n R d0 d) :
    blocksStage lib (moveDoc dx dy d) = mapOk (moveDoc dx dy) (blocksStage lib d) ∧
    ∀ d', blocksStage lib d = .ok d' → mv_DocOk n dx dy d' := by
  have hids : ∀ p ∈ (d.pages.map fun p => p.segments.map (·.lines)), ∀ g ∈ p, ∀ i ∈ g, i < d.lines.length := by
    intro q hq g hg i hig
    obtain ⟨p, hp, rfl⟩ := List.mem_map.mp hq
    obtain ⟨s, hs, rfl⟩ := List.mem_map.mp hg
    have : i ∈ List.range d.lines.length := by
      rw [← hi.ranks]
      exact List.mem_flatMap.mpr ⟨p, hp, List.mem_flatMap.mpr ⟨s, hs, hig⟩⟩
    exact List.mem_range.mp this
  obtain ⟨h1, h2⟩ := mv_process (mv_blocksDoc lib h) lib.lines.hash hids h.links
  have e1 : ((moveDoc dx dy d).pages.map fun p => p.segments.map (·.lines)) = d.pages.map fun p => p.segments.map (·.lines) := by
    simp only [moveDoc, List.map_map]
    apply List.map_congr_left
    intro p _
    simp only [Function.comp_apply, movePage, List.map_map]
    rfl
  have e2 : blocksState (moveDoc dx dy d) = blocksState d := by
    have el : (moveDoc dx dy d).lines = d.lines.map (moveTextLine dx dy) := rfl
    unfold blocksState
    rw [el]
    congr 1
    · funext i; rw [List.getElem?_map]; cases d.lines[i]? <;> rfl
    · funext i; rw [List.getElem?_map]; cases d.lines[i]? <;> rfl
  have ep : (moveDoc dx dy d).pages = d.pages.map (movePage dx dy) := rfl
  constructor
  · unfold blocksStage
    rw [e1, e2, h1]
    cases TextBlocks.process lib.lines.hash (blocksDoc lib d) (blocksState d) (d.pages.map fun p => p.segments.map (·.lines)) with
    | throw m => rfl
    | ub m => rfl
    | ok r =>
      simp only [mapOk, Outcome.bind, ep, mv_zipBlocks]
      rfl
  · intro d' hd
    unfold blocksStage at hd
    cases hr : TextBlocks.process lib.lines.hash (blocksDoc lib d) (blocksState d) (d.pages.map fun p => p.segments.map (·.lines)) with
    | throw m => rw [hr] at hd; cases hd
    | ub m => rw [hr] at hd; cases hd
    | ok r =>
      rw [hr] at hd
      simp only [Outcome.bind, Outcome.ok.injEq] at hd
      subst hd
      have key := mv_zipBlocks_mem lib.uninitialised d.pages r.2
      refine ⟨fun p' hp' => ?_, fun p' hp' => ?_, fun p' hp' => ?_, fun p' hp' => ?_, h.lines, h.bases, h.links, fun p' hp' => ?_⟩
      all_goals obtain ⟨p, hp, bs, hbs, rfl⟩ := key p' hp'
      · exact h.glyphs p hp
      · exact h.boxes p hp
      · exact h.words p hp
      · exact h.segments p hp
      · intro b hb
        rcases List.mem_append.mp hb with hb | hb
        · exact h.blocks p hp b hb
        · obtain ⟨x, hx, rfl⟩ := List.mem_map.mp hb
          exact (h2 r hr bs hbs x hx).1

/-! ## Roles and reading order -/

theorem mv_assignRoles (dx dy : ℚ) (ps : List Page) : ∀ rs : List Role,
    assignRoles (ps.map (movePage dx dy)) rs = (assignRoles ps rs).map (movePage dx dy) := by
  induction ps with
  | nil => intro rs; rfl
  | cons p ps ih =>
    intro rs
    have e : (movePage dx dy p).blocks = p.blocks.map (moveTextBlock dx dy) := rfl
    rw [List.map_cons, assignRoles, assignRoles, List.map_cons, e, List.length_map, ih]
    congr 1
    have : List.zipWith (fun (b : TextBlock) r => { b with role := r }) (p.blocks.map (moveTextBlock dx dy)) (rs.take p.blocks.length) =
        (List.zipWith (fun (b : TextBlock) r => { b with role := r }) p.blocks (rs.take p.blocks.length)).map (moveTextBlock dx dy) := by
      rw [List.zipWith_map_left, List.map_zipWith]
      rfl
    rw [this]
    rfl

theorem mv_assignRoles_mem (ps : List Page) : ∀ (rs : List Role), ∀ p' ∈ assignRoles ps rs, ∃ p ∈ ps, p' = { p with blocks := p'.blocks } ∧
    ∀ b ∈ p'.blocks, ∃ b0 ∈ p.blocks, b.block = b0.block := by
  induction ps with
  | nil => intro rs p' h; cases h
  | cons p ps ih =>
    intro rs p' h
    rw [assignRoles] at h
    rcases List.mem_cons.mp h with rfl | h
    · refine ⟨p, by simp, rfl, ?_⟩
      intro b hb
      simp only at hb
      obtain ⟨i, hi, e⟩ := List.getElem_of_mem hb
      rw [List.getElem_zipWith] at e
      rw [List.length_zipWith] at hi
      exact ⟨p.blocks[i], List.getElem_mem (by omega), by rw [← e]⟩
    · obtain ⟨q, h1, h2⟩ := ih _ p' h
      exact ⟨q, by simp [h1], h2⟩

theorem mv_orderElems (dx dy : ℚ) (p : Page) : (orderElems (movePage dx dy p)).blocks = (orderElems p).blocks.map (moveRElem dx dy) ∧
    (orderElems (movePage dx dy p)).figures = (orderElems p).figures.map (moveRElem dx dy) ∧
    (orderElems (movePage dx dy p)).shapes = (orderElems p).shapes.map (moveRElem dx dy) := by
  refine ⟨?_, ?_, ?_⟩ <;> simp only [orderElems, movePage, mv_mapIdx_map, mv_map_mapIdx] <;> rfl

theorem mv_blockOf (dx dy : ℚ) (bs : List TextBlock) (e : RElem) :
    blockOf (bs.map (moveTextBlock dx dy)) (moveRElem dx dy e) = (blockOf bs e).map (moveTextBlock dx dy) := by
  cases e with
  | block i r b => simp only [moveRElem, blockOf, List.getElem?_map]
  | figure i b => rfl
  | shape i b => rfl

theorem mv_orderPage {n : ℕ} (hn : n ≤ 3) {dx dy : ℚ} {lib : Pipeline.Lib} (hl : LibContract RElem.pos lib.order)
    (hs : SteadyCuts (moveRElem dx dy) lib.order) (ht : ∀ l, lib.sortTop (l.map (moveRElem dx dy)) = (lib.sortTop l).map (moveRElem dx dy))
    (st : Statistics.Stats) {p : Page} (hb : ∀ b ∈ p.blocks, RoundedBox n b.block.pos ∧ Movable dx dy b.block.pos)
    (hf : ∀ b ∈ p.figures ++ p.graphics ++ p.shapes, RoundedBox n b ∧ Movable dx dy b) :
    orderPage lib st (movePage dx dy p) = movePage dx dy (orderPage lib st p) := by
  obtain ⟨hx, hy⟩ := c17_sorts_are_permutations hl hn
  obtain ⟨e1, e2, e3⟩ := mv_orderElems dx dy p
  have h := mv_pageOrder (dx := dx) (dy := dy) hs (Q := fun a => RoundedBox n a.pos ∧ Movable dx dy a.pos) (fun a ha => ha.2) (mv_permOn_and hx) (mv_permOn_and hy)
    ⟨st.avgCharWidth, st.avgCharHeight⟩ ht (bs := (orderElems p).blocks) (fs := (orderElems p).figures) (ss := (orderElems p).shapes) (by
      intro e he
      simp only [List.mem_append] at he
      rcases he with (he | he) | he <;> obtain ⟨i, hi, rfl⟩ := List.mem_mapIdx.mp he
      · exact hb _ (List.getElem_mem hi)
      all_goals exact hf _ (by simp [RElem.pos]))
  have eb : (movePage dx dy p).blocks = p.blocks.map (moveTextBlock dx dy) := rfl
  unfold orderPage
  rw [e1, e2, e3, h, eb]
  have : ∀ l : List RElem, (l.map (moveRElem dx dy)).filterMap (blockOf (p.blocks.map (moveTextBlock dx dy))) =
      (l.filterMap (blockOf p.blocks)).map (moveTextBlock dx dy) := by
    intro l
    rw [List.filterMap_map, List.map_filterMap]
    apply List.filterMap_congr
    intro e _
    exact mv_blockOf dx dy p.blocks e
  rw [this]
  rfl

theorem mv_orderPage_mem {lib : Pipeline.Lib} {st : Statistics.Stats} {p : Page} : ∀ b ∈ (orderPage lib st p).blocks, b ∈ p.blocks := by
  intro b hb
  unfold orderPage at hb
  obtain ⟨e, _, he⟩ := List.mem_filterMap.mp hb
  cases e with
  | block i r x => exact List.mem_of_getElem? he
  | figure i x => cases he
  | shape i x => cases he

theorem mv_orderStage {n : ℕ} (hn : n ≤ 3) {dx dy : ℚ} {lib : Pipeline.Lib} (hl : LibContract RElem.pos lib.order)
    (hs : SteadyCuts (moveRElem dx dy) lib.order) (ht : ∀ l, lib.sortTop (l.map (moveRElem dx dy)) = (lib.sortTop l).map (moveRElem dx dy))
    {R : Ran} {d0 d : Document} (h : mv_DocOk n dx dy d) (hi : DocInv lib n R d0 d) (hb : BoxesOk n d0)
    (hroles : predictRoles lib (moveDoc dx dy d) = predictRoles lib d) :
    orderStage lib (moveDoc dx dy d) = mapOk (moveDoc dx dy) (orderStage lib d) ∧
    ∀ d', orderStage lib d = .ok d' → mv_DocOk n dx dy d' := by
  have es : (moveDoc dx dy d).stats = d.stats := rfl
  have ep : (moveDoc dx dy d).pages = d.pages.map (movePage dx dy) := rfl
  have hblocks : ∀ p ∈ d.pages, ∀ b ∈ p.blocks, RoundedBox n b.block.pos := by
    intro p hp b hbm
    obtain ⟨p0, _, hpi⟩ := pl_forall₂_right hi.pages p hp
    have hx := hpi.blocks
    by_cases hR : R.blocks = true
    · rw [if_pos hR] at hx; exact (hx.2 b hbm).1.rounded
    · rw [if_neg hR] at hx; rw [hx] at hbm; cases hbm
  have hboxes : ∀ p ∈ d.pages, ∀ b ∈ p.figures ++ p.graphics ++ p.shapes, RoundedBox n b ∧ Movable dx dy b := by
    intro p hp b hbm
    obtain ⟨p0, hp0, hpi⟩ := pl_forall₂_right hi.pages p hp
    refine ⟨hb p0 hp0 b ?_, h.boxes p hp b hbm⟩
    rw [← hpi.figures, ← hpi.graphics, ← hpi.shapes]; exact hbm
  constructor
  · unfold orderStage
    rw [hroles, es, ep]
    cases predictRoles lib d with
    | throw m => rfl
    | ub m => rfl
    | ok rs =>
      simp only [Outcome.bind, mapOk, mv_assignRoles, Outcome.ok.injEq]
      unfold moveDoc
      simp only [List.map_map]
      congr 1
      apply List.map_congr_left
      intro p' hp'
      obtain ⟨p, hp, e, hbl⟩ := mv_assignRoles_mem d.pages rs p' hp'
      refine mv_orderPage hn hl hs ht d.stats ?_ ?_
      · intro b hbm
        obtain ⟨b0, g1, g2⟩ := hbl b hbm
        rw [g2]; exact ⟨hblocks p hp b0 g1, h.blocks p hp b0 g1⟩
      · rw [e]; exact hboxes p hp
  · intro d' hd
    unfold orderStage at hd
    cases hr : predictRoles lib d with
    | throw m => rw [hr] at hd; cases hd
    | ub m => rw [hr] at hd; cases hd
    | ok rs =>
      rw [hr] at hd
      simp only [Outcome.bind, Outcome.ok.injEq] at hd
      subst hd
      refine ⟨fun p' hp' => ?_, fun p' hp' => ?_, fun p' hp' => ?_, fun p' hp' => ?_, h.lines, h.bases, h.links, fun p' hp' => ?_⟩
      all_goals
        obtain ⟨q, hq, rfl⟩ := List.mem_map.mp hp'
        obtain ⟨p, hp, e, hbl⟩ := mv_assignRoles_mem d.pages rs q hq
      · show ∀ c ∈ q.characters, _
        rw [e]; exact h.glyphs p hp
      · show ∀ c ∈ q.figures ++ q.graphics ++ q.shapes, _
        rw [e]; exact h.boxes p hp
      · show ∀ c ∈ q.words, _
        rw [e]; exact h.words p hp
      · show ∀ c ∈ q.segments, _
        rw [e]; exact h.segments p hp
      · intro b hbm
        obtain ⟨b0, g1, g2⟩ := hbl b (mv_orderPage_mem b hbm)
        rw [g2]; exact h.blocks p hp b0 g1

/-! ## Output -/

/-- A word of the output without its boxes. -/
def mv_bareWord (w : Serialize.SWord) : Serialize.SWord := { w with pos := {}, chars := w.chars.map fun c => { c with pos := {} } }

/-- A block of the output without its boxes. -/
def mv_bareBlock (b : Serialize.SBlock) : Serialize.SBlock := { b with pos := {}, lines := b.lines.map fun l => ⟨l.words.map mv_bareWord⟩ }

theorem mv_toSWord (dx dy : ℚ) (h : Dehyphenation.Flags) (k : ℕ) (w : Word) :
    mv_bareWord (toSWord h k (moveWord dx dy w)) = mv_bareWord (toSWord h k w) := by
  simp only [mv_bareWord, toSWord, moveWord, wordUid, List.map_map]
  rfl

theorem mv_lineWords (dx dy : ℚ) (d : Document) (i : ℕ) : (((moveDoc dx dy d).lines[i]?).map fun l => l.line.words).getD [] =
    (((d.lines[i]?).map fun l => l.line.words).getD []).map (moveWord dx dy) := by
  have el : (moveDoc dx dy d).lines = d.lines.map (moveTextLine dx dy) := rfl
  rw [el, List.getElem?_map]
  cases d.lines[i]? <;> rfl

theorem mv_toSBlock (dx dy : ℚ) (d : Document) (k : ℕ) (b : TextBlock) :
    mv_bareBlock (toSBlock (moveDoc dx dy d) k (moveTextBlock dx dy b)) = mv_bareBlock (toSBlock d k b) := by
  have e : (moveTextBlock dx dy b).block.lines = b.block.lines := rfl
  have eh : (moveDoc dx dy d).hyphens = d.hyphens := rfl
  simp only [mv_bareBlock, toSBlock, e, eh, mv_lineWords, List.map_map, Function.comp_def, mv_toSWord]
  rfl

theorem mv_toSPages (dx dy : ℚ) (d : Document) : (toSDoc (moveDoc dx dy d)).pages.map (fun p => p.blocks.map mv_bareBlock) =
    (toSDoc d).pages.map (fun p => p.blocks.map mv_bareBlock) := by
  have ep : (moveDoc dx dy d).pages = d.pages.map (movePage dx dy) := rfl
  simp only [toSDoc, ep, mv_mapIdx_map, mv_map_mapIdx]
  apply List.ext_getElem?
  intro i
  rw [List.getElem?_mapIdx, List.getElem?_mapIdx]
  cases d.pages[i]? with
  | none => rfl
  | some p =>
    simp only [Option.map_some, Option.some.injEq, toSPage, movePage, List.map_map]
    apply List.map_congr_left
    intro b _
    exact mv_toSBlock dx dy d i b

theorem mv_writeWords (ws : List Serialize.SWord) : ∀ prev, Serialize.writeWords prev (ws.map mv_bareWord) = Serialize.writeWords prev ws := by
  induction ws with
  | nil => intro prev; rfl
  | cons w ws ih =>
    intro prev
    have e : Serialize.wordOut (mv_bareWord w) = Serialize.wordOut w := by
      unfold Serialize.wordOut mv_bareWord
      simp only [List.flatMap_map]
      cases w.first <;> rfl
    have e2 : (mv_bareWord w).second = w.second := rfl
    rw [List.map_cons, Serialize.writeWords, Serialize.writeWords, ih, ih, e, e2]

theorem mv_writeBlocks (roles : List Role) (head : Serialize.SBlock → Text.Str) (hh : ∀ b, head (mv_bareBlock b) = head b) (bs : List Serialize.SBlock) :
    ∀ prev, Serialize.writeBlocks roles head prev (bs.map mv_bareBlock) = Serialize.writeBlocks roles head prev bs := by
  induction bs with
  | nil => intro prev; rfl
  | cons b bs ih =>
    intro prev
    have e : Serialize.selected roles (mv_bareBlock b) = Serialize.selected roles b := rfl
    have ew : (mv_bareBlock b).words = b.words.map mv_bareWord := by
      simp only [Serialize.SBlock.words, mv_bareBlock, List.flatMap_map, List.map_flatMap]
    rw [List.map_cons, Serialize.writeBlocks, Serialize.writeBlocks, ih, ih, e, hh, ew, mv_writeWords]

theorem mv_writePages (roles : List Role) (head : Serialize.SBlock → Text.Str) (hh : ∀ b, head (mv_bareBlock b) = head b) (foot : Text.Str)
    (ps : List Serialize.SPage) : ∀ (ps' : List Serialize.SPage) prev, ps'.map (fun p => p.blocks.map mv_bareBlock) = ps.map (fun p => p.blocks.map mv_bareBlock) →
    Serialize.writePages roles head foot prev ps' = Serialize.writePages roles head foot prev ps := by
  induction ps with
  | nil => intro ps' prev h; cases ps' with
    | nil => rfl
    | cons => cases h
  | cons p ps ih =>
    intro ps' prev h
    cases ps' with
    | nil => cases h
    | cons p' ps' =>
      simp only [List.map_cons, List.cons.injEq] at h
      have e : Serialize.writeBlocks roles head prev p'.blocks = Serialize.writeBlocks roles head prev p.blocks := by
        rw [← mv_writeBlocks roles head hh p'.blocks, h.1, mv_writeBlocks roles head hh]
      rw [Serialize.writePages, Serialize.writePages, e, ih ps' _ h.2]

theorem mv_text (dx dy : ℚ) (roles : List Role) (d : Document) :
    Serialize.plainText roles (toSDoc (moveDoc dx dy d)) = Serialize.plainText roles (toSDoc d) ∧
    Serialize.plainTextExtended roles (toSDoc (moveDoc dx dy d)) = Serialize.plainTextExtended roles (toSDoc d) := by
  constructor
  · unfold Serialize.plainText
    rw [mv_writePages roles _ (fun _ => rfl) _ _ _ _ (mv_toSPages dx dy d)]
  · unfold Serialize.plainTextExtended
    rw [mv_writePages roles _ (fun _ => rfl) _ _ _ _ (mv_toSPages dx dy d)]

/-! ## Dehyphenation -/

/-- A line of the output without its boxes. -/
def mv_bareLine (l : Serialize.SLine) : Serialize.SLine := ⟨l.words.map mv_bareWord⟩

theorem mv_dehyphenStep (st : Dehyphenation.Flags × Option Serialize.SLine) (l : Serialize.SLine) :
    Dehyphenation.step (st.1, st.2.map mv_bareLine) (mv_bareLine l) =
      ((Dehyphenation.step st l).1, (Dehyphenation.step st l).2.map mv_bareLine) := by
  obtain ⟨f, prev⟩ := st
  obtain ⟨ws⟩ := l
  unfold Dehyphenation.step
  cases ws with
  | nil => rfl
  | cons w ws =>
    cases prev with
    | none => rfl
    | some prev =>
      simp only [mv_bareLine, Option.map_some, List.map_cons, List.getLast?_map]
      cases prev.words.getLast? with
      | none => rfl
      | some q =>
        have e : Dehyphenation.mergedText (mv_bareWord q).text (mv_bareWord w).text = Dehyphenation.mergedText q.text w.text := rfl
        simp only [Option.map_some, e]
        cases Dehyphenation.mergedText q.text w.text <;> rfl

theorem mv_dehyphenFold (ls : List Serialize.SLine) : ∀ (st : Dehyphenation.Flags × Option Serialize.SLine),
    (ls.map mv_bareLine).foldl Dehyphenation.step (st.1, st.2.map mv_bareLine) =
      ((ls.foldl Dehyphenation.step st).1, (ls.foldl Dehyphenation.step st).2.map mv_bareLine) := by
  induction ls with
  | nil => intro st; rfl
  | cons l ls ih => intro st; rw [List.map_cons, List.foldl_cons, List.foldl_cons, mv_dehyphenStep, ih]

theorem mv_allLines (d : Serialize.SDoc) : (Dehyphenation.allLines d).map mv_bareLine =
    ((d.pages.map fun p => p.blocks.map mv_bareBlock).flatMap fun bs => bs.flatMap (·.lines)) := by
  unfold Dehyphenation.allLines
  rw [List.map_flatMap, List.flatMap_map]
  apply List.flatMap_congr
  intro p _
  rw [List.map_flatMap, List.flatMap_map]
  rfl

theorem mv_dehyphenationStage (dx dy : ℚ) (d : Document) : dehyphenationStage (moveDoc dx dy d) = mapOk (moveDoc dx dy) (dehyphenationStage d) := by
  have e : (Dehyphenation.allLines (toSDoc (moveDoc dx dy d))).map mv_bareLine = (Dehyphenation.allLines (toSDoc d)).map mv_bareLine := by
    rw [mv_allLines, mv_allLines, mv_toSPages]
  have h1 := mv_dehyphenFold (Dehyphenation.allLines (toSDoc (moveDoc dx dy d))) (d.hyphens, none)
  have h2 := mv_dehyphenFold (Dehyphenation.allLines (toSDoc d)) (d.hyphens, none)
  rw [e, h2] at h1
  have h3 := congrArg Prod.fst h1
  simp only at h3
  have eh : (moveDoc dx dy d).hyphens = d.hyphens := rfl
  unfold dehyphenationStage
  rw [eh, ← h3]
  rfl

end Verif.Props

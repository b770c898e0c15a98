import Verif.Spec.Prediction
import Verif.Props.Switches

/-!
# C90: what the prediction of the roles can change
-/

namespace Verif.Props

open Verif.Math Verif.Elements Verif.Spec Verif.XYCut Verif.ReadingOrder
open Verif.Pipeline (Document TextBlock)

/-! ## Relabelled blocks are read in the same order -/

/-- The function keeps everything the reading order detection looks at. -/
structure ro_Keeps (f : RElem → RElem) : Prop where
  pos : ∀ e, (f e).pos = e.pos
  isBlock : ∀ e, (f e).isBlock = e.isBlock
  role : ∀ t ∈ separatingRoles, ∀ e, (f e).hasRole t = e.hasRole t

theorem ro_moveBox (b : Box) : moveBox 0 0 b = b := by simp [moveBox]

section

variable {f : RElem → RElem} (hf : ro_Keeps f)
include hf

theorem ro_pos (e : RElem) : (f e).pos = moveBox 0 0 e.pos := by rw [ro_moveBox, hf.pos]

theorem ro_isTurned (e : RElem) : (f e).isTurnedBlock = e.isTurnedBlock := by
  have h : ∀ e : RElem, e.isTurnedBlock = (e.isBlock && (decide (e.pos.wMode ≠ 0) || decide (e.pos.rotation ≠ 0))) := by
    intro e; cases e <;> rfl
  rw [h, h, hf.pos, hf.isBlock]

theorem ro_extent (es : List RElem) (x : Extent) : (es.map f).foldl Extent.add x = es.foldl Extent.add x := by
  rw [List.foldl_map]
  congr 1
  funext x e
  simp only [Extent.add, hf.pos]

theorem ro_isPrimaryX (st : Stats) (x : Extent) (c : Cut RElem) : isPrimaryX st x (moveCut f 0 0 c) = isPrimaryX st x c := by
  have h1 : (moveCut f 0 0 c).elementBefore = f c.elementBefore := rfl
  have h2 : (moveCut f 0 0 c).elementAfter = f c.elementAfter := rfl
  simp only [isPrimaryX, isVerticalRule, h1, h2, ro_isTurned hf, hf.isBlock, hf.pos]

theorem ro_isPrimaryY (st : Stats) (x : Extent) (c : Cut RElem) : isPrimaryY st x (moveCut f 0 0 c) = isPrimaryY st x c := by
  have h1 : (moveCut f 0 0 c).elementBefore = f c.elementBefore := rfl
  have h2 : (moveCut f 0 0 c).elementAfter = f c.elementAfter := rfl
  simp only [isPrimaryY, isHorizontalRule, h1, h2, hf.isBlock, hf.pos, hf.role .title (by decide), hf.role .authorInfo (by decide), hf.role .marginal (by decide)]

theorem ro_choosePrimaryX (st : Stats) (x : Extent) (Q : RElem → Prop) : mv_Choose f 0 0 Q (choosePrimaryXCuts st x) (choosePrimaryXCuts st x) := by
  intro cuts s i _
  simp only [choosePrimaryXCuts, List.isEmpty_map, List.getElem?_map]
  cases cuts[i]? with
  | none => rfl
  | some c => simp only [Option.map_some, ro_isPrimaryX hf]

theorem ro_choosePrimaryY (st : Stats) (x : Extent) (Q : RElem → Prop) : mv_Choose f 0 0 Q (choosePrimaryYCuts st x) (choosePrimaryYCuts st x) := by
  intro cuts s i _
  simp only [choosePrimaryYCuts, List.isEmpty_map, List.getElem?_map]
  cases cuts[i]? with
  | none => rfl
  | some c => simp only [Option.map_some, ro_isPrimaryY hf]

omit hf in
theorem ro_chooseAll (Q : RElem → Prop) : mv_Choose f 0 0 Q chooseXCuts chooseXCuts := fun _ _ _ _ => rfl

variable {lib : XYCut.Lib RElem} (hl : SteadyCuts f lib) {Q : RElem → Prop}
include hl

theorem ro_canXCut (hp : PermOn Q lib.sortLeftX) {g : List RElem} (hg : ∀ e ∈ g, Q e) : canXCut lib (g.map f) = canXCut lib g := by
  simp only [canXCut]
  rw [mv_xCut (ro_pos hf) hl (fun _ _ => .inr ⟨rfl, rfl⟩) hp (ro_chooseAll Q) _ _ hg]
  rfl

theorem ro_orderChooseY (hp : PermOn Q lib.sortLeftX) : mv_Choose f 0 0 Q (chooseYCuts lib) (chooseYCuts lib) := by
  intro cuts s i hs
  simp only [chooseYCuts, List.isEmpty_map, List.length_map, chooseYIndices, List.getElem?_map, Option.map_map, Function.comp_def, moveCut,
    ← List.map_drop, ← List.map_take]
  have h1 : ∀ a, canXCut lib ((s.drop a).map f) = canXCut lib (s.drop a) := fun a => ro_canXCut hf hl hp fun e he => hs e (List.mem_of_mem_drop he)
  have h2 : ∀ a, canXCut lib ((s.take a).map f) = canXCut lib (s.take a) := fun a => ro_canXCut hf hl hp fun e he => hs e (List.mem_of_mem_take he)
  have h3 : ∀ a b, canXCut lib (((s.take b).drop a).map f) = canXCut lib ((s.take b).drop a) := fun a b =>
    ro_canXCut hf hl hp fun e he => hs e (List.mem_of_mem_take (List.mem_of_mem_drop he))
  simp only [h1, h2, h3]

theorem ro_divideXGroup (hpx : PermOn Q lib.sortLeftX) (hpy : PermOn Q lib.sortUpperY) (st : Stats) (x : Extent) {g : List RElem} (hg : ∀ e ∈ g, Q e) :
    divideXGroup st x lib (g.map f) = (divideXGroup st x lib g).map (List.map f) := by
  simp only [divideXGroup]
  rw [mv_yCut (ro_pos hf) hl (fun _ _ => .inr ⟨rfl, rfl⟩) hpy (ro_choosePrimaryY hf st x Q) _ hg]
  have hmem := mv_yCut_mem (pos := RElem.pos) (lib := lib) hpy (choose := choosePrimaryYCuts st x) (g := minYCutGapHeight) hg
  simp only [mv_result]
  generalize (yCut RElem.pos lib minYCutGapHeight (choosePrimaryYCuts st x) g).groups = gs at hmem ⊢
  rw [List.flatMap_map, List.map_flatMap]
  apply List.flatMap_congr
  intro a ha
  rw [mv_xyCut (f := f) (dx := 0) (dy := 0) (P := params lib) (P' := params lib) ⟨rfl, rfl, rfl, rfl, rfl⟩ (ro_pos hf) hl (fun _ _ => .inr ⟨rfl, rfl⟩) hpx hpy
    (ro_chooseAll Q) (ro_orderChooseY hf hl hpx) (hmem a ha)]
  rfl

theorem ro_pageGroups (hpx : PermOn Q lib.sortLeftX) (hpy : PermOn Q lib.sortUpperY) (st : Stats) {es : List RElem} (hes : ∀ e ∈ es, Q e) :
    pageGroups st lib (es.map f) = (pageGroups st lib es).map (List.map f) := by
  simp only [pageGroups]
  rw [ro_extent hf, mv_xCut (ro_pos hf) hl (fun _ _ => .inr ⟨rfl, rfl⟩) hpx (ro_choosePrimaryX hf st _ Q) _ _ hes]
  have hmem := mv_xCut_mem (pos := RElem.pos) (lib := lib) hpx (choose := choosePrimaryXCuts st (es.foldl Extent.add {}))
    (g := minXCutGapWidth) (m := 0) hes
  simp only [mv_result]
  generalize (xCut RElem.pos lib minXCutGapWidth 0 (choosePrimaryXCuts st (es.foldl Extent.add {})) es).groups = gs at hmem ⊢
  rw [List.flatMap_map, List.map_flatMap]
  apply List.flatMap_congr
  intro a ha
  exact ro_divideXGroup hf hl hpx hpy st _ (hmem a ha)

theorem ro_pageOrder (hpx : PermOn Q lib.sortLeftX) (hpy : PermOn Q lib.sortUpperY) (st : Stats) {sort : List RElem → List RElem}
    (hsort : ∀ l, sort (l.map f) = (sort l).map f) {bs fs ss : List RElem} (hes : ∀ e ∈ bs ++ fs ++ ss, Q e) :
    pageOrder st lib sort (bs.map f) (fs.map f) (ss.map f) = (pageOrder st lib sort bs fs ss).map f := by
  simp only [pageOrder, ← List.map_append]
  rw [ro_pageGroups hf hl hpx hpy st hes, List.flatMap_map, List.map_flatMap]
  apply List.flatMap_congr
  intro g _
  simp only [hsort, List.filter_map, Function.comp_def, hf.isBlock]

end

/-! ## Pages -/

/-- Giving block number `i` the role `g i`, unless this would confuse separating roles. -/
def ro_relabel (g : ℕ → Role) : RElem → RElem
  | .block i r p => .block i (if ∀ t ∈ separatingRoles, (r = t ↔ g i = t) then g i else r) p
  | .figure i p => .figure i p
  | .shape i p => .shape i p

theorem ro_relabel_keeps (g : ℕ → Role) : ro_Keeps (ro_relabel g) := by
  refine ⟨fun e => by cases e <;> rfl, fun e => by cases e <;> rfl, fun t ht e => ?_⟩
  cases e with
  | figure i p => rfl
  | shape i p => rfl
  | block i r p =>
    show RElem.hasRole t (.block i (if ∀ t ∈ separatingRoles, (r = t ↔ g i = t) then g i else r) p) = _
    by_cases h : ∀ t ∈ separatingRoles, (r = t ↔ g i = t)
    · rw [if_pos h]
      simp only [RElem.hasRole]
      exact decide_eq_decide.mpr (h t ht).symm
    · rw [if_neg h]

/-- The same block with a related role. -/
def ro_Block (R : Role → Role → Prop) (b b' : TextBlock) : Prop := b'.block = b.block ∧ R b.role b'.role

/-- The same page, with related roles of the blocks. -/
def ro_Page (R : Role → Role → Prop) (p q : Pipeline.Page) : Prop :=
  q = { p with blocks := q.blocks, textLines := q.textLines } ∧ q.textLines = p.textLines ∧ List.Forall₂ (ro_Block R) p.blocks q.blocks

theorem ro_forall₂_get {α : Type} {R : α → α → Prop} {l m : List α} (h : List.Forall₂ R l m) (i : ℕ) :
    (l[i]? = none ∧ m[i]? = none) ∨ ∃ a b, l[i]? = some a ∧ m[i]? = some b ∧ R a b := by
  induction h generalizing i with
  | nil => left; simp
  | cons hab _ ih =>
    cases i with
    | zero => right; exact ⟨_, _, rfl, rfl, hab⟩
    | succ i => simpa using ih i

theorem ro_orderPage {n : ℕ} (hn : n ≤ 3) {lib : Pipeline.Lib} (hl : LibOk lib) (hs : LooksAtPositions lib) {R : Role → Role → Prop} (hR : KeepsSeparators R)
    (st : Statistics.Stats) {p q : Pipeline.Page} (hpq : ro_Page R p q)
    (hb : ∀ b ∈ p.blocks, PageBox n b.block.pos) (hfs : ∀ b ∈ p.figures ++ p.graphics ++ p.shapes, RoundedBox n b) :
    ro_Page R (Pipeline.orderPage lib st p) (Pipeline.orderPage lib st q) := by
  obtain ⟨hsame, htl, hblocks⟩ := hpq
  have hfig : q.figures = p.figures := by rw [hsame]
  have hsh : q.shapes = p.shapes := by rw [hsame]
  obtain ⟨hx, hy⟩ := c17_sorts_are_permutations hl.order hn
  let g : ℕ → Role := fun i => ((q.blocks[i]?).map (·.role)).getD .other
  have hk := ro_relabel_keeps g
  have h := ro_pageOrder hk (hs.order _ hk.pos) hx hy ⟨st.avgCharWidth, st.avgCharHeight⟩ (hs.sortTop _ hk.pos)
    (bs := (Pipeline.orderElems p).blocks) (fs := (Pipeline.orderElems p).figures) (ss := (Pipeline.orderElems p).shapes) (by
      intro e he
      simp only [List.mem_append] at he
      rcases he with (he | he) | he <;> obtain ⟨i, hi, rfl⟩ := List.mem_mapIdx.mp he
      · exact (hb _ (List.getElem_mem hi)).rounded
      all_goals exact hfs _ (by simp [RElem.pos]))
  have e1 : (Pipeline.orderElems p).blocks.map (ro_relabel g) = (Pipeline.orderElems q).blocks := by
    apply List.ext_getElem?
    intro i
    simp only [Pipeline.orderElems, List.getElem?_map, List.getElem?_mapIdx, Option.map_map]
    rcases ro_forall₂_get hblocks i with ⟨h1, h2⟩ | ⟨a, b, h1, h2, h3, h4⟩
    · rw [h1, h2]; rfl
    · rw [h1, h2]
      have hg : g i = b.role := by show ((q.blocks[i]?).map (·.role)).getD .other = _; rw [h2]; rfl
      simp only [Option.map_some, Function.comp_apply, ro_relabel, hg]
      rw [if_pos (hR _ _ h4), h3]
  have e2 : (Pipeline.orderElems p).figures.map (ro_relabel g) = (Pipeline.orderElems q).figures := by
    simp only [Pipeline.orderElems, hfig, mv_map_mapIdx]
    rfl
  have e3 : (Pipeline.orderElems p).shapes.map (ro_relabel g) = (Pipeline.orderElems q).shapes := by
    simp only [Pipeline.orderElems, hsh, mv_map_mapIdx]
    rfl
  rw [e1, e2, e3] at h
  refine ⟨?_, htl, ?_⟩
  · unfold Pipeline.orderPage
    rw [hsame]
  · unfold Pipeline.orderPage
    rw [h]
    show List.Forall₂ _ (List.filterMap _ _) (List.filterMap _ _)
    generalize (pageOrder ⟨st.avgCharWidth, st.avgCharHeight⟩ lib.order lib.sortTop (Pipeline.orderElems p).blocks (Pipeline.orderElems p).figures
      (Pipeline.orderElems p).shapes) = es
    induction es with
    | nil => exact .nil
    | cons e es ih =>
      have hstep : ∀ (x y : Option TextBlock), (x = none ∧ y = none ∨ ∃ a b, x = some a ∧ y = some b ∧ ro_Block R a b) →
          Pipeline.blockOf p.blocks e = x → Pipeline.blockOf q.blocks (ro_relabel g e) = y →
          List.Forall₂ (ro_Block R) ((e :: es).filterMap (Pipeline.blockOf p.blocks)) (((e :: es).map (ro_relabel g)).filterMap (Pipeline.blockOf q.blocks)) := by
        intro x y hxy hx hy
        rw [List.map_cons, List.filterMap_cons, List.filterMap_cons, hx, hy]
        rcases hxy with ⟨rfl, rfl⟩ | ⟨a, b, rfl, rfl, hab⟩
        · exact ih
        · exact .cons hab ih
      cases e with
      | figure i b => exact hstep none none (.inl ⟨rfl, rfl⟩) rfl rfl
      | shape i b => exact hstep none none (.inl ⟨rfl, rfl⟩) rfl rfl
      | block i r b => exact hstep _ _ (ro_forall₂_get hblocks i) rfl rfl

theorem ro_assignRoles {R : Role → Role → Prop} : ∀ (ps : List Pipeline.Page) (rs rs' : List Role), List.Forall₂ R rs rs' →
    rs.length = (ps.flatMap (·.blocks)).length → List.Forall₂ (ro_Page R) (Pipeline.assignRoles ps rs) (Pipeline.assignRoles ps rs') := by
  intro ps
  induction ps with
  | nil => intro rs rs' _ _; exact .nil
  | cons p ps ih =>
    intro rs rs' h hlen
    rw [List.flatMap_cons, List.length_append] at hlen
    unfold Pipeline.assignRoles
    refine .cons ⟨rfl, rfl, ?_⟩ (ih _ _ (List.forall₂_drop _ h) (by rw [List.length_drop]; omega))
    have hl : (rs.take p.blocks.length).length = p.blocks.length := by rw [List.length_take]; omega
    have hr := List.forall₂_take p.blocks.length h
    generalize rs.take p.blocks.length = r at hl hr
    generalize rs'.take p.blocks.length = r' at hr
    show List.Forall₂ (ro_Block R) (List.zipWith _ p.blocks r) (List.zipWith _ p.blocks r')
    generalize p.blocks = bs at hl
    induction hr generalizing bs with
    | nil => simp only [List.zipWith_nil_right]; exact .nil
    | cons hab _ ih2 =>
      cases bs with
      | nil => exact .nil
      | cons b bs => exact .cons ⟨rfl, hab⟩ (ih2 bs (by simpa using hl))

/-! ## Runs -/

open Verif.Pipeline Verif.Serialize
open Verif.Cli (Stage StageConfig Env Config)

variable {lib : Pipeline.Lib} {n : ℕ} {cfg : Config} {parse : StageConfig → Bool → Document → Outcome Document} {dur : ℕ → ℕ}
  {net : ℕ × List ℚ → List Roles.FPage → Outcome (ℕ × List (Option ℚ))}

theorem ro_core (d : Document) : sw_core (withNetwork lib net) parse dur cfg d = sw_core lib parse dur cfg d := by
  have hs : ∀ acw ws ss k, linesOfSegments (withNetwork lib net) acw ws k ss = linesOfSegments lib acw ws k ss := by
    intro acw ws ss
    induction ss with
    | nil => intro k; rfl
    | cons x ss ih =>
      intro k
      unfold linesOfSegments
      simp only [ih]
      rfl
  have hl : ∀ acw ps k, linesPages (withNetwork lib net) acw k ps = linesPages lib acw k ps := by
    intro acw ps
    induction ps with
    | nil => intro k; rfl
    | cons p ps ih =>
      intro k
      unfold linesPages
      simp only [ih, hs]
  have hst : ∀ st, st ≠ .readingOrder → stage (withNetwork lib net) st = stage lib st := by
    intro st h
    cases st with
    | readingOrder => exact absurd rfl h
    | lines =>
      funext d
      show linesStage (withNetwork lib net) d = linesStage lib d
      unfold linesStage
      rw [hl]
    | _ => rfl
  have hss : ∀ st, st ≠ .readingOrder → stageSteps (env (withNetwork lib net) none parse dur) cfg st = stageSteps (env lib none parse dur) cfg st := by
    intro st h
    have e : ∀ a b, (env (withNetwork lib net) none parse dur).stage st a b = (env lib none parse dur).stage st a b := fun a b => hst st h
    unfold stageSteps
    simp only [e]
    rfl
  unfold sw_core
  simp only [List.flatMap_cons, List.flatMap_nil]
  rw [hss .glyphStatistics (by decide), hss .diacritics (by decide), hss .words (by decide), hss .wordStatistics (by decide), hss .segmentation (by decide),
    hss .lines (by decide), hss .scripts (by decide), hss .lineStatistics (by decide), hss .blocks (by decide)]

theorem ro_before {d d0 e : Document} (hparse : parse cfg.parsing cfg.skipFontFiles d = .ok d0) (he : sw_core lib parse dur cfg d = .ok e) : BeforeOrder lib cfg d0 e := by
  unfold sw_core at he
  rw [pl_runAll_append, runAll, hparse] at he
  exact he

theorem ro_libOk (hl : LibOk lib) : LibOk (withNetwork lib net) := ⟨hl.lines, hl.seg, hl.order, hl.sortTop⟩

/-- The hyphens do not depend on the roles. -/
theorem ro_end {R : Role → Role → Prop} {d d' : Document} (hl : d'.lines = d.lines) (hh : d'.hyphens = d.hyphens) (hf : d'.fontInfos = d.fontInfos)
    (h : List.Forall₂ (ro_Page R) d.pages d'.pages) : SameButRoles R (toSDoc (sw_end cfg d)) (toSDoc (sw_end cfg d')) := by
  have hal : Dehyphenation.allLines (toSDoc d') = Dehyphenation.allLines (toSDoc d) := by
    have hP : List.Forall₂ (fun p p' : SPage => p.blocks.map (·.lines) = p'.blocks.map (·.lines)) (toSDoc d).pages (toSDoc d').pages := by
      refine sw_forall₂_mapIdx h fun k p q hpq => ?_
      obtain ⟨_, _, hb⟩ := hpq
      simp only [toSPage, List.map_map]
      generalize p.blocks = bs at hb
      generalize q.blocks = bs' at hb
      induction hb with
      | nil => rfl
      | cons hab _ ih =>
        rw [List.map_cons, List.map_cons, ih]
        congr 1
        simp only [Function.comp_apply, toSBlock, hab.1, hl, hh]
    have key : ∀ l m : List SPage, List.Forall₂ (fun p p' : SPage => p.blocks.map (·.lines) = p'.blocks.map (·.lines)) l m →
        (m.flatMap fun p => p.blocks.flatMap (·.lines)) = l.flatMap fun p => p.blocks.flatMap (·.lines) := by
      intro l m hlm
      induction hlm with
      | nil => rfl
      | cons hab _ ih =>
        rw [List.flatMap_cons, List.flatMap_cons, ih, List.flatMap_def, List.flatMap_def (l := SPage.blocks _), ← hab]
    exact key _ _ hP
  have hend : (sw_end cfg d').hyphens = (sw_end cfg d).hyphens := by
    unfold sw_end
    by_cases hE : Enabled cfg .dehyphenation
    · rw [if_pos hE, if_pos hE]
      show (List.foldl Dehyphenation.step (d'.hyphens, none) (Dehyphenation.allLines (toSDoc d'))).1 = _
      rw [hal, hh]
      rfl
    · rw [if_neg hE, if_neg hE]; exact hh
  obtain ⟨a1, a2, a3⟩ := sw_end_same (cfg := cfg) d
  obtain ⟨b1, b2, b3⟩ := sw_end_same (cfg := cfg) d'
  generalize sw_end cfg d = x at *
  generalize sw_end cfg d' = y at *
  refine ⟨by unfold toSDoc; rw [a3, b3, hf], ?_⟩
  have hp : List.Forall₂ (fun p q : Pipeline.Page => q = { p with blocks := q.blocks, textLines := q.textLines } ∧ List.Forall₂ (ro_Block R) p.blocks q.blocks) x.pages y.pages := by
    rw [a1, b1]
    unfold linesFromBlocks
    rw [List.forall₂_map_left_iff, List.forall₂_map_right_iff]
    refine h.imp fun p q hpq => ⟨?_, hpq.2.2⟩
    obtain ⟨h1, -, -⟩ := hpq
    generalize q.blocks = u at h1 ⊢
    generalize q.textLines = v at h1
    subst h1
    rfl
  refine sw_forall₂_mapIdx hp fun k p q hpq => ?_
  obtain ⟨h1, h2⟩ := hpq
  refine ⟨?_, ?_⟩
  · generalize q.blocks = u at h1 ⊢
    generalize q.textLines = v at h1
    subst h1
    rfl
  · simp only [toSPage]
    rw [List.forall₂_map_left_iff, List.forall₂_map_right_iff]
    refine h2.imp fun b b' hb => ⟨?_, hb.2⟩
    simp only [toSBlock, hb.1, b2, a2, hl, hend]

/-- The same block, apart from the role. -/
def ro_SBlock (b b' : SBlock) : Prop := b' = { b with role := b'.role }

theorem ro_selected {R : Role → Role → Prop} {roles : List Role} (hR : ∀ r r', R r r' → (r ∈ roles ↔ r' ∈ roles)) {doc doc' : SDoc} (h : SameButRoles R doc doc') :
    List.Forall₂ ro_SBlock (selectedBlocks roles doc) (selectedBlocks roles doc') := by
  have hb : ∀ {bs bs' : List SBlock}, List.Forall₂ (fun b b' : SBlock => b' = { b with role := b'.role } ∧ R b.role b'.role) bs bs' →
      List.Forall₂ ro_SBlock (bs.filter (selected roles)) (bs'.filter (selected roles)) := by
    intro bs bs' h
    induction h with
    | nil => exact .nil
    | @cons b b' bs bs' hab _ ih =>
      have hsel : selected roles b' = selected roles b := by
        unfold selected
        rw [Bool.eq_iff_iff]
        simpa using (hR _ _ hab.2).symm
      rw [List.filter_cons, List.filter_cons, hsel]
      by_cases hs : selected roles b = true
      · rw [if_pos hs, if_pos hs]; exact .cons hab.1 ih
      · rw [if_neg hs, if_neg hs]; exact ih
  have hp := h.pages
  unfold selectedBlocks
  generalize doc.pages = ps at hp
  generalize doc'.pages = ps' at hp
  induction hp with
  | nil => exact .nil
  | cons hab _ ih =>
    rw [List.flatMap_cons, List.flatMap_cons]
    exact List.rel_append (hb hab.2) ih

theorem ro_map {β : Type} (f : SBlock → β) (hf : ∀ b b', ro_SBlock b b' → f b' = f b) {bs bs' : List SBlock} (h : List.Forall₂ ro_SBlock bs bs') : bs'.map f = bs.map f := by
  induction h with
  | nil => rfl
  | cons hab _ ih => rw [List.map_cons, List.map_cons, ih, hf _ _ hab]

theorem ro_chars (P : Printer) {doc doc' : SDoc} (hf : doc'.fontInfos = doc.fontInfos) {b b' : SBlock} (hb : ro_SBlock b b') (w : SWord) : ∀ cs,
    serializeChars P doc' b' w cs = serializeChars P doc b w cs := by
  intro cs
  induction cs with
  | nil => rfl
  | cons c cs ih => unfold serializeChars; rw [ih, hf, hb]; rfl

theorem ro_wordChars (P : Printer) {doc doc' : SDoc} (hf : doc'.fontInfos = doc.fontInfos) {b b' : SBlock} (hb : ro_SBlock b b') : ∀ ws : List SWord,
    serializeWordChars P doc' b' ws = serializeWordChars P doc b ws := by
  intro ws
  induction ws with
  | nil => rfl
  | cons w ws ih => unfold serializeWordChars; rw [ih, ro_chars P hf hb w]

/-- C90 (output): documents that differ only in the roles of their blocks have the same plain text, and the same JSONL output (as long as it does not contain the
blocks themselves, whose roles it shows), if the roles are all among the requested ones or not. -/
theorem c90_text {R : Role → Role → Prop} {roles : List Role} (hR : ∀ r r', R r r' → (r ∈ roles ↔ r' ∈ roles)) {doc doc' : SDoc} (h : SameButRoles R doc doc') :
    plainText roles doc' = plainText roles doc ∧
    ∀ (P : Printer) (units : List Unit'), Unit'.textBlocks ∉ units → jsonl P roles doc' units = jsonl P roles doc units := by
  have hsel := ro_selected hR h
  have hwords : ∀ b b', ro_SBlock b b' → b'.words = b.words := by
    intro b b' hb
    have : b'.lines = b.lines := by rw [hb]
    unfold SBlock.words; rw [this]
  constructor
  · have he : ∀ d : SDoc, ((d.pages.flatMap (·.blocks)).filter fun b => decide (b.role ∈ roles)) = selectedBlocks roles d := by
      intro d
      unfold selectedBlocks
      rw [List.filter_flatMap]
      congr 1
      funext p
      apply List.filter_congr
      intro b _
      unfold selected
      rw [Bool.eq_iff_iff]
      simp
    rw [c34_plain_text_partial, c34_plain_text_partial, he, he, ro_map printedBlock ?_ hsel]
    intro b b' hb
    have : b'.lines = b.lines := by rw [hb]
    unfold printedBlock
    rw [this]
  · intro P units
    have hpages : ∀ {β : Type} (f : SPage → List β), (∀ p bs, f { p with blocks := bs } = f p) → doc'.pages.flatMap f = doc.pages.flatMap f := by
      intro β f hf
      have hp := h.pages
      generalize doc.pages = ps at hp
      generalize doc'.pages = ps' at hp
      induction hp with
      | nil => rfl
      | cons hab _ ih => rw [List.flatMap_cons, List.flatMap_cons, ih, hab.1, hf]
    induction units with
    | nil => intro _; rfl
    | cons u us ih =>
      intro hu
      unfold jsonl
      rw [ih (fun h => hu (List.mem_cons_of_mem _ h))]
      congr 1
      cases u with
      | textBlocks => exact absurd (List.mem_cons_self ..) hu
      | pages =>
        simp only [serializeUnit, serializePages]
        rw [hpages _ (fun p bs => rfl)]
      | figures =>
        simp only [serializeUnit, serializeFigures]
        rw [hpages _ (fun p bs => rfl)]
      | shapes =>
        simp only [serializeUnit, serializeShapes]
        rw [hpages _ (fun p bs => rfl)]
      | textLines => rfl
      | words =>
        simp only [serializeUnit, serializeWords]
        rw [List.flatMap_def, List.flatMap_def, ro_map _ ?_ hsel]
        intro b b' hb
        simp only [hwords b b' hb]
        rw [hb]
        rfl
      | characters =>
        show serializeBlockChars P doc' _ = serializeBlockChars P doc _
        generalize selectedBlocks roles doc = bs at hsel
        generalize selectedBlocks roles doc' = bs' at hsel
        clear hR hpages ih hu
        induction hsel with
        | nil => rfl
        | cons hab _ ih => unfold serializeBlockChars; rw [ih, hwords _ _ hab, ro_wordChars P h.fontInfos hab]

/-- The two runs, up to the reading order. -/
theorem ro_runs {d d0 d1 : Document} {ts ts1 : Option (List (Text.Str × ℕ))} (hparse : parse cfg.parsing cfg.skipFontFiles d = .ok d0)
    (hrun : Cli.process (env lib none parse dur) cfg ⟨d, ts⟩ = .ok (0, ⟨d1, ts1⟩)) :
    ∃ e e1, sw_core lib parse dur cfg d = .ok e ∧ BeforeOrder lib cfg d0 e ∧ sw_order lib cfg e = .ok e1 ∧ d1 = sw_end cfg e1 ∧
      (∀ e2, sw_order (withNetwork lib net) cfg e = .ok e2 → ∃ ts2, Cli.process (env (withNetwork lib net) none parse dur) cfg ⟨d, ts⟩ = .ok (0, ⟨sw_end cfg e2, ts2⟩)) ∧
      (∀ m, sw_order (withNetwork lib net) cfg e = .throw m → Cli.process (env (withNetwork lib net) none parse dur) cfg ⟨d, ts⟩ = .throw m) ∧
      ∀ m, sw_order (withNetwork lib net) cfg e = .ub m → Cli.process (env (withNetwork lib net) none parse dur) cfg ⟨d, ts⟩ = .ub m := by
  obtain ⟨g1, -, -⟩ := sw_process (lib := lib) (parse := parse) (dur := dur) (cfg := cfg) d ts
  obtain ⟨g1', g2', g3'⟩ := sw_process (lib := withNetwork lib net) (parse := parse) (dur := dur) (cfg := cfg) d ts
  have hs := sw_steps (lib := lib) (parse := parse) (dur := dur) (cfg := cfg) d
  have hs' := sw_steps (lib := withNetwork lib net) (parse := parse) (dur := dur) (cfg := cfg) d
  rw [ro_core] at hs'
  have hr := (g1 d1).mpr ⟨ts1, hrun⟩
  rw [hs] at hr
  cases he : sw_core lib parse dur cfg d with
  | throw x => rw [he] at hr; cases hr
  | ub x => rw [he] at hr; cases hr
  | ok e =>
    rw [he] at hr hs'
    simp only [Outcome.bind] at hr hs'
    cases hee : sw_order lib cfg e with
    | throw x => rw [hee] at hr; cases hr
    | ub x => rw [hee] at hr; cases hr
    | ok e1 =>
      rw [hee] at hr
      refine ⟨e, e1, rfl, ro_before hparse he, hee, (Outcome.ok.inj hr).symm, fun e2 h2 => ?_, fun m h2 => ?_, fun m h2 => ?_⟩
      · rw [h2] at hs'; exact (g1' _).mp hs'
      · rw [h2] at hs'; exact (g2' _).mp hs'
      · rw [h2] at hs'; exact (g3' _).mp hs'

/-- C90 (anything the network says): whatever the network predicts, the run with another network finds the same pages, figures, shapes, words and blocks, with the same texts,
positions and fonts; only the order and the roles of the blocks can be different.  It ends well, too, unless the prediction itself fails. -/
theorem c90_reordered (hn : n ≤ 3) (hl : LibOk lib) {d d0 d1 : Document} {ts ts1 : Option (List (Text.Str × ℕ))}
    (hparse : parse cfg.parsing cfg.skipFontFiles d = .ok d0) (hp : ParsedDoc n d0)
    (hrun : Cli.process (env lib none parse dur) cfg ⟨d, ts⟩ = .ok (0, ⟨d1, ts1⟩)) :
    (∃ d2 ts2, Cli.process (env (withNetwork lib net) none parse dur) cfg ⟨d, ts⟩ = .ok (0, ⟨d2, ts2⟩) ∧ List.Forall₂ SameUpToOrder (toSDoc d1).pages (toSDoc d2).pages) ∨
    (Enabled cfg .readingOrder ∧ ∃ x m, BeforeOrder lib cfg d0 x ∧
      ((predictRoles (withNetwork lib net) x = .throw m ∧ Cli.process (env (withNetwork lib net) none parse dur) cfg ⟨d, ts⟩ = .throw m) ∨
        predictRoles (withNetwork lib net) x = .ub m ∧ Cli.process (env (withNetwork lib net) none parse dur) cfg ⟨d, ts⟩ = .ub m)) := by
  obtain ⟨e, e1, he, hbo, h1, rfl, k1, k2, k3⟩ := ro_runs (net := net) hparse hrun
  have hbox := sw_core_boxes hn hl hparse hp he
  obtain ⟨q1, q2⟩ := sw_order_pages hn hl hbox h1
  cases h2 : sw_order (withNetwork lib net) cfg e with
  | ok e2 =>
    left
    obtain ⟨ts2, hr2⟩ := k1 e2 h2
    refine ⟨_, ts2, hr2, ?_⟩
    obtain ⟨r1, r2⟩ := sw_order_pages hn (ro_libOk hl) hbox h2
    have hsym : List.Forall₂ sw_Reordered (sw_end cfg e1).pages e.pages := List.Forall₂.flip (List.Forall₂.imp (fun a b hab => sw_reordered_symm hab) q1)
    have hR := pl_forall₂_trans (R := sw_Reordered) (S := sw_Reordered) (T := sw_Reordered) (fun a b c => sw_reordered_trans) hsym r1
    exact sw_forall₂_mapIdx hR fun k a b hab => sw_records (r2.trans q2.symm) k a b hab
  | throw m =>
    right
    have h3 := k2 m h2
    unfold sw_order orderStage at h2
    by_cases hE : Enabled cfg .readingOrder
    · rw [if_pos hE] at h2
      refine ⟨hE, e, m, hbo, .inl ⟨?_, h3⟩⟩
      cases hr : predictRoles (withNetwork lib net) e with
      | ok rs => rw [hr] at h2; cases h2
      | throw m' => rw [hr] at h2; cases h2; rfl
      | ub m' => rw [hr] at h2; cases h2
    · rw [if_neg hE] at h2; cases h2
  | ub m =>
    right
    have h3 := k3 m h2
    unfold sw_order orderStage at h2
    by_cases hE : Enabled cfg .readingOrder
    · rw [if_pos hE] at h2
      refine ⟨hE, e, m, hbo, .inr ⟨?_, h3⟩⟩
      cases hr : predictRoles (withNetwork lib net) e with
      | ok rs => rw [hr] at h2; cases h2
      | throw m' => rw [hr] at h2; cases h2
      | ub m' => rw [hr] at h2; cases h2; rfl
    · rw [if_neg hE] at h2; cases h2

/-- C90 (roles only): if the predictions of the two networks agree on which blocks are titles, author information or marginals, the reading order is the same: the finished documents
differ only in the roles of the blocks, and these are the predicted ones (whatever relates the two predictions relates the roles in the documents).  -/
theorem c90_roles_only (hn : n ≤ 3) (hl : LibOk lib) (hs : LooksAtPositions lib) {R : Role → Role → Prop} (hR : KeepsSeparators R) {d d0 d1 : Document}
    {ts ts1 : Option (List (Text.Str × ℕ))} (hE : Enabled cfg .readingOrder)
    (hparse : parse cfg.parsing cfg.skipFontFiles d = .ok d0) (hp : ParsedDoc n d0)
    (hpred : ∀ x rs, BeforeOrder lib cfg d0 x → predictRoles lib x = .ok rs → ∃ rs', predictRoles (withNetwork lib net) x = .ok rs' ∧ List.Forall₂ R rs rs')
    (hrun : Cli.process (env lib none parse dur) cfg ⟨d, ts⟩ = .ok (0, ⟨d1, ts1⟩)) :
    ∃ d2 ts2, Cli.process (env (withNetwork lib net) none parse dur) cfg ⟨d, ts⟩ = .ok (0, ⟨d2, ts2⟩) ∧ SameButRoles R (toSDoc d1) (toSDoc d2) := by
  obtain ⟨e, e1, he, hbo, h1, rfl, k1, -, -⟩ := ro_runs (net := net) hparse hrun
  have hbox := sw_core_boxes hn hl hparse hp he
  have hord : ∀ (lib' : Pipeline.Lib) (rs : List Role), predictRoles lib' e = .ok rs →
      sw_order lib' cfg e = .ok { e with pages := (assignRoles e.pages rs).map (orderPage lib' e.stats) } := by
    intro lib' rs hr
    unfold sw_order orderStage
    rw [if_pos hE, hr]
    rfl
  cases hr : predictRoles lib e with
  | throw m => unfold sw_order orderStage at h1; rw [if_pos hE, hr] at h1; cases h1
  | ub m => unfold sw_order orderStage at h1; rw [if_pos hE, hr] at h1; cases h1
  | ok rs =>
    obtain ⟨rs', hr', hrs⟩ := hpred e rs hbo hr
    obtain ⟨ts2, hr2⟩ := k1 _ (hord _ rs' hr')
    refine ⟨_, ts2, hr2, ?_⟩
    have h1' := hord _ rs hr
    rw [h1] at h1'
    have := Outcome.ok.inj h1'
    subst this
    have hlen := pl_predictRoles_length hr
    refine ro_end rfl rfl rfl ?_
    show List.Forall₂ (ro_Page R) ((assignRoles e.pages rs).map (orderPage lib e.stats)) ((assignRoles e.pages rs').map (orderPage lib e.stats))
    rw [List.forall₂_map_left_iff, List.forall₂_map_right_iff]
    have hass := ro_assignRoles (R := R) e.pages rs rs' hrs hlen
    have hbx : ∀ p ∈ assignRoles e.pages rs, (∀ b ∈ p.blocks, PageBox n b.block.pos) ∧ ∀ b ∈ p.figures ++ p.graphics ++ p.shapes, RoundedBox n b := by
      intro p hp
      obtain ⟨p0, hp0, hro⟩ := pl_forall₂_right (pl_assignRoles e.pages rs hlen) p hp
      obtain ⟨hsame, hblocks⟩ := hro
      obtain ⟨b1, b2⟩ := hbox p0 hp0
      refine ⟨fun b hb => ?_, by rw [hsame]; exact b2⟩
      have : b.block ∈ p0.blocks.map (·.block) := by rw [← hblocks]; exact List.mem_map.mpr ⟨b, hb, rfl⟩
      obtain ⟨x, hx, hxe⟩ := List.mem_map.mp this
      rw [← hxe]; exact b1 x hx
    exact pl_forall₂_imp hass fun p q hpm hpq => ro_orderPage hn hl hs hR e.stats hpq (hbx p hpm).1 (hbx p hpm).2

/-- C90 (without prediction): if reading order detection is switched off, the network is never asked. -/
theorem c90_unused {d d0 d1 : Document} {ts ts1 : Option (List (Text.Str × ℕ))} (hE : ¬ Enabled cfg .readingOrder)
    (hparse : parse cfg.parsing cfg.skipFontFiles d = .ok d0) (hrun : Cli.process (env lib none parse dur) cfg ⟨d, ts⟩ = .ok (0, ⟨d1, ts1⟩)) :
    ∃ ts2, Cli.process (env (withNetwork lib net) none parse dur) cfg ⟨d, ts⟩ = .ok (0, ⟨d1, ts2⟩) := by
  obtain ⟨e, e1, he, hbo, h1, rfl, k1, -, -⟩ := ro_runs (net := net) hparse hrun
  refine k1 e1 ?_
  unfold sw_order at h1 ⊢
  rw [if_neg hE] at h1 ⊢
  exact h1

/-! ## Examples -/

/-- A network that gives these roles (by number) to the blocks. -/
def roNet (ks : List ℕ) : ℕ × List ℚ → List Roles.FPage → Outcome (ℕ × List (Option ℚ)) := fun _ _ =>
  .ok (14, ks.flatMap fun k => (List.range 14).map fun j => some (if j = k then 1 else 0))

/-- The run of the program with this network. -/
def roRun (ks : List ℕ) (d : Document) : Outcome (ℤ × Cli.PState Document) :=
  Cli.process (env (withNetwork refPipeline (roNet ks)) none (fun _ _ _ => .ok d) (fun _ => 0)) (swOff []) ⟨{}, none⟩

/-- The roles and texts of the blocks in the end. -/
def roShown (ks : List ℕ) (d : Document) : Option (List (Role × Text.Str)) :=
  match roRun ks d with
  | .ok (_, r) => some (((toSDoc r.doc).pages.flatMap (·.blocks)).map fun b => (b.role, printedBlock b))
  | _ => none

theorem ro_ref : LooksAtPositions refPipeline := by
  refine ⟨fun f hf => mv_refLib_steady (dx := 0) (dy := 0) fun a => by rw [hf, ro_moveBox], fun f hf l => ?_⟩
  refine mv_insSort l fun a _ b _ => ?_
  unfold topFirst
  rw [hf, hf]

/-- Roles that are both no separating roles. -/
def roPlain (r r' : Role) : Prop := r ∉ separatingRoles ∧ r' ∉ separatingRoles

/-- What the network predicts. -/
def roPredicted (ks : List ℕ) (d : Document) : Option (List Role) :=
  match runAll (stagesBeforeOrder.flatMap (stageSteps (env refPipeline none (fun _ _ x => .ok x) fun _ => 0) (swOff []))) d with
  | .ok x => match predictRoles (withNetwork refPipeline (roNet ks)) x with
    | .ok rs => some rs
    | _ => none
  | _ => none

theorem ro_predicted {ks : List ℕ} {d x : Document} {rs : List Role} (h : roPredicted ks d = some rs) (hx : BeforeOrder refPipeline (swOff []) d x) :
    predictRoles (withNetwork refPipeline (roNet ks)) x = .ok rs := by
  unfold BeforeOrder at hx
  unfold roPredicted at h
  rw [hx] at h
  simp only at h
  revert h
  cases predictRoles (withNetwork refPipeline (roNet ks)) x with
  | ok r => intro h; exact congrArg Outcome.ok (Option.some.inj h)
  | throw m => intro h; cases h
  | ub m => intro h; cases h

/-- The premise on the predictions is met by two networks of which one takes the first block for a heading. -/
theorem c90_premises_predicted : ∀ x rs, BeforeOrder (withNetwork refPipeline (roNet [0, 0])) (swOff []) swDoc x → predictRoles (withNetwork refPipeline (roNet [0, 0])) x = .ok rs →
    ∃ rs', predictRoles (withNetwork (withNetwork refPipeline (roNet [0, 0])) (roNet [4, 0])) x = .ok rs' ∧ List.Forall₂ roPlain rs rs' := by
  intro x rs hx hrs
  have hx' : BeforeOrder refPipeline (swOff []) swDoc x := by
    have hc := ro_core (lib := refPipeline) (parse := fun _ _ x => .ok x) (dur := fun _ => 0) (cfg := swOff []) (net := roNet [0, 0]) swDoc
    unfold sw_core at hc
    rw [pl_runAll_append, pl_runAll_append, runAll] at hc
    exact hc.symm.trans hx
  have h1 := ro_predicted (rs := [.paragraph, .paragraph]) (by decide +kernel) hx' (ks := [0, 0])
  have h2 := ro_predicted (rs := [.heading, .paragraph]) (by decide +kernel) hx' (ks := [4, 0])
  rw [hrs] at h1
  have := Outcome.ok.inj h1
  subst this
  refine ⟨_, h2, .cons ⟨by decide, by decide⟩ (.cons ⟨by decide, by decide⟩ .nil)⟩

/-- The premises of the theorems are met, and the conclusions are not trivial: other predictions give other roles in the same order. -/
theorem c90_premises : LibOk refPipeline ∧ LooksAtPositions refPipeline ∧ ParsedDoc 1 swDoc ∧ KeepsSeparators roPlain ∧ Enabled (swOff []) .readingOrder ∧
    ¬ Enabled (swOff [.readingOrder]) .readingOrder ∧ KeepsSeparators (fun r r' => r = r') ∧ (∀ r r', roPlain r r' → (r ∈ allRoles ↔ r' ∈ allRoles)) ∧
    roShown [0, 0] swDoc = some [(.paragraph, "aa".toList), (.paragraph, "zz".toList)] ∧
    roShown [4, 0] swDoc = some [(.paragraph, "aa".toList), (.heading, "zz".toList)] ∧
    roShown [6, 6] swDoc = some [(.title, "aa".toList), (.title, "zz".toList)] := by
  refine ⟨refPipeline_ok, ro_ref, swDoc_parsed, ?_, by simp [Enabled, swOff], by simp [Enabled, swOff], ?_, fun r r' _ => ⟨fun _ => mem_allRoles _, fun _ => mem_allRoles _⟩, ?_, ?_, ?_⟩
  · intro r r' h t ht
    exact ⟨fun e => absurd (e ▸ ht) h.1, fun e => absurd (e ▸ ht) h.2⟩
  · intro r r' h t _; rw [h]
  all_goals decide +kernel

/-- C90, refuted part: the prediction does change the order of the text.  The block at the top on the right is read first if it is predicted to be the title, and last if it is
predicted to be a paragraph. -/
theorem c90_order_refuted : roShown [0, 0] swDoc = some [(.paragraph, "aa".toList), (.paragraph, "zz".toList)] ∧
    roShown [6, 0] swDoc = some [(.title, "zz".toList), (.paragraph, "aa".toList)] := by
  constructor <;> decide +kernel

end Verif.Props

import Verif.Spec.Memory
import Verif.Props.Prediction

/-!
# C93: what uninitialised memory can change
-/

namespace Verif.Props

open Verif.Math Verif.Elements Verif.Spec Verif.Pipeline Verif.Serialize
open Verif.ReadingOrder (Role)
open Verif.Cli (Stage StageConfig Env Config)

variable {lib : Pipeline.Lib} {n : ℕ} {cfg : Config} {parse : StageConfig → Bool → Document → Outcome Document} {dur : ℕ → ℕ} {r : Role}

/-- The same document, apart from the roles of the blocks. -/
structure um_Same (d d' : Document) : Prop where
  rest : d' = { d with pages := d'.pages }
  pages : List.Forall₂ (ro_Page AnyRoles) d.pages d'.pages

theorem um_page_refl (p : Pipeline.Page) : ro_Page AnyRoles p p :=
  ⟨rfl, rfl, List.forall₂_same.mpr fun _ _ => ⟨rfl, trivial⟩⟩

theorem um_same_refl (d : Document) : um_Same d d := ⟨rfl, List.forall₂_same.mpr fun p _ => um_page_refl p⟩

/-- The same outcome, up to the roles. -/
inductive um_Outcome : Outcome Document → Outcome Document → Prop where
  | ok {d d' : Document} (h : um_Same d d') : um_Outcome (.ok d) (.ok d')
  | throw (m : String) : um_Outcome (.throw m) (.throw m)
  | ub (m : String) : um_Outcome (.ub m) (.ub m)

theorem um_refl (x : Outcome Document) : um_Outcome x x := by
  cases x with
  | ok d => exact .ok (um_same_refl d)
  | throw m => exact .throw m
  | ub m => exact .ub m

theorem um_stage {st : Stage} (h : st ≠ .blocks) : stage (withMemory lib r) st = stage lib st := by
  have hs : ∀ acw ws ss k, linesOfSegments (withMemory lib r) acw ws k ss = linesOfSegments lib acw ws k ss := by
    intro acw ws ss
    induction ss with
    | nil => intro k; rfl
    | cons x ss ih =>
      intro k
      unfold linesOfSegments
      simp only [ih]
      rfl
  have hl : ∀ acw ps k, linesPages (withMemory lib r) acw k ps = linesPages lib acw k ps := by
    intro acw ps
    induction ps with
    | nil => intro k; rfl
    | cons p ps ih =>
      intro k
      unfold linesPages
      simp only [ih, hs]
  cases st with
  | blocks => exact absurd rfl h
  | lines =>
    funext d
    show linesStage (withMemory lib r) d = linesStage lib d
    unfold linesStage
    rw [hl]
  | _ => rfl

theorem um_stageSteps {st : Stage} (h : st ≠ .blocks) : stageSteps (env (withMemory lib r) none parse dur) cfg st = stageSteps (env lib none parse dur) cfg st := by
  have e : ∀ a b, (env (withMemory lib r) none parse dur).stage st a b = (env lib none parse dur).stage st a b := fun a b => um_stage h
  unfold stageSteps
  simp only [e]
  rfl

/-- Block detection. -/
theorem um_blocksStage (d : Document) : um_Outcome (blocksStage lib d) (blocksStage (withMemory lib r) d) := by
  unfold blocksStage
  show um_Outcome _ ((TextBlocks.process lib.lines.hash (blocksDoc lib d) (blocksState d) (d.pages.map fun p => p.segments.map (·.lines))).bind _)
  cases TextBlocks.process lib.lines.hash (blocksDoc lib d) (blocksState d) (d.pages.map fun p => p.segments.map (·.lines)) with
  | throw m => exact .throw m
  | ub m => exact .ub m
  | ok x =>
    refine .ok ⟨rfl, ?_⟩
    show List.Forall₂ (ro_Page AnyRoles) (List.zipWith _ d.pages x.2) (List.zipWith _ d.pages x.2)
    generalize d.pages = ps
    generalize x.2 = bss
    induction ps generalizing bss with
    | nil => exact .nil
    | cons p ps ih =>
      cases bss with
      | nil => exact .nil
      | cons bs bss =>
        refine .cons ⟨rfl, rfl, ?_⟩ (ih bss)
        refine List.rel_append (List.forall₂_same.mpr fun _ _ => ⟨rfl, trivial⟩) ?_
        rw [List.forall₂_map_left_iff, List.forall₂_map_right_iff]
        exact List.forall₂_same.mpr fun _ _ => ⟨rfl, trivial⟩

theorem um_core (d : Document) : um_Outcome (sw_core lib parse dur cfg d) (sw_core (withMemory lib r) parse dur cfg d) := by
  have hsplit : ∀ lib', sw_core lib' parse dur cfg d = (runAll ([parse cfg.parsing cfg.skipFontFiles] ++
      [Stage.glyphStatistics, .diacritics, .words, .wordStatistics, .segmentation, .lines, .scripts, .lineStatistics].flatMap
        (stageSteps (env lib' none parse dur) cfg)) d).bind (runAll (stageSteps (env lib' none parse dur) cfg .blocks)) := by
    intro lib'
    rw [← pl_runAll_append]
    unfold sw_core
    simp only [List.flatMap_cons, List.flatMap_nil, List.append_nil, List.append_assoc]
  rw [hsplit, hsplit]
  simp only [List.flatMap_cons, List.flatMap_nil]
  rw [um_stageSteps (st := .glyphStatistics) (by decide), um_stageSteps (st := .diacritics) (by decide), um_stageSteps (st := .words) (by decide),
    um_stageSteps (st := .wordStatistics) (by decide), um_stageSteps (st := .segmentation) (by decide), um_stageSteps (st := .lines) (by decide),
    um_stageSteps (st := .scripts) (by decide), um_stageSteps (st := .lineStatistics) (by decide)]
  generalize runAll _ d = x
  cases x with
  | throw m => exact .throw m
  | ub m => exact .ub m
  | ok e =>
    show um_Outcome (runAll (stageSteps (env lib none parse dur) cfg .blocks) e) (runAll (stageSteps (env (withMemory lib r) none parse dur) cfg .blocks) e)
    have hr : ∀ lib', runAll (stageSteps (env lib' none parse dur) cfg .blocks) e = if Enabled cfg .blocks then blocksStage lib' e else .ok e := by
      intro lib'
      unfold stageSteps
      by_cases hE : Enabled cfg .blocks
      · rw [if_pos hE, if_pos hE, if_neg (by decide), List.append_nil]
        have hb : (env lib' none parse dur).stage .blocks (cfg.stage .blocks) cfg.roles = blocksStage lib' := rfl
        rw [hb, runAll]
        cases blocksStage lib' e <;> rfl
      · rw [if_neg hE, if_neg hE]; rfl
    rw [hr, hr]
    by_cases hE : Enabled cfg .blocks
    · rw [if_pos hE, if_pos hE]; exact um_blocksStage e
    · rw [if_neg hE, if_neg hE]; exact um_refl _

theorem um_orderPage (s : Statistics.Stats) : orderPage (withMemory lib r) s = orderPage lib s := by
  have h1 : (withMemory lib r).order = lib.order := rfl
  have h2 : (withMemory lib r).sortTop = lib.sortTop := rfl
  funext p
  unfold orderPage
  rw [h1, h2]

theorem um_featurePage {d d' : Document} (hlines : d'.lines = d.lines) {p q : Pipeline.Page} (h : ro_Page AnyRoles p q) :
    featurePage (withMemory lib r) d' q = featurePage lib d p := by
  obtain ⟨h1, _, hb⟩ := h
  have hw : (withMemory lib r).wide = lib.wide := rfl
  have e1 : q.width = p.width := by rw [h1]
  have e2 : q.height = p.height := by rw [h1]
  unfold featurePage
  rw [hw, e1, e2]
  have e3 : (q.blocks.map fun b => ({ pos := b.block.pos, fontName := b.block.fontName, fontSize := b.block.fontSize, text := lib.wide b.block.text, words := (blockWords d' b).map fun w => lib.wide w.text } : Roles.FBlock)) =
      p.blocks.map fun b => ({ pos := b.block.pos, fontName := b.block.fontName, fontSize := b.block.fontSize, text := lib.wide b.block.text, words := (blockWords d b).map fun w => lib.wide w.text } : Roles.FBlock) := by
    clear h1 e1 e2
    generalize p.blocks = bs at hb
    generalize q.blocks = bs' at hb
    induction hb with
    | nil => rfl
    | cons hab _ ih =>
      rw [List.map_cons, List.map_cons, ih]
      unfold blockWords
      rw [hab.1, hlines]
  rw [e3]

theorem um_features {d d' : Document} (hlines : d'.lines = d.lines) {ps ps' : List Pipeline.Page} (h : List.Forall₂ (ro_Page AnyRoles) ps ps') :
    ps'.map (featurePage (withMemory lib r) d') = ps.map (featurePage lib d) := by
  induction h with
  | nil => rfl
  | cons hab _ ih => rw [List.map_cons, List.map_cons, ih, um_featurePage hlines hab]

theorem um_numBlocks {ps ps' : List Pipeline.Page} (h : List.Forall₂ (ro_Page AnyRoles) ps ps') : (ps'.flatMap (·.blocks)).length = (ps.flatMap (·.blocks)).length := by
  induction h with
  | nil => rfl
  | cons hab _ ih => rw [List.flatMap_cons, List.flatMap_cons, List.length_append, List.length_append, ih, hab.2.2.length_eq]

theorem um_zip {bs bs' : List TextBlock} (h : List.Forall₂ (ro_Block AnyRoles) bs bs') : ∀ rs : List Role,
    List.zipWith (fun (b : TextBlock) r => { b with role := r }) bs' rs = List.zipWith (fun (b : TextBlock) r => { b with role := r }) bs rs := by
  induction h with
  | nil => intro rs; rfl
  | cons hab _ ih =>
    intro rs
    cases rs with
    | nil => rfl
    | cons r rs => rw [List.zipWith_cons_cons, List.zipWith_cons_cons, ih, hab.1]

theorem um_assignRoles {ps ps' : List Pipeline.Page} (h : List.Forall₂ (ro_Page AnyRoles) ps ps') : ∀ rs, assignRoles ps' rs = assignRoles ps rs := by
  induction h with
  | nil => intro rs; rfl
  | @cons p q _ _ hab _ ih =>
    intro rs
    obtain ⟨h1, h2, hb⟩ := hab
    unfold assignRoles
    rw [ih, hb.length_eq, um_zip hb]
    generalize q.blocks = x at h1
    rw [h2] at h1
    rw [h1]

theorem um_predictRoles {d d' : Document} (h : um_Same d d') : predictRoles (withMemory lib r) d' = predictRoles lib d := by
  have hlines : d'.lines = d.lines := by rw [h.rest]
  have hfonts : d'.fontInfos = d.fontInfos := by rw [h.rest]
  have hc : (withMemory lib r).classes = lib.classes := rfl
  have hn : (withMemory lib r).network = lib.network := rfl
  unfold predictRoles
  simp only
  rw [um_features hlines h.pages, um_numBlocks h.pages, hfonts, hc, hn]

/-- Prediction and reading order. -/
theorem um_orderStage {d d' : Document} (h : um_Same d d') : orderStage (withMemory lib r) d' = orderStage lib d := by
  have hlines : d'.lines = d.lines := by rw [h.rest]
  have hfonts : d'.fontInfos = d.fontInfos := by rw [h.rest]
  have hstats : d'.stats = d.stats := by rw [h.rest]
  have hhyph : d'.hyphens = d.hyphens := by rw [h.rest]
  unfold orderStage
  rw [um_predictRoles h, um_orderPage, hlines, hfonts, hhyph, hstats]
  congr 1
  funext rs
  rw [um_assignRoles h.pages]

/-- The whole run, when the roles are predicted. -/
theorem um_steps_same (hE : Enabled cfg .readingOrder) (d : Document) :
    runAll (steps (env (withMemory lib r) none parse dur) cfg) d = runAll (steps (env lib none parse dur) cfg) d := by
  rw [sw_steps, sw_steps]
  have h := um_core (lib := lib) (parse := parse) (dur := dur) (cfg := cfg) (r := r) d
  generalize sw_core lib parse dur cfg d = x at h
  generalize sw_core (withMemory lib r) parse dur cfg d = y at h
  cases h with
  | throw m => rfl
  | ub m => rfl
  | ok h =>
    simp only [Outcome.bind, sw_order, if_pos hE, um_orderStage h]

/-- The whole run, when they are not. -/
theorem um_steps_roles (hE : ¬ Enabled cfg .readingOrder) (d : Document) :
    (∀ d1, runAll (steps (env lib none parse dur) cfg) d = .ok d1 →
      ∃ d2, runAll (steps (env (withMemory lib r) none parse dur) cfg) d = .ok d2 ∧ SameButRoles AnyRoles (toSDoc d1) (toSDoc d2)) ∧
    (∀ m, runAll (steps (env lib none parse dur) cfg) d = .throw m ↔ runAll (steps (env (withMemory lib r) none parse dur) cfg) d = .throw m) ∧
    (∀ m, runAll (steps (env lib none parse dur) cfg) d = .ub m ↔ runAll (steps (env (withMemory lib r) none parse dur) cfg) d = .ub m) := by
  rw [sw_steps, sw_steps]
  have h := um_core (lib := lib) (parse := parse) (dur := dur) (cfg := cfg) (r := r) d
  generalize sw_core lib parse dur cfg d = x at h
  generalize sw_core (withMemory lib r) parse dur cfg d = y at h
  cases h with
  | throw m => exact ⟨(fun _ h => by cases h), (fun _ => Iff.rfl), fun _ => Iff.rfl⟩
  | ub m => exact ⟨(fun _ h => by cases h), (fun _ => Iff.rfl), fun _ => Iff.rfl⟩
  | @ok e e' h =>
    simp only [Outcome.bind, sw_order, if_neg hE]
    refine ⟨fun d1 h1 => ⟨_, rfl, ?_⟩, fun m => ⟨(fun h => by cases h), fun h => (by cases h)⟩, fun m => ⟨(fun h => by cases h), fun h => (by cases h)⟩⟩
    rw [← Outcome.ok.inj h1]
    exact ro_end (by rw [h.rest]) (by rw [h.rest]) (by rw [h.rest]) h.pages

/-- C93 (the default): unless the detection of the reading order is switched off, the outcome of a run -- the finished document or the exception -- does not depend on
the content of uninitialised memory. -/
theorem c93_same (hE : Enabled cfg .readingOrder) (d : Document) (ts : Option (List (Text.Str × ℕ))) :
    (∀ d1, (∃ ts1, Cli.process (env lib none parse dur) cfg ⟨d, ts⟩ = .ok (0, ⟨d1, ts1⟩)) ↔
      ∃ ts1, Cli.process (env (withMemory lib r) none parse dur) cfg ⟨d, ts⟩ = .ok (0, ⟨d1, ts1⟩)) ∧
    (∀ m, Cli.process (env lib none parse dur) cfg ⟨d, ts⟩ = .throw m ↔ Cli.process (env (withMemory lib r) none parse dur) cfg ⟨d, ts⟩ = .throw m) ∧
    (∀ m, Cli.process (env lib none parse dur) cfg ⟨d, ts⟩ = .ub m ↔ Cli.process (env (withMemory lib r) none parse dur) cfg ⟨d, ts⟩ = .ub m) := by
  obtain ⟨g1, g2, g3⟩ := sw_process (lib := lib) (parse := parse) (dur := dur) (cfg := cfg) d ts
  obtain ⟨g1', g2', g3'⟩ := sw_process (lib := withMemory lib r) (parse := parse) (dur := dur) (cfg := cfg) d ts
  rw [um_steps_same hE] at g1' g2' g3'
  exact ⟨fun d1 => (g1 d1).symm.trans (g1' d1), fun m => (g2 m).symm.trans (g2' m), fun m => (g3 m).symm.trans (g3' m)⟩

/-- C93 (without reading order): the run ends in the same way; the finished documents differ only in the roles of the blocks.  If all roles are printed, the plain
text is the same, and so is the JSONL output of everything but the blocks. -/
theorem c93_roles_only (hE : ¬ Enabled cfg .readingOrder) (d : Document) (ts : Option (List (Text.Str × ℕ))) :
    (∀ d1 ts1, Cli.process (env lib none parse dur) cfg ⟨d, ts⟩ = .ok (0, ⟨d1, ts1⟩) →
      ∃ d2 ts2, Cli.process (env (withMemory lib r) none parse dur) cfg ⟨d, ts⟩ = .ok (0, ⟨d2, ts2⟩) ∧ SameButRoles AnyRoles (toSDoc d1) (toSDoc d2) ∧
        ∀ roles : List Role, (∀ r, r ∈ roles) → plainText roles (toSDoc d2) = plainText roles (toSDoc d1) ∧
          ∀ (P : Printer) (units : List Unit'), Unit'.textBlocks ∉ units → jsonl P roles (toSDoc d2) units = jsonl P roles (toSDoc d1) units) ∧
    (∀ m, Cli.process (env lib none parse dur) cfg ⟨d, ts⟩ = .throw m ↔ Cli.process (env (withMemory lib r) none parse dur) cfg ⟨d, ts⟩ = .throw m) ∧
    (∀ m, Cli.process (env lib none parse dur) cfg ⟨d, ts⟩ = .ub m ↔ Cli.process (env (withMemory lib r) none parse dur) cfg ⟨d, ts⟩ = .ub m) := by
  obtain ⟨g1, g2, g3⟩ := sw_process (lib := lib) (parse := parse) (dur := dur) (cfg := cfg) d ts
  obtain ⟨g1', g2', g3'⟩ := sw_process (lib := withMemory lib r) (parse := parse) (dur := dur) (cfg := cfg) d ts
  obtain ⟨k1, k2, k3⟩ := um_steps_roles (lib := lib) (parse := parse) (dur := dur) (r := r) hE d
  refine ⟨fun d1 ts1 h => ?_, fun m => ((g2 m).symm.trans (k2 m)).trans (g2' m), fun m => ((g3 m).symm.trans (k3 m)).trans (g3' m)⟩
  obtain ⟨d2, h2, hs⟩ := k1 d1 ((g1 d1).mpr ⟨ts1, h⟩)
  obtain ⟨ts2, h2⟩ := (g1' d2).mp h2
  exact ⟨d2, ts2, h2, hs, fun roles hr => c90_text (fun _ _ _ => iff_of_true (hr _) (hr _)) hs⟩

/-! ## Examples -/

/-- The roles and texts of the blocks in the end, with this role in uninitialised memory, and with these stages switched off. -/
def umShown (r : Role) (sts : List Stage) (d : Document) : Option (List (Role × Text.Str)) :=
  match Cli.process (env (withMemory refPipeline r) none (fun _ _ _ => .ok d) (fun _ => 0)) (swOff sts) ⟨{}, none⟩ with
  | .ok (_, r) => some (((toSDoc r.doc).pages.flatMap (·.blocks)).map fun b => (b.role, printedBlock b))
  | _ => none

/-- Both cases occur: the run with all stages ends well, the run without reading order, too. -/
theorem c93_premises : Enabled (swOff []) .readingOrder ∧ ¬ Enabled (swOff [.readingOrder]) .readingOrder ∧
    umShown .toc [] swDoc = some [(.paragraph, "aa".toList), (.paragraph, "zz".toList)] ∧
    umShown .title [] swDoc = some [(.paragraph, "aa".toList), (.paragraph, "zz".toList)] := by
  refine ⟨by simp [Enabled, swOff], by simp [Enabled, swOff], ?_, ?_⟩ <;> decide +kernel

/-- Without reading order, the roles come from uninitialised memory: what is printed as the role of a block, and whether a block is printed at all when the user asks for
some roles only, is left to chance. -/
theorem c93_refuted : umShown .toc [.readingOrder] swDoc = some [(.toc, "zz".toList), (.toc, "aa".toList)] ∧
    umShown .title [.readingOrder] swDoc = some [(.title, "zz".toList), (.title, "aa".toList)] := by
  constructor <;> decide +kernel

end Verif.Props

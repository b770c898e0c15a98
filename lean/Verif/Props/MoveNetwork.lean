import Verif.Props.Move
import Verif.Props.Prediction

/-!
# C81 and C90: moving the contents of the pages, whatever the network predicts

The positions of the blocks are among the values the network gets, and it may predict other roles for the moved document.  This changes nothing but the order and
the roles of the blocks.
-/

namespace Verif.Props

open Verif.Math Verif.Elements Verif.Spec Verif.Pipeline
open Verif.Cli (Stage StageConfig Env Config)

theorem mv_reordered {dx dy : ℚ} {p q : Page} (h : sw_Reordered p q) : sw_Reordered (movePage dx dy p) (movePage dx dy q) := by
  obtain ⟨h1, h2⟩ := h
  refine ⟨?_, ?_⟩
  · generalize q.blocks = x at h1 h2
    generalize q.textLines = y at h1
    subst h1
    rfl
  · have hb : ∀ r : Page, (movePage dx dy r).blocks.map (·.block) = (r.blocks.map (·.block)).map (moveBlock dx dy) := by
      intro r
      simp [movePage, moveTextBlock, Function.comp_def]
    rw [hb, hb]
    exact h2.map _

variable {lib : Pipeline.Lib} {n : ℕ} {dx dy : ℚ} {cfg : Config} {d0 a b : Document}

/-- The stages before the reading order do the same to the moved document. -/
theorem mv_core (hn : n ≤ 3) (hl : LibOk lib) (hs : SteadyLib dx dy lib) (hk : ∃ k : ℤ, dx = k) (hp : ParsedDoc n d0) (hm : CanMove dx dy d0)
    (hc : Countable lib cfg d0) {parse parse' : StageConfig → Bool → Document → Outcome Document} {dur : ℕ → ℕ}
    (ha : parse cfg.parsing cfg.skipFontFiles a = .ok d0) (hb : parse' cfg.parsing cfg.skipFontFiles b = .ok (moveDoc dx dy d0)) :
    sw_core lib parse' dur cfg b = mapOk (moveDoc dx dy) (sw_core lib parse dur cfg a) := by
  obtain ⟨h1, -⟩ := mv_before (le := none) (parse := parse) (dur := dur) hn hl hs hk hp hc d0 ⟨mv_docOk_start hp hm, pl_start hp⟩
  have e : ∀ (q : StageConfig → Bool → Document → Outcome Document) (x y : Document), q cfg.parsing cfg.skipFontFiles x = .ok y →
      sw_core lib q dur cfg x = runAll (stagesBeforeOrder.flatMap (stageSteps (env lib none parse dur) cfg)) y := by
    intro q x y hq
    unfold sw_core
    rw [pl_runAll_append, runAll, hq]
    rfl
  rw [e _ _ _ ha, e _ _ _ hb, h1]

/-- C81 (any network): whatever the network predicts for the two documents, the moved document has the same pages, figures, shapes, words and blocks, all moved by
the same amount, with the same texts and fonts; only the order and the roles of the blocks can be different.  The run ends well, too, unless the prediction itself
fails on the moved document. -/
theorem c81_any_network_partial (hn : n ≤ 3) (hl : LibOk lib) (hs : SteadyLib dx dy lib) (hk : ∃ k : ℤ, dx = k) (hp : ParsedDoc n d0)
    (hp' : ParsedDoc n (moveDoc dx dy d0)) (hm : CanMove dx dy d0) (hc : Countable lib cfg d0)
    {parse parse' : StageConfig → Bool → Document → Outcome Document} (dur : ℕ → ℕ) (ts : Option (List (Text.Str × ℕ)))
    (ha : parse cfg.parsing cfg.skipFontFiles a = .ok d0) (hb : parse' cfg.parsing cfg.skipFontFiles b = .ok (moveDoc dx dy d0)) {d1 : Document}
    {ts1 : Option (List (Text.Str × ℕ))} (hrun : Cli.process (env lib none parse dur) cfg ⟨a, ts⟩ = .ok (0, ⟨d1, ts1⟩)) :
    (∃ d2 ts2, Cli.process (env lib none parse' dur) cfg ⟨b, ts⟩ = .ok (0, ⟨d2, ts2⟩) ∧
      List.Forall₂ SameUpToOrder (toSDoc (moveDoc dx dy d1)).pages (toSDoc d2).pages) ∨
    (Enabled cfg .readingOrder ∧ ∃ x m, BeforeOrder lib cfg d0 x ∧
      ((predictRoles lib (moveDoc dx dy x) = .throw m ∧ Cli.process (env lib none parse' dur) cfg ⟨b, ts⟩ = .throw m) ∨
        predictRoles lib (moveDoc dx dy x) = .ub m ∧ Cli.process (env lib none parse' dur) cfg ⟨b, ts⟩ = .ub m)) := by
  obtain ⟨e, e1, he, hbo, h1, rfl, -, -, -⟩ := ro_runs (net := lib.network) ha hrun
  have hcore := mv_core (dur := dur) hn hl hs hk hp hm hc ha hb
  rw [he] at hcore
  have hcore : sw_core lib parse' dur cfg b = .ok (moveDoc dx dy e) := hcore
  have hbox := sw_core_boxes hn hl ha hp he
  have hbox' := sw_core_boxes hn hl hb hp' hcore
  obtain ⟨q1, q2⟩ := sw_order_pages hn hl hbox h1
  obtain ⟨g1, g2, g3⟩ := sw_process (lib := lib) (parse := parse') (dur := dur) (cfg := cfg) b ts
  have hst := sw_steps (lib := lib) (parse := parse') (dur := dur) (cfg := cfg) b
  rw [hcore] at hst
  have hst : runAll (steps (env lib none parse' dur) cfg) b = (sw_order lib cfg (moveDoc dx dy e)).bind fun e' => .ok (sw_end cfg e') := hst
  cases h2 : sw_order lib cfg (moveDoc dx dy e) with
  | ok e2 =>
    left
    rw [h2] at hst
    obtain ⟨ts2, hr2⟩ := (g1 _).mp hst
    refine ⟨_, ts2, hr2, ?_⟩
    obtain ⟨r1, r2⟩ := sw_order_pages hn hl hbox' h2
    have hsym : List.Forall₂ sw_Reordered (moveDoc dx dy (sw_end cfg e1)).pages (moveDoc dx dy e).pages := by
      show List.Forall₂ sw_Reordered ((sw_end cfg e1).pages.map (movePage dx dy)) (e.pages.map (movePage dx dy))
      rw [List.forall₂_map_left_iff, List.forall₂_map_right_iff]
      exact List.Forall₂.flip (List.Forall₂.imp (fun x y hxy => mv_reordered (sw_reordered_symm hxy)) q1)
    have hR := pl_forall₂_trans (R := sw_Reordered) (S := sw_Reordered) (T := sw_Reordered) (fun x y z => sw_reordered_trans) hsym r1
    refine sw_forall₂_mapIdx hR fun k x y hxy => sw_records (r2.trans ?_) k x y hxy
    show e.lines.map (moveTextLine dx dy) = (sw_end cfg e1).lines.map (moveTextLine dx dy)
    rw [q2]
  | throw m =>
    right
    rw [h2] at hst
    have h3 := (g2 m).mp hst
    unfold sw_order orderStage at h2
    by_cases hE : Enabled cfg .readingOrder
    · rw [if_pos hE] at h2
      refine ⟨hE, e, m, hbo, .inl ⟨?_, h3⟩⟩
      cases hr : predictRoles lib (moveDoc dx dy e) with
      | ok rs => rw [hr] at h2; cases h2
      | throw m' => rw [hr] at h2; cases h2; rfl
      | ub m' => rw [hr] at h2; cases h2
    · rw [if_neg hE] at h2; cases h2
  | ub m =>
    right
    rw [h2] at hst
    have h3 := (g3 m).mp hst
    unfold sw_order orderStage at h2
    by_cases hE : Enabled cfg .readingOrder
    · rw [if_pos hE] at h2
      refine ⟨hE, e, m, hbo, .inr ⟨?_, h3⟩⟩
      cases hr : predictRoles lib (moveDoc dx dy e) with
      | ok rs => rw [hr] at h2; cases h2
      | throw m' => rw [hr] at h2; cases h2
      | ub m' => rw [hr] at h2; cases h2; rfl
    · rw [if_neg hE] at h2; cases h2

/-! ## A case -/

/-- A network that looks at the position of the first block: all blocks are titles if it begins in the first sixteenth of the page, and dates otherwise. -/
def mvNetwork : ℕ × List ℚ → List Roles.FPage → Outcome (ℕ × List (Option ℚ)) := fun t _ =>
  .ok (14, (List.range t.1).flatMap fun _ => (List.range 14).map fun j => some (if j = (if (t.2[1]?).getD 0 < 1 / 16 then 6 else 9) then 1 else 0))

/-- The run with this network. -/
def mvRun (d : Document) : Outcome (ℤ × Cli.PState Document) :=
  Cli.process (env (withNetwork refPipeline mvNetwork) none (fun _ _ _ => .ok d) (fun _ => 0)) plConfig ⟨{}, none⟩

/-- The roles and texts of the blocks in the end. -/
def mvShown (d : Document) : Option (List (ReadingOrder.Role × Text.Str)) :=
  match mvRun d with
  | .ok (_, r) => some (((toSDoc r.doc).pages.flatMap (·.blocks)).map fun b => (b.role, printedBlock b))
  | _ => none

theorem plDoc_moved_parsed : ParsedDoc 1 (moveDoc 7 3 plDoc) := by
  have hg : ∀ (x y : ℤ) (t : Char), 0 < x + 7 → x + 7 < 1000 → 0 < y + 3 → y + 3 < 1000 → GoodGlyph 1 (moveGlyph 7 3 (plGlyph x y t)) := by
    intro x y t h1 h2 h3 h4
    have := plGlyph_good (x + 7) (y + 3) t ⟨h1, h2⟩ ⟨h3, h4⟩
    have e : (moveGlyph 7 3 (plGlyph x y t)).pos = (plGlyph ((x + 7 : ℤ) : ℚ) ((y + 3 : ℤ) : ℚ) t).pos := by
      simp only [moveGlyph, plGlyph, moveBox]
      push_cast
      congr 1 <;> ring
    exact ⟨e ▸ this.1, this.2⟩
  refine ⟨?_, ?_, ?_, ?_, ?_, rfl, rfl⟩
  · intro p hp c hc
    simp only [moveDoc, plDoc, List.map_cons, List.map_nil, List.mem_singleton] at hp
    subst hp
    simp only [movePage, List.map_cons, List.map_nil, List.mem_cons, List.not_mem_nil, or_false] at hc
    rcases hc with rfl | rfl | rfl | rfl | rfl | rfl | rfl
    · exact hg 10 10 _ (by norm_num) (by norm_num) (by norm_num) (by norm_num)
    · exact hg 30 10 _ (by norm_num) (by norm_num) (by norm_num) (by norm_num)
    · exact hg 35 10 _ (by norm_num) (by norm_num) (by norm_num) (by norm_num)
    · exact hg 40 10 _ (by norm_num) (by norm_num) (by norm_num) (by norm_num)
    · exact hg 10 22 _ (by norm_num) (by norm_num) (by norm_num) (by norm_num)
    · exact hg 15 22 _ (by norm_num) (by norm_num) (by norm_num) (by norm_num)
    · exact hg 30 22 _ (by norm_num) (by norm_num) (by norm_num) (by norm_num)
  all_goals
    intro p hp
    simp only [moveDoc, plDoc, List.map_cons, List.map_nil, List.mem_singleton] at hp
    subst hp
    simp [movePage]

/-- The assumptions are met, also with a network that predicts other roles for the moved document. -/
theorem c81_any_network_premises : LibOk (withNetwork refPipeline mvNetwork) ∧ SteadyLib 7 3 (withNetwork refPipeline mvNetwork) ∧ ParsedDoc 1 plDoc ∧
    ParsedDoc 1 (moveDoc 7 3 plDoc) ∧ CanMove 7 3 plDoc ∧ Countable (withNetwork refPipeline mvNetwork) plConfig plDoc ∧
    mvShown plDoc = some [(.title, "a bcde f".toList)] ∧ mvShown (moveDoc 7 3 plDoc) = some [(.date, "a bcde f".toList)] := by
  have h := refPipeline_steady 7 3
  refine ⟨ro_libOk refPipeline_ok, ⟨h.lines, h.seg, h.order, h.sortTop⟩, plDoc_parsed, plDoc_moved_parsed, plDoc_canMove, plDoc_countable, ?_, ?_⟩ <;> decide +kernel

example : ∃ d1 ts1 d2 ts2, mvRun plDoc = .ok (0, ⟨d1, ts1⟩) ∧ mvRun (moveDoc 7 3 plDoc) = .ok (0, ⟨d2, ts2⟩) ∧
    List.Forall₂ SameUpToOrder (toSDoc (moveDoc 7 3 d1)).pages (toSDoc d2).pages := by
  obtain ⟨h1, h2, h3, h4, h5, h6, -, -⟩ := c81_any_network_premises
  have hok : (mvRun plDoc).isOk = true := by decide +kernel
  have hok' : (mvRun (moveDoc 7 3 plDoc)).isOk = true := by decide +kernel
  rcases pl_process (by decide) h1 (fun _ _ _ => .ok plDoc) (fun _ => 0) plConfig {} plDoc none rfl plDoc_parsed with
      ⟨d1, ts1, h, _⟩ | ⟨_, _, _, ⟨m, _, h⟩ | ⟨m, _, h⟩⟩
  · rcases c81_any_network_partial (by decide) h1 h2 ⟨7, by norm_num⟩ h3 h4 h5 h6 (parse' := fun _ _ _ => .ok (moveDoc 7 3 plDoc)) (fun _ => 0) none (b := {}) rfl rfl h with
        ⟨d2, ts2, hr, hs⟩ | ⟨_, x, m, _, ⟨_, hr⟩ | ⟨_, hr⟩⟩
    · exact ⟨d1, ts1, d2, ts2, h, hr, hs⟩
    · unfold mvRun at hok'; rw [hr] at hok'; cases hok'
    · unfold mvRun at hok'; rw [hr] at hok'; cases hok'
  · unfold mvRun at hok; rw [h] at hok; cases hok
  · unfold mvRun at hok; rw [h] at hok; cases hok

end Verif.Props

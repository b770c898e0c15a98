import Verif.Props.EndToEnd
import Verif.Props.Jsonl
import Verif.Props.Roles

/-!
# C76: the fonts of a parsed document stay known; why the role prediction may fail
-/

namespace Verif.Props

open Verif Verif.Parsing Verif.Spec.Parsing Verif.Spec.EndToEnd Verif.EndToEnd
open Verif.Text (Str)
open Verif.Words (Glyph Word)
open Verif.Pipeline (Document env TextLine toSChar toSWord toSDoc predictRoles blockWords featurePage)
open Verif.Cli (Stage StageConfig Config)

/-! ## The characters of the words of the lines -/

/-- All characters of the pages have fonts with the given property. -/
def FontsOf (P : Str → Prop) (d : Document) : Prop := ∀ p ∈ d.pages, ∀ c ∈ p.characters, P c.fontName

theorem fk_keptByMarks (P : Str → Prop) : KeptByMarks fun c => P c.fontName :=
  ⟨fun _ _ h => h, fun _ _ _ _ h _ => h⟩

variable {lib : Pipeline.Lib} {n : ℕ} {R : Ran} {d0 d : Document} {P : Str → Prop}

theorem fk_page {ls : List TextLine} {p0 p : Pipeline.Page} (h : PageInv lib n R ls p0 p) (hP : ∀ c ∈ p0.characters, P c.fontName) :
    ∀ w ∈ p.words, w.chars ≠ [] ∧ ∀ c ∈ w.chars, P c.fontName := by
  have hc : ∀ c ∈ p.characters, P c.fontName := by
    have := h.chars
    by_cases hm : R.marks = true
    · rw [if_pos hm] at this
      obtain ⟨out, o1, o2⟩ := pl_diacritics_keep (fk_keptByMarks P) lib.compose p0.characters hP
      rw [this] at o1
      cases o1
      exact o2
    · rw [if_neg hm] at this
      rw [this]; exact hP
  have hw := h.words
  by_cases hr : R.words = true
  · rw [if_pos hr] at hw
    obtain ⟨ws, a, w1, w2⟩ := hw
    obtain ⟨ws', a', g1, g2, g3, _, g5⟩ := pl_words lib.lines.hash (Words.Active.reset p.pageNum) p.pageNum p.characters h.glyphs
    rw [w1] at g1
    simp only [Outcome.ok.injEq, Prod.mk.injEq] at g1
    obtain ⟨rfl, rfl⟩ := g1
    intro w hw
    rw [w2] at hw
    obtain ⟨v, hv, q1, q2, rfl⟩ := pl_merge_mem ws g2 hw
    refine ⟨(g5 v hv).2.2.1, ?_⟩
    intro c hcv
    apply hc
    have : c ∈ (ws.map (·.chars)).flatten := List.mem_flatten.mpr ⟨_, List.mem_map.mpr ⟨v, hv, rfl⟩, hcv⟩
    rw [g3] at this
    exact List.mem_of_mem_filter this
  · rw [if_neg hr] at hw
    rw [hw]
    simp

theorem fk_lines (h : DocInv lib n R d0 d) (hP : FontsOf P d0) :
    ∀ l ∈ d.lines, ∀ w ∈ l.line.words, w.chars ≠ [] ∧ ∀ c ∈ w.chars, P c.fontName := by
  intro l hl w hw
  obtain ⟨i, hi⟩ := List.getElem?_of_mem hl
  have hlt : i < d.lines.length := (List.getElem?_eq_some_iff.mp hi).1
  have hmem : i ∈ d.pages.flatMap fun p => p.segments.flatMap (·.lines) := by rw [h.ranks]; simpa using hlt
  obtain ⟨p, hp, hmem⟩ := List.mem_flatMap.mp hmem
  obtain ⟨p0, hp0, hi0⟩ := pl_forall₂_right h.pages p hp
  have hwords := fk_page hi0 (hP p0 hp0)
  have hlines := hi0.lines
  by_cases hr : R.lines = true
  · rw [if_pos hr] at hlines
    have hperm := hlines ⟨fun _ => none, fun _ => false⟩ 0
    have hin : toSWord ⟨fun _ => none, fun _ => false⟩ 0 w ∈ sWordsAt ⟨fun _ => none, fun _ => false⟩ 0 d.lines (p.segments.flatMap (·.lines)) := by
      refine List.mem_map.mpr ⟨w, List.mem_flatMap.mpr ⟨i, hmem, ?_⟩, rfl⟩
      unfold wordsAt
      rw [hi]; exact hw
    have := hperm.subset hin
    by_cases hs : R.segments = true
    · rw [if_pos hs] at this
      obtain ⟨v, hv, hvw⟩ := List.mem_map.mp this
      obtain ⟨u, hu, hvu⟩ := List.mem_flatMap.mp hv
      have hvp := hwords v (pl_wordGroup_mem hu hvu)
      have hch : v.chars.map toSChar = w.chars.map toSChar := congrArg Serialize.SWord.chars hvw
      refine ⟨?_, ?_⟩
      · intro h0
        rw [h0] at hch
        exact hvp.1 (by simpa using hch)
      · intro c hc
        have : toSChar c ∈ v.chars.map toSChar := by rw [hch]; exact List.mem_map.mpr ⟨c, hc, rfl⟩
        obtain ⟨c', hc', e⟩ := List.mem_map.mp this
        have e' : c'.fontName = c.fontName := congrArg Serialize.SChar.fontName e
        rw [← e']
        exact hvp.2 c' hc'
    · rw [if_neg hs] at this
      simp at this
  · rw [if_neg hr] at hlines
    obtain ⟨s, hs, hmem⟩ := List.mem_flatMap.mp hmem
    rw [hlines s hs] at hmem
    simp at hmem

/-- No line has 2³² characters or more, no block 2³² lines or more: the program's counters do not wrap around. -/
structure Moderate (d : Document) : Prop where
  lines : ∀ l ∈ d.lines, (l.line.words.flatMap (·.chars)).length < 2 ^ 32
  blocks : ∀ p ∈ d.pages, ∀ b ∈ p.blocks, b.block.lines.length < 2 ^ 32

theorem fk_blocks (h : DocInv lib n R d0 d) (hP : FontsOf P d0) (hm : Moderate d) :
    ∀ p ∈ d.pages, ∀ b ∈ p.blocks, P b.block.fontName := by
  intro p hp b hb
  obtain ⟨p0, _, hi⟩ := pl_forall₂_right h.pages p hp
  have hbl := hi.blocks
  by_cases hr : R.blocks = true
  · rw [if_pos hr] at hbl
    obtain ⟨i, _, l, hl, hf⟩ := (hbl.2 b hb).2.2 (hm.blocks p hp b hb)
    have hlm := List.mem_of_getElem? hl
    have hg := h.good l hlm
    have hw := fk_lines h hP l hlm
    rw [← hf]
    have hne : (l.line.words.flatMap (·.chars)) ≠ [] := by
      obtain ⟨w, hwm⟩ := List.exists_mem_of_ne_nil _ hg.nonempty
      obtain ⟨c, hc⟩ := List.exists_mem_of_ne_nil _ (hw w hwm).1
      exact List.ne_nil_of_mem (List.mem_flatMap.mpr ⟨w, hwm, hc⟩)
    obtain ⟨c, hc, hcf⟩ := List.mem_map.mp (hg.font hne (hm.lines l hlm))
    obtain ⟨w, hwm, hcw⟩ := List.mem_flatMap.mp hc
    rw [← hcf]
    exact (hw w hwm).2 c hcw
  · rw [if_neg hr] at hbl
    rw [hbl] at hb
    simp at hb

/-! ## The role prediction -/

/-- What the network must return: for each block, a row of up to 14 probabilities. -/
def Answers (out : ℕ × List (Option ℚ)) (numBlocks : ℕ) : Prop :=
  0 < out.1 ∧ out.1 ≤ 14 ∧ ∃ rows : List (List ℚ), rows.length = numBlocks ∧ (∀ row ∈ rows, row.length = out.1 ∧ ∀ x ∈ row, 0 ≤ x) ∧
    out.2 = rows.flatten.map some

/-- The reasons for which the role prediction may fail. -/
inductive PredictionFails (lib : Pipeline.Lib) (d : Document) : Prop
  /-- a counter wrapped around -/
  | huge (h : ¬ Moderate d)
  /-- `isupper` is called with a value above 255: a word of a block begins with a character behind U+00FF -/
  | wide (h : ∃ p ∈ d.pages, ∃ b ∈ p.blocks, ∃ w ∈ blockWords d b, ∃ c, (lib.wide w.text).head? = some c ∧ 255 < c.toNat)
  /-- the network could not be evaluated, or did not return a row of probabilities for each block -/
  | network (t : ℕ × List ℚ) (ps : List Roles.FPage) (hp : ps = d.pages.map (featurePage lib d)) (ht : t.1 = (d.pages.flatMap (·.blocks)).length)
      (h : ∀ out, lib.network t ps = .ok out → ¬ Answers out t.1)

theorem fk_predict (hf : ∀ p ∈ d.pages, ∀ b ∈ p.blocks, (d.fontInfos b.block.fontName).isSome = true) :
    PredictionFails lib d ∨ ∃ rs, predictRoles lib d = .ok rs := by
  by_cases hw : ∃ p ∈ d.pages, ∃ b ∈ p.blocks, ∃ w ∈ blockWords d b, ∃ c, (lib.wide w.text).head? = some c ∧ 255 < c.toNat
  · exact .inl (.wide hw)
  · generalize hps : d.pages.map (featurePage lib d) = ps
    generalize hfi : (fun f => (d.fontInfos f).map fun i => (i.weight, i.isItalic)) = fi
    have hlen : (ps.flatMap (·.blocks)).length = (d.pages.flatMap (·.blocks)).length := by
      rw [← hps, List.flatMap_map]
      induction d.pages with
      | nil => rfl
      | cons p ps ih => simp [List.flatMap_cons, featurePage] at ih ⊢
    obtain ⟨xss, h1, _⟩ := docFeatures_spec (P := fun _ _ => True)
      (Roles.layoutFeatures lib.classes fi ps.length (Roles.fontSizeRange (ps.flatMap (·.blocks))).1
        (Roles.fontSizeRange (ps.flatMap (·.blocks))).2) ps (by
      intro q hq fb hfb
      rw [← hps] at hq
      obtain ⟨p, hp, rfl⟩ := List.mem_map.mp hq
      obtain ⟨b, hb, rfl⟩ := List.mem_map.mp hfb
      unfold Roles.layoutFeatures
      obtain ⟨info, hinfo⟩ := Option.isSome_iff_exists.mp (hf p hp b hb)
      have : fi b.block.fontName = some (info.weight, info.isItalic) := by rw [← hfi]; simp [hinfo]
      simp only
      rw [this]
      obtain ⟨k, hk, _⟩ := (upperWords_spec lib.classes ((blockWords d b).map fun w => lib.wide w.text)).1 (by
        intro x hx c hc
        obtain ⟨w, hwm, rfl⟩ := List.mem_map.mp hx
        by_contra hgt
        exact hw ⟨p, hp, b, hb, w, hwm, c, hc, by omega⟩)
      rw [hk]
      exact ⟨_, rfl, trivial⟩)
    have ht : Roles.layoutTensor lib.classes fi ps = .ok ((ps.flatMap (·.blocks)).length, xss.flatten) := by
      unfold Roles.layoutTensor
      simp only
      rw [h1]; rfl
    generalize hT : ((ps.flatMap (·.blocks)).length, xss.flatten) = t at ht
    have ht1 : t.1 = (d.pages.flatMap (·.blocks)).length := by rw [← hT]; exact hlen
    by_cases hn : ∀ out, lib.network t ps = .ok out → ¬ Answers out t.1
    · exact .inl (.network t ps hps.symm ht1 hn)
    · push Not at hn
      obtain ⟨out, ho, hy, hy', rows, r1, r2, r3⟩ := hn
      obtain ⟨roles, g1, g2⟩ := c41_most_probable_role_partial rows out.1 hy hy' r2
      right
      unfold predictRoles
      simp only
      rw [hps, hfi, ht, Outcome.bind, ho, Outcome.bind, ← ht1, ← r1, r3, g1, Outcome.bind]
      have hall : roles.all Option.isSome = true := by
        rw [List.all_eq_true]
        intro r hr
        obtain ⟨row, _, k, role, _, e, _⟩ := pl_forall₂_right g2 r hr
        rw [e]; rfl
      rw [if_pos hall]
      exact ⟨_, rfl⟩

/-! ## End to end -/

theorem fk_parsed {numbers : Str → List ℚ} {es : List Event} {s : State} (h : run (tablesOf numbers) {} es = .ok s) :
    FontsOf (fun f => ((toDocument s).fontInfos f).isSome = true) (toDocument s) := by
  intro p hp c hc
  obtain ⟨q, hq, rfl⟩ := List.mem_map.mp hp
  obtain ⟨g, hg, rfl⟩ := List.mem_map.mp hc
  obtain ⟨f, h1, _⟩ := c51_font_known _ _ s h q hq g (List.mem_append_left _ hg)
  simp [toDocument, toGlyph, h1]

/-- **C76.** Whatever is drawn within the pages and whatever stages are skipped, the program succeeds - unless the role prediction fails, for which there are only three reasons: counters wrapping around at 2³²,
a word beginning with a character behind U+00FF, and a neural network that does not return probabilities for each block.  (In particular, no font is ever unknown.) -/
theorem c76_failure_reasons {lib : Pipeline.Lib} (hl : LibOk lib) {numbers : Str → List ℚ} {cfg : Config} {events : List Event} (h : Drawable numbers cfg events)
    (dur : ℕ → ℕ) (ts : Option (List (Str × ℕ))) :
    (∃ d' ts', Cli.process (env lib none (parse numbers events) dur) cfg ⟨{}, ts⟩ = .ok (0, ⟨d', ts'⟩)) ∨
    Enabled cfg .readingOrder ∧ ∃ d1, PredictionFails lib d1 ∧
      ((∃ m, predictRoles lib d1 = .throw m ∧ Cli.process (env lib none (parse numbers events) dur) cfg ⟨{}, ts⟩ = .throw m) ∨
       ∃ m, predictRoles lib d1 = .ub m ∧ Cli.process (env lib none (parse numbers events) dur) cfg ⟨{}, ts⟩ = .ub m) := by
  obtain ⟨s, h1, h2⟩ := ee_parse h
  rcases pl_process (by decide) hl (parse numbers events) dur cfg {} (toDocument s) ts (h2 _ _) (c75_parsed _ _ s h1 h.inPage) with
    ⟨d', ts', g, _⟩ | ⟨he, d1, hi, hr⟩
  · exact .inl ⟨d', ts', g⟩
  · refine .inr ⟨he, d1, ?_, hr⟩
    by_cases hm : Moderate d1
    · have hb := fk_blocks hi (fk_parsed h1) hm
      rcases fk_predict (lib := lib) (d := d1) (by intro p hp b hb'; rw [hi.fonts]; exact hb p hp b hb') with h3 | ⟨rs, h3⟩
      · exact h3
      · rcases hr with ⟨m, h4, _⟩ | ⟨m, h4, _⟩ <;> rw [h3] at h4 <;> cases h4
    · exact .huge hm

/-- **C76.** If the run succeeds, writing the result as JSON lines succeeds, whatever units and roles are chosen: each font of a character is known. -/
theorem c76_jsonl_succeeds {lib : Pipeline.Lib} (hl : LibOk lib) {numbers : Str → List ℚ} {cfg : Config} {events : List Event} (h : Drawable numbers cfg events)
    {dur : ℕ → ℕ} {ts ts' : Option (List (Str × ℕ))} {d' : Document}
    (hrun : Cli.process (env lib none (parse numbers events) dur) cfg ⟨{}, ts⟩ = .ok (0, ⟨d', ts'⟩))
    (P : Serialize.Printer) (roles : List Serialize.Role) (units : List Serialize.Unit') :
    ∃ out, Serialize.jsonl P roles (toSDoc d') units = .ok out := by
  obtain ⟨s, h1, h2⟩ := ee_parse h
  have hu : ¬ UnknownFont roles (toSDoc d') := by
    rcases pl_process (by decide) hl (parse numbers events) dur cfg {} (toDocument s) ts (h2 _ _) (c75_parsed _ _ s h1 h.inPage) with
      ⟨d'', ts'', g, d1, hi, he⟩ | ⟨_, d1, _, ⟨m, _, g⟩ | ⟨m, _, g⟩⟩
    · rw [hrun] at g
      simp only [Outcome.ok.injEq, Prod.mk.injEq, true_and] at g
      have g' : d' = d'' := congrArg Cli.PState.doc g
      subst g'
      rw [he]
      rintro ⟨b, hb, l, hlm, w, hw, c, hc, _, hnone⟩
      obtain ⟨q, hq, hb⟩ := List.mem_flatMap.mp (List.mem_of_mem_filter hb)
      obtain ⟨k, hk, rfl⟩ := List.mem_mapIdx.mp hq
      obtain ⟨b', hb', rfl⟩ := List.mem_map.mp hb
      obtain ⟨i, hi', rfl⟩ := List.mem_map.mp hlm
      obtain ⟨w', hw', rfl⟩ := List.mem_map.mp hw
      obtain ⟨c', hc', rfl⟩ := List.mem_map.mp hc
      simp only at hw'
      cases hli : d1.lines[i]? with
      | none => rw [hli] at hw'; simp at hw'
      | some l =>
        rw [hli] at hw'
        have := (fk_lines hi (fk_parsed h1) l (List.mem_of_getElem? hli) w' hw').2 c' hc'
        rw [← hi.fonts] at this
        simp only [toSDoc, toSChar, Option.map_eq_none_iff] at hnone
        rw [hnone] at this
        cases this
    · rw [hrun] at g; cases g
    · rw [hrun] at g; cases g
  obtain ⟨t1, t2⟩ := c36_throws_iff P roles (toSDoc d') units
  generalize Serialize.jsonl P roles (toSDoc d') units = o at t1 t2
  cases o with
  | ok out => exact ⟨out, rfl⟩
  | throw m => exact absurd (t1.mp rfl).2 hu
  | ub m => cases t2

/-! ### Examples -/

/-- Non-vacuity: the drawing operations of the example meet the assumptions, and the run succeeds. -/
example : Drawable (fun _ => []) eeConfig eeEvents ∧ eeOutput.isSome = true :=
  ⟨eeEvents_drawable, by decide +kernel⟩

/-- Non-vacuity: there are usable answers of the network, and useless ones. -/
example : Answers (2, [some 1, some 0, some (1 / 3), some (2 / 3)]) 2 ∧ ¬ Answers (2, [some 1, none]) 1 := by
  refine ⟨⟨by decide, by decide, [[1, 0], [1 / 3, 2 / 3]], rfl, by decide +kernel, rfl⟩, ?_⟩
  rintro ⟨_, _, rows, _, _, e⟩
  have : (none : Option ℚ) ∈ rows.flatten.map some := by rw [← e]; simp
  simp at this

end Verif.Props

import Verif.Props.Wiring
import Verif.Props.WiringOutput
import Verif.Props.Scripts

/-!
# C69: the content of the text lines of a finished document
-/

namespace Verif.Props

open Verif.Math Verif.Elements Verif.Spec Verif.Words Verif.TextLines Verif.Pipeline Verif.Counter
open Verif.PageSegmentation (PElem DocStats PageElems)
open Verif.Cli (StageConfig)

/-! ## Hulls -/

theorem lc_extendAll (es : List Box) : ∀ b : Box, IsHull (b :: es) (Box.extendAll b es) := by
  induction es with
  | nil =>
    intro b
    refine ⟨⟨⟨b, by simp, rfl⟩, ?_⟩, ⟨⟨b, by simp, rfl⟩, ?_⟩, ⟨⟨b, by simp, rfl⟩, ?_⟩, ⟨⟨b, by simp, rfl⟩, ?_⟩⟩ <;>
    · intro e he
      rw [List.mem_singleton] at he
      subst he
      exact le_refl _
  | cons e es ih =>
    intro b
    obtain ⟨h1, h2, h3, h4⟩ := ih (b.extend e)
    have hstep : Box.extendAll b (e :: es) = Box.extendAll (b.extend e) es := rfl
    rw [hstep]
    have least : ∀ (f : Box → ℚ) (v : ℚ), f (b.extend e) = min (f b) (f e) → IsLeastOf (b.extend e :: es) f v →
        IsLeastOf (b :: e :: es) f v := by
      rintro f v hf ⟨⟨x, hx, hv⟩, hall⟩
      have h0 := hall _ (List.mem_cons_self)
      rw [hf] at h0
      refine ⟨?_, ?_⟩
      · rcases List.mem_cons.mp hx with rfl | hx
        · rw [hf] at hv
          rcases min_choice (f b) (f e) with g | g <;> rw [g] at hv
          · exact ⟨b, by simp, hv⟩
          · exact ⟨e, by simp, hv⟩
        · exact ⟨x, by simp [hx], hv⟩
      · intro y hy
        rcases List.mem_cons.mp hy with rfl | hy
        · exact le_trans h0 (min_le_left _ _)
        · rcases List.mem_cons.mp hy with rfl | hy
          · exact le_trans h0 (min_le_right _ _)
          · exact hall y (by simp [hy])
    have greatest : ∀ (f : Box → ℚ) (v : ℚ), f (b.extend e) = max (f b) (f e) → IsGreatestOf (b.extend e :: es) f v →
        IsGreatestOf (b :: e :: es) f v := by
      rintro f v hf ⟨⟨x, hx, hv⟩, hall⟩
      have h0 := hall _ (List.mem_cons_self)
      rw [hf] at h0
      refine ⟨?_, ?_⟩
      · rcases List.mem_cons.mp hx with rfl | hx
        · rw [hf] at hv
          rcases max_choice (f b) (f e) with g | g <;> rw [g] at hv
          · exact ⟨b, by simp, hv⟩
          · exact ⟨e, by simp, hv⟩
        · exact ⟨x, by simp [hx], hv⟩
      · intro y hy
        rcases List.mem_cons.mp hy with rfl | hy
        · exact le_trans (le_max_left _ _) h0
        · rcases List.mem_cons.mp hy with rfl | hy
          · exact le_trans (le_max_right _ _) h0
          · exact hall y (by simp [hy])
    exact ⟨least _ _ (by simp only [Box.extend, minimum_eq_min]) h1, least _ _ (by simp only [Box.extend, minimum_eq_min]) h2,
      greatest _ _ (by simp only [Box.extend, maximum_eq_max]) h3, greatest _ _ (by simp only [Box.extend, maximum_eq_max]) h4⟩

/-- Extending a hull by more boxes, among them the old ones. -/
theorem lc_hull_extend {bs es : List Box} {b b' : Box} (h : IsHull bs b) (hsub : ∀ e ∈ bs, e ∈ es)
    (e1 : b'.leftX = b.leftX) (e2 : b'.upperY = b.upperY) (e3 : b'.rightX = b.rightX) (e4 : b'.lowerY = b.lowerY) :
    IsHull es (Box.extendAll b' es) := by
  obtain ⟨h1, h2, h3, h4⟩ := lc_extendAll es b'
  have least : ∀ (f : Box → ℚ) (v w : ℚ), f b' = w → IsLeastOf bs f w → IsLeastOf (b' :: es) f v → IsLeastOf es f v := by
    rintro f v w hf ⟨⟨y, hy, hw⟩, _⟩ ⟨⟨x, hx, hv⟩, hall⟩
    refine ⟨?_, fun z hz => hall z (by simp [hz])⟩
    rcases List.mem_cons.mp hx with rfl | hx
    · exact ⟨y, hsub y hy, by rw [hw, ← hf, hv]⟩
    · exact ⟨x, hx, hv⟩
  have greatest : ∀ (f : Box → ℚ) (v w : ℚ), f b' = w → IsGreatestOf bs f w → IsGreatestOf (b' :: es) f v →
      IsGreatestOf es f v := by
    rintro f v w hf ⟨⟨y, hy, hw⟩, _⟩ ⟨⟨x, hx, hv⟩, hall⟩
    refine ⟨?_, fun z hz => hall z (by simp [hz])⟩
    rcases List.mem_cons.mp hx with rfl | hx
    · exact ⟨y, hsub y hy, by rw [hw, ← hf, hv]⟩
    · exact ⟨x, hx, hv⟩
  exact ⟨least _ _ _ e1 h.left h1, least _ _ _ e2 h.upper h2, greatest _ _ _ e3 h.right h3, greatest _ _ _ e4 h.lower h4⟩

/-! ## Lines -/

/-- What a text line says about its words: its text is the texts of the words joined by single spaces, its box is the smallest one around
them, font name, font size and base line are most frequent among its characters. -/
structure LineContent (l : Line) : Prop where
  text : l.text = [' '].intercalate (l.words.map (·.text))
  box : IsHull (l.words.map fun w => normBox w.pos) l.pos
  freq : (l.words.flatMap (·.chars)) ≠ [] → (l.words.flatMap (·.chars)).length < 2 ^ 32 →
    IsMostFrequent ((l.words.flatMap (·.chars)).map (·.fontName)) l.fontName ∧
    IsMostFrequent ((l.words.flatMap (·.chars)).map (·.fontSize)) l.fontSize ∧
    IsMostFrequent ((l.words.flatMap (·.chars)).map (·.base)) l.base

/-- A good line with its content. -/
def FullLine (n : ℕ) (l : Line) : Prop := GoodLine n l ∧ LineContent l

theorem lc_props {n : ℕ} {lib : LineLib} (hs : LineSorts (PageWord n) (fun l => RoundedBox n l.pos) lib)
    {line l : Line} (hne : line.words ≠ []) (hw : ∀ w ∈ line.words, PageBox n w.pos)
    (hb : line.pos.leftX = dblMax ∧ line.pos.upperY = dblMax ∧ line.pos.rightX = dblMin ∧ line.pos.lowerY = dblMin ∨
      ∃ pre : List Word, (∀ w ∈ pre, w ∈ line.words) ∧ IsHull (pre.map fun w : Word => normBox w.pos) line.pos)
    (h : computeTextLineProperties lib line = .ok l) : LineContent l := by
  obtain ⟨f, hf⟩ : ∃ f, line.words.head? = some f := by
    cases hl : line.words with
    | nil => exact absurd hl hne
    | cons f _ => exact ⟨f, rfl⟩
  obtain ⟨h1, h2, h3, h4⟩ := props_shape h f hf
  have hperm : l.words.Perm line.words := by
    rw [h1]
    split
    · exact hs.wordsAsc _ fun w hw' => pl_pageWord (hw w hw')
    · exact hs.wordsDesc _ fun w hw' => pl_pageWord (hw w hw')
  refine ⟨h2, ?_, fun g1 g2 => h4 (List.length_pos_iff.mpr g1) g2⟩
  rw [h3]
  rcases hb with ⟨b1, b2, b3, b4⟩ | ⟨pre, hpre, hh⟩
  · refine extendAll_isHull ?_ b1 b2 b3 b4 ?_
    · intro hc
      rw [List.map_eq_nil_iff] at hc
      rw [hc] at hperm
      exact hne (List.nil_perm.mp hperm)
    · intro e he
      obtain ⟨w, hw', rfl⟩ := List.mem_map.mp he
      exact normBox_positive (pl_pageWord (hw w (hperm.subset hw')))
  · refine lc_hull_extend hh ?_ rfl rfl rfl rfl
    intro e he
    obtain ⟨w, hw', rfl⟩ := List.mem_map.mp he
    exact List.mem_map.mpr ⟨w, hperm.symm.subset (hpre w hw'), rfl⟩

theorem lc_mergeFrom {n : ℕ} {lib : LineLib} (hs : LineSorts (PageWord n) (fun l => RoundedBox n l.pos) lib)
    (acw : ℚ) (ls : List Line) : ∀ (prev : Line) (r : List Line × Bool), FullLine n prev → (∀ l ∈ ls, FullLine n l) →
      mergeFrom lib acw prev ls = .ok r → ∀ l ∈ r.1, FullLine n l := by
  induction ls with
  | nil =>
    intro prev r hp _ h
    simp only [mergeFrom, Outcome.ok.injEq] at h
    subst h
    simpa using hp
  | cons l ls ih =>
    intro prev r hp hl h
    rw [mergeFrom] at h
    split at h
    · cases hm : mergeTextLines lib l prev with
      | ok p =>
        rw [hm] at h
        simp only [Outcome.bind] at h
        have hww : ∀ w ∈ prev.words ++ l.words, PageBox n w.pos := by
          intro w hw
          rcases List.mem_append.mp hw with hw | hw
          · exact hp.1.words w hw
          · exact (hl l (by simp)).1.words w hw
        have hgp : FullLine n p := by
          refine ⟨pl_props hs (line := { prev with words := prev.words ++ l.words }) (by simp [hp.1.nonempty]) hww
            (.inr hp.1.box) hm, ?_⟩
          refine lc_props hs (line := { prev with words := prev.words ++ l.words }) (by simp [hp.1.nonempty]) hww
            (.inr ⟨prev.words, ?_, hp.2.box⟩) hm
          intro w hw
          exact List.mem_append_left _ hw
        cases hr : mergeFrom lib acw p ls with
        | ok r' =>
          rw [hr] at h
          simp only [Outcome.ok.injEq] at h
          subst h
          exact ih p r' hgp (fun x hx => hl x (by simp [hx])) hr
        | throw m => rw [hr] at h; cases h
        | ub m => rw [hr] at h; cases h
      | throw m => rw [hm] at h; cases h
      | ub m => rw [hm] at h; cases h
    · cases hr : mergeFrom lib acw l ls with
      | ok r' =>
        rw [hr] at h
        simp only [Outcome.bind, Outcome.ok.injEq] at h
        subst h
        intro x hx
        rcases List.mem_cons.mp hx with rfl | hx
        · exact hp
        · exact ih l r' (hl l (by simp)) (fun y hy => hl y (by simp [hy])) hr x hx
      | throw m => rw [hr] at h; cases h
      | ub m => rw [hr] at h; cases h

theorem lc_mergeRounds {n : ℕ} {lib : LineLib} (hs : LineSorts (PageWord n) (fun l => RoundedBox n l.pos) lib)
    (acw : ℚ) : ∀ (k : ℕ) (ls out : List Line), ls.length = k → (∀ l ∈ ls, FullLine n l) →
      mergeRounds lib acw ls = .ok out → ∀ l ∈ out, FullLine n l := by
  intro k
  induction k using Nat.strong_induction_on with
  | _ k ih =>
    intro ls out hk hl h
    have hround : ∀ r, mergeRound lib acw ls = .ok r → ∀ l ∈ r.1, FullLine n l := by
      intro r hr
      cases ls with
      | nil => simp only [mergeRound, Outcome.ok.injEq] at hr; subst hr; simp
      | cons l ls => exact lc_mergeFrom hs acw ls l r (hl l (by simp)) (fun x hx => hl x (by simp [hx])) hr
    rw [mergeRounds] at h
    split at h
    · next ls' hr => exact ih ls'.length (by rw [← hk]; exact mergeRound_shrinks lib acw ls ls' hr) ls' out rfl (hround _ hr) h
    · next ls' hr => injection h with h; subst h; exact hround _ hr
    · cases h
    · cases h

theorem lc_createAll {n : ℕ} {lib : LineLib} (hs : LineSorts (PageWord n) (fun l => RoundedBox n l.pos) lib)
    (es : List (ℚ × List Word)) (hne : ∀ e ∈ es, e.2 ≠ []) (hQ : ∀ e ∈ es, ∀ w ∈ e.2, PageBox n w.pos) :
    ∀ ls, createAll lib es = .ok ls → ∀ l ∈ ls, FullLine n l := by
  induction es with
  | nil => intro ls h; simp only [createAll, Outcome.ok.injEq] at h; subst h; simp
  | cons e es ih =>
    intro ls h
    rw [createAll] at h
    obtain ⟨l, hl, h⟩ := wi_bind h
    obtain ⟨r, hr, h⟩ := wi_bind h
    have h := wi_ok h
    subst h
    intro x hx
    rcases List.mem_cons.mp hx with rfl | hx
    · exact ⟨pl_props hs (line := { words := e.2 }) (hne e (by simp)) (hQ e (by simp)) (.inl ⟨rfl, rfl, rfl, rfl⟩) hl,
        lc_props hs (line := { words := e.2 }) (hne e (by simp)) (hQ e (by simp)) (.inl ⟨rfl, rfl, rfl, rfl⟩) hl⟩
    · exact ih (fun e he => hne e (by simp [he])) (fun e he => hQ e (by simp [he])) r hr x hx

theorem lc_rotationGroups {n : ℕ} {lib : LineLib} (hs : LineSorts (PageWord n) (fun l => RoundedBox n l.pos) lib)
    (acw : ℚ) (cs : List (ℤ × List (ℚ × List Word))) (hne : ∀ c ∈ cs, ∀ e ∈ c.2, e.2 ≠ [])
    (hQ : ∀ c ∈ cs, ∀ e ∈ c.2, ∀ w ∈ e.2, PageBox n w.pos) :
    ∀ gs, rotationGroups lib acw cs = .ok gs → ∀ l ∈ gs.flatten, FullLine n l := by
  induction cs with
  | nil => intro gs h; simp only [rotationGroups, Outcome.ok.injEq] at h; subst h; simp
  | cons c cs ih =>
    intro gs h
    rw [rotationGroups] at h
    obtain ⟨ls, hl, h⟩ := wi_bind h
    obtain ⟨r, hr, h⟩ := wi_bind h
    have h := wi_ok h
    subst h
    intro x hx
    rw [List.flatten_cons] at hx
    rcases List.mem_append.mp hx with hx | hx
    · have hp := lib.iterPerm _ c.2
      unfold linesOfRotation at hl
      obtain ⟨ls0, hc, hl⟩ := wi_bind hl
      have h0 := lc_createAll hs _ (fun e he => hne c (by simp) e (hp.subset he))
        (fun e he => hQ c (by simp) e (hp.subset he)) ls0 hc
      have hsort : (if c.1 = 0 ∨ c.1 = 1 then lib.sortRotLowerYAsc ls0 else lib.sortRotLowerYDesc ls0).Perm ls0 := by
        split
        · exact hs.linesAsc _ fun l hl => (h0 l hl).1.box.rounded
        · exact hs.linesDesc _ fun l hl => (h0 l hl).1.box.rounded
      exact lc_mergeRounds hs acw _ _ ls rfl (fun l hl => h0 l (hsort.subset hl)) hl x hx
    · exact ih (fun c hc => hne c (by simp [hc])) (fun c hc => hQ c (by simp [hc])) r hr x hx

theorem lc_segmentLines {n : ℕ} {lib : LineLib} (hs : LineSorts (PageWord n) (fun l => RoundedBox n l.pos) lib)
    (acw : ℚ) (page words : List Word) (hp : ∀ w ∈ page, GoodWord n w) (hw : ∀ w ∈ words, w ∈ page) (gs : List (List Line))
    (h : TextLines.segmentLines lib acw page words = .ok gs) : ∀ l ∈ gs.flatten, FullLine n l := by
  have hQ : ∀ w ∈ words.flatMap (wordGroup page), GoodWord n w := by
    intro w hw'
    obtain ⟨v, hv, hw'⟩ := List.mem_flatMap.mp hw'
    exact hp w (pl_wordGroup_mem (hw v hv) hw')
  obtain ⟨g1, g2⟩ := cluster_spec page words
  have hit := lib.iterPerm _ (cluster page words)
  refine lc_rotationGroups hs acw _ (fun c hc => g2 c (hit.subset hc)) ?_ gs h
  intro c hc e he w hw'
  exact (hQ w (g1.subset (List.mem_flatMap.mpr ⟨c, hit.subset hc, List.mem_flatMap.mpr ⟨e, he, hw'⟩⟩))).1

theorem lc_linesOfSegments {n : ℕ} {lib : Pipeline.Lib}
    (hs : LineSorts (PageWord n) (fun l => RoundedBox n l.pos) lib.lines) (acw : ℚ) (page : List Word)
    (hp : ∀ w ∈ page, GoodWord n w) (ss : List Segment) : ∀ (k : ℕ) (r : List Segment × List TextLine),
    linesOfSegments lib acw page k ss = .ok r → ∀ l ∈ r.2, FullLine n l.line := by
  induction ss with
  | nil => intro k r h; have h := wi_ok h; subst h; simp
  | cons s ss ih =>
    intro k r h
    rw [linesOfSegments] at h
    obtain ⟨r1, h1, h⟩ := wi_bind h
    obtain ⟨r2, h2, h⟩ := wi_bind h
    have h := wi_ok h
    subst h
    intro l hl
    rcases List.mem_append.mp hl with hl | hl
    · unfold linesOfSegment at h1
      split at h1
      · have h1 := wi_ok h1; subst h1; simp at hl
      · obtain ⟨gs, hg, h1⟩ := wi_bind h1
        obtain ⟨t, _, h1⟩ := wi_bind h1
        have h1 := wi_ok h1
        subst h1
        simp only at hl
        obtain ⟨x, hx, rfl⟩ := List.mem_map.mp hl
        refine lc_segmentLines hs acw page (s.words page) hp ?_ gs hg x.line ?_
        · intro w hw
          obtain ⟨i, _, hi⟩ := List.mem_filterMap.mp hw
          exact List.mem_of_getElem? hi
        · rw [← (c26_links k gs).1]
          exact List.mem_map.mpr ⟨x, hx, rfl⟩
    · exact ih _ _ h2 l hl

theorem lc_linesPages {n : ℕ} {lib : Pipeline.Lib}
    (hs : LineSorts (PageWord n) (fun l => RoundedBox n l.pos) lib.lines) (acw : ℚ) (ps : List Page) :
    ∀ (k : ℕ) (r : List Page × List TextLine), (∀ p ∈ ps, ∀ w ∈ p.words, GoodWord n w) →
    linesPages lib acw k ps = .ok r → ∀ l ∈ r.2, FullLine n l.line := by
  induction ps with
  | nil => intro k r _ h; have h := wi_ok h; subst h; simp
  | cons p ps ih =>
    intro k r hp h
    rw [linesPages] at h
    obtain ⟨r1, h1, h⟩ := wi_bind h
    obtain ⟨r2, h2, h⟩ := wi_bind h
    have h := wi_ok h
    subst h
    intro l hl
    rcases List.mem_append.mp hl with hl | hl
    · have hmem : l.line ∈ r1.2.map (·.line) := by
        rw [← pl_setHierarchy acw k r1.2]
        exact List.mem_map.mpr ⟨l, hl, rfl⟩
      obtain ⟨x, hx, e⟩ := List.mem_map.mp hmem
      rw [← e]
      exact lc_linesOfSegments hs acw p.words (hp p (by simp)) p.segments k r1 h1 x hx
    · exact ih _ _ (fun q hq => hp q (by simp [hq])) h2 l hl

theorem lc_scriptLine (mf : ℚ) {l : Line} (h : LineContent l) : LineContent (Scripts.scriptLine mf l).1 := by
  have hw : List.Forall₂ (WordFlagged mf l.base) l.words (Scripts.scriptLine mf l).1.words := (scriptWords_spec mf l.base l.words {}).1
  have e1 : (Scripts.scriptLine mf l).1.text = l.text := rfl
  have e2 : (Scripts.scriptLine mf l).1.pos = l.pos := rfl
  have e3 : (Scripts.scriptLine mf l).1.fontName = l.fontName := rfl
  have e4 : (Scripts.scriptLine mf l).1.fontSize = l.fontSize := rfl
  have e5 : (Scripts.scriptLine mf l).1.base = l.base := rfl
  generalize (Scripts.scriptLine mf l).1 = l' at hw e1 e2 e3 e4 e5 ⊢
  obtain ⟨t, p, n1⟩ := lc_scriptWords (fun g => g.fontName) (fun _ _ _ _ g => (congrArg (fun g : Glyph => g.fontName) g.rest :)) hw
  obtain ⟨_, _, n2⟩ := lc_scriptWords (fun g => g.fontSize) (fun _ _ _ _ g => (congrArg (fun g : Glyph => g.fontSize) g.rest :)) hw
  obtain ⟨_, _, n3⟩ := lc_scriptWords (fun g => g.base) (fun _ _ _ _ g => (congrArg (fun g : Glyph => g.base) g.rest :)) hw
  have hlen : (l'.words.flatMap (·.chars)).length = (l.words.flatMap (·.chars)).length := by
    have := congrArg List.length n1
    rwa [List.length_map, List.length_map] at this
  refine ⟨?_, ?_, ?_⟩
  · rw [e1, t]; exact h.text
  · have : (l'.words.map fun w => normBox w.pos) = (l'.words.map (·.pos)).map normBox := by rw [List.map_map]; rfl
    rw [this, p, e2, List.map_map]
    exact h.box
  · intro g1 g2
    rw [n1, n2, n3, e3, e4, e5]
    refine h.freq ?_ (by omega)
    intro hc
    rw [hc] at hlen
    exact g1 (List.length_eq_zero_iff.mp hlen)

/-- **C69 (content of the lines).** In the finished document every text line consists of its words: its text is the texts of its words, joined by single spaces, in the order of the words, its box is the
smallest box around their boxes, and font name, font size and base line are those of most of its characters. -/
theorem c69_line_content {lib : Pipeline.Lib} {n : ℕ} {cfg : Cli.Config} {d0 d' : Document} (h : FullRun lib n cfg d0 d') :
    ∀ l ∈ d'.lines, LineContent l.line := by
  obtain ⟨s1, s4, ps2, ps3, ps6, ls6, bst, bss, rs, hW⟩ := h.whole
  obtain ⟨l0, l3, l6⟩ := wi_lengths h hW
  have hs := c26_sorts_are_permutations h.sorts.lines h.precision
  have e3 : d'.pages.map (·.words) = ps3.map (·.words) := wi_map_eq l3 fun k p hk => by
    obtain ⟨p0, p2, p3, p6, bs, hf⟩ := wi_finished h.parsed hW k p hk
    exact ⟨p3, hf.at3, by rw [hf.page, hf.only6]⟩
  have hg : ∀ p ∈ ps3.map (segmentPage lib s4), ∀ w ∈ p.words, GoodWord n w := by
    intro p hp w hw
    obtain ⟨q, hq, rfl⟩ := List.mem_map.mp hp
    have hw : w ∈ q.words := hw
    have : q.words ∈ d'.pages.map (·.words) := by rw [e3]; exact List.mem_map.mpr ⟨q, hq, rfl⟩
    obtain ⟨p', hp', e⟩ := List.mem_map.mp this
    obtain ⟨p0, _, hi⟩ := pl_forall₂_right (wi_final h).pages p' hp'
    exact hi.good w (by rw [e]; exact hw)
  have hl := lc_linesPages hs s4.avgCharWidth _ 0 _ hg hW.lines
  intro l hl'
  rw [hW.scripts] at hl'
  obtain ⟨x, hx, rfl⟩ := List.mem_map.mp hl'
  exact lc_scriptLine _ (hl x hx).2

/-- The lines of `wiDoc` have several words each. -/
example : wiResult.map (fun d => d.lines.map fun l => (l.line.words.map fun w => String.ofList w.text, String.ofList l.line.text)) =
    some [(["a", "bc-"], "a bc-"), (["de", "f"], "de f"), (["gh", "i"], "gh i"), (["jk"], "jk"), (["lm"], "lm")] := by decide +kernel

end Verif.Props

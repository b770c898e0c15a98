import Verif.Props.PipelineWords
import Verif.Props.LineHierarchy
import Verif.Props.TextBlocks

/-!
# C65: text line detection
-/

namespace Verif.Props

open Verif.Math Verif.Elements Verif.Spec Verif.Words Verif.TextLines Verif.Pipeline Verif.Counter
open Verif.PageSegmentation (PElem DocStats PageElems)

/-! ## The boxes of the lines -/

/-- A line of words on the page whose box lies on the page. -/
structure GoodLine (n : ℕ) (l : Line) : Prop where
  nonempty : l.words ≠ []
  words : ∀ w ∈ l.words, PageBox n w.pos
  box : PageBox n l.pos
  page : ∃ w ∈ l.words, l.pos.pageNum = w.pos.pageNum
  font : (l.words.flatMap (·.chars)) ≠ [] → (l.words.flatMap (·.chars)).length < 2 ^ 32 → l.fontName ∈ (l.words.flatMap (·.chars)).map (·.fontName)

/-- The box before the words are added: that of a new line, or that of the line the words are added to. -/
def StartBox (n : ℕ) (b : Box) : Prop :=
  (b.leftX = dblMax ∧ b.upperY = dblMax ∧ b.rightX = dblMin ∧ b.lowerY = dblMin) ∨ PageBox n b

theorem pl_props {n : ℕ} {lib : LineLib} (hs : LineSorts (PageWord n) (fun l => RoundedBox n l.pos) lib)
    {line l : Line} (hne : line.words ≠ []) (hw : ∀ w ∈ line.words, PageBox n w.pos) (hb : StartBox n line.pos)
    (h : computeTextLineProperties lib line = .ok l) : GoodLine n l := by
  obtain ⟨f, hf⟩ : ∃ f, line.words.head? = some f := by
    cases hl : line.words with
    | nil => exact absurd hl hne
    | cons f _ => exact ⟨f, rfl⟩
  obtain ⟨h1, _, h3, h4⟩ := props_shape h f hf
  have hperm : l.words.Perm line.words := by
    rw [h1]
    split
    · exact hs.wordsAsc _ fun w hw' => pl_pageWord (hw w hw')
    · exact hs.wordsDesc _ fun w hw' => pl_pageWord (hw w hw')
  have hlne : l.words ≠ [] := by
    intro hc; rw [hc] at hperm; exact hne (List.nil_perm.mp hperm)
  have hlw : ∀ w ∈ l.words, PageBox n w.pos := fun w hw' => hw w (hperm.subset hw')
  have hnorm : ∀ e ∈ l.words.map fun w => normBox w.pos, PageBox n e := by
    intro e he
    obtain ⟨w, hw', rfl⟩ := List.mem_map.mp he
    exact pl_norm (hlw w hw')
  refine ⟨hlne, hlw, ?_, ⟨f, hperm.symm.subset (List.mem_of_mem_head? hf), by rw [h3]; exact (extendAll_rest _ _).1⟩,
    fun g1 g2 => (h4 (List.length_pos_iff.mpr g1) g2).1.1⟩
  rw [h3]
  rcases hb with ⟨b1, b2, b3, b4⟩ | hb
  · exact pl_hull (by simpa using hlne) b1 b2 b3 b4 hnorm
  · exact pl_extendAll (pl_congr hb rfl rfl rfl rfl) hnorm

theorem pl_mergeFrom {n : ℕ} {lib : LineLib} (hs : LineSorts (PageWord n) (fun l => RoundedBox n l.pos) lib)
    (acw : ℚ) (ls : List Line) : ∀ (prev : Line) (r : List Line × Bool), GoodLine n prev → (∀ l ∈ ls, GoodLine n l) →
      mergeFrom lib acw prev ls = .ok r → ∀ l ∈ r.1, GoodLine n l := by
  induction ls with
  | nil =>
    intro prev r hp _ h
    simp only [mergeFrom, Outcome.ok.injEq] at h
    subst h
    simpa using hp
  | cons l ls ih =>
    intro prev r hp hl h
    rw [mergeFrom] at h
    split at h
    · cases hm : mergeTextLines lib l prev with
      | ok p =>
        rw [hm] at h
        simp only [Outcome.bind] at h
        have hgp : GoodLine n p := by
          refine pl_props hs (line := { prev with words := prev.words ++ l.words }) ?_ ?_ (.inr hp.box) hm
          · simp [hp.nonempty]
          · intro w hw
            rcases List.mem_append.mp hw with hw | hw
            · exact hp.words w hw
            · exact (hl l (by simp)).words w hw
        cases hr : mergeFrom lib acw p ls with
        | ok r' =>
          rw [hr] at h
          simp only [Outcome.ok.injEq] at h
          subst h
          exact ih p r' hgp (fun x hx => hl x (by simp [hx])) hr
        | throw m => rw [hr] at h; cases h
        | ub m => rw [hr] at h; cases h
      | throw m => rw [hm] at h; cases h
      | ub m => rw [hm] at h; cases h
    · cases hr : mergeFrom lib acw l ls with
      | ok r' =>
        rw [hr] at h
        simp only [Outcome.bind, Outcome.ok.injEq] at h
        subst h
        intro x hx
        rcases List.mem_cons.mp hx with rfl | hx
        · exact hp
        · exact ih l r' (hl l (by simp)) (fun y hy => hl y (by simp [hy])) hr x hx
      | throw m => rw [hr] at h; cases h
      | ub m => rw [hr] at h; cases h

theorem pl_mergeRounds {n : ℕ} {lib : LineLib} (hs : LineSorts (PageWord n) (fun l => RoundedBox n l.pos) lib)
    (acw : ℚ) : ∀ (k : ℕ) (ls out : List Line), ls.length = k → (∀ l ∈ ls, GoodLine n l) →
      mergeRounds lib acw ls = .ok out → ∀ l ∈ out, GoodLine n l := by
  intro k
  induction k using Nat.strong_induction_on with
  | _ k ih =>
    intro ls out hk hl h
    have hround : ∀ r, mergeRound lib acw ls = .ok r → ∀ l ∈ r.1, GoodLine n l := by
      intro r hr
      cases ls with
      | nil => simp only [mergeRound, Outcome.ok.injEq] at hr; subst hr; simp
      | cons l ls => exact pl_mergeFrom hs acw ls l r (hl l (by simp)) (fun x hx => hl x (by simp [hx])) hr
    rw [mergeRounds] at h
    split at h
    · next ls' hr => exact ih ls'.length (by rw [← hk]; exact mergeRound_shrinks lib acw ls ls' hr) ls' out rfl (hround _ hr) h
    · next ls' hr => injection h with h; subst h; exact hround _ hr
    · cases h
    · cases h

theorem pl_createAll {n : ℕ} {lib : LineLib} (hs : LineSorts (PageWord n) (fun l => RoundedBox n l.pos) lib)
    (es : List (ℚ × List Word)) (hne : ∀ e ∈ es, e.2 ≠ []) (hQ : ∀ e ∈ es, ∀ w ∈ e.2, PageBox n w.pos) :
    ∀ ls, createAll lib es = .ok ls → ∀ l ∈ ls, GoodLine n l := by
  induction es with
  | nil => intro ls h; simp only [createAll, Outcome.ok.injEq] at h; subst h; simp
  | cons e es ih =>
    intro ls h
    rw [createAll] at h
    cases hl : createTextLine lib e.2 with
    | ok l =>
      rw [hl] at h
      simp only [Outcome.bind] at h
      cases hr : createAll lib es with
      | ok r =>
        rw [hr] at h
        simp only [Outcome.ok.injEq] at h
        subst h
        intro x hx
        rcases List.mem_cons.mp hx with rfl | hx
        · exact pl_props hs (line := { words := e.2 }) (hne e (by simp)) (hQ e (by simp)) (.inl ⟨rfl, rfl, rfl, rfl⟩) hl
        · exact ih (fun e he => hne e (by simp [he])) (fun e he => hQ e (by simp [he])) r hr x hx
      | throw m => rw [hr] at h; cases h
      | ub m => rw [hr] at h; cases h
    | throw m => rw [hl] at h; cases h
    | ub m => rw [hl] at h; cases h

theorem pl_rotationGroups {n : ℕ} {lib : LineLib} (hs : LineSorts (PageWord n) (fun l => RoundedBox n l.pos) lib)
    (acw : ℚ) (cs : List (ℤ × List (ℚ × List Word))) (hne : ∀ c ∈ cs, ∀ e ∈ c.2, e.2 ≠ [])
    (hQ : ∀ c ∈ cs, ∀ e ∈ c.2, ∀ w ∈ e.2, PageBox n w.pos) :
    ∀ gs, rotationGroups lib acw cs = .ok gs → ∀ l ∈ gs.flatten, GoodLine n l := by
  induction cs with
  | nil => intro gs h; simp only [rotationGroups, Outcome.ok.injEq] at h; subst h; simp
  | cons c cs ih =>
    intro gs h
    rw [rotationGroups] at h
    cases hl : linesOfRotation lib acw c.1 c.2 with
    | ok ls =>
      rw [hl] at h
      simp only [Outcome.bind] at h
      cases hr : rotationGroups lib acw cs with
      | ok r =>
        rw [hr] at h
        simp only [Outcome.ok.injEq] at h
        subst h
        intro x hx
        rw [List.flatten_cons] at hx
        rcases List.mem_append.mp hx with hx | hx
        · have hp := lib.iterPerm _ c.2
          unfold linesOfRotation at hl
          cases hc : createAll lib (lib.iter _ c.2) with
          | ok ls0 =>
            rw [hc] at hl
            simp only [Outcome.bind] at hl
            have h0 := pl_createAll hs _ (fun e he => hne c (by simp) e (hp.subset he))
              (fun e he => hQ c (by simp) e (hp.subset he)) ls0 hc
            have hsort : (if c.1 = 0 ∨ c.1 = 1 then lib.sortRotLowerYAsc ls0 else lib.sortRotLowerYDesc ls0).Perm ls0 := by
              split
              · exact hs.linesAsc _ fun l hl => (h0 l hl).box.rounded
              · exact hs.linesDesc _ fun l hl => (h0 l hl).box.rounded
            exact pl_mergeRounds hs acw _ _ ls rfl (fun l hl => h0 l (hsort.subset hl)) hl x hx
          | throw m => rw [hc] at hl; cases hl
          | ub m => rw [hc] at hl; cases hl
        · exact ih (fun c hc => hne c (by simp [hc])) (fun c hc => hQ c (by simp [hc])) r hr x hx
      | throw m => rw [hr] at h; cases h
      | ub m => rw [hr] at h; cases h
    | throw m => rw [hl] at h; cases h
    | ub m => rw [hl] at h; cases h

/-- A word as detected: on the page and not tiny. -/
def GoodWord (n : ℕ) (w : Word) : Prop := PageBox n w.pos ∧ Inked w

theorem pl_wordGroup_mem {page : List Word} {w x : Word} (hw : w ∈ page) (hx : x ∈ wordGroup page w) : x ∈ page := by
  unfold wordGroup at hx
  split at hx
  · simp at hx
  · rcases List.mem_cons.mp hx with rfl | hx
    · exact hw
    · obtain ⟨i, _, hi⟩ := List.mem_filterMap.mp hx
      exact List.mem_of_getElem? hi

/-- The lines of one segment. -/
theorem pl_segmentLines {n : ℕ} {lib : LineLib} (hs : LineSorts (PageWord n) (fun l => RoundedBox n l.pos) lib)
    (acw : ℚ) (page words : List Word) (hp : ∀ w ∈ page, GoodWord n w) (hw : ∀ w ∈ words, w ∈ page) :
    ∃ gs, segmentLines lib acw page words = .ok gs ∧
      (gs.flatten.flatMap (·.words)).Perm (words.flatMap (wordGroup page)) ∧ ∀ l ∈ gs.flatten, GoodLine n l := by
  have hQ : ∀ w ∈ words.flatMap (wordGroup page), GoodWord n w := by
    intro w hw'
    obtain ⟨v, hv, hw'⟩ := List.mem_flatMap.mp hw'
    exact hp w (pl_wordGroup_mem (hw v hv) hw')
  obtain ⟨gs, h1, h2, _⟩ := c26_segment_partial hs acw page words fun w hw' => ⟨pl_pageWord (hQ w hw').1, (hQ w hw').2⟩
  refine ⟨gs, h1, ?_, ?_⟩
  · refine h2.trans (List.Perm.of_eq ?_)
    clear h1 h2 hQ hw
    induction words with
    | nil => rfl
    | cons w ws ih =>
      rw [List.flatMap_cons, List.filter_cons, ← ih]
      cases hw : w.partOf <;> simp [wordGroup, hw]
  · obtain ⟨g1, g2⟩ := cluster_spec page words
    have hit := lib.iterPerm _ (cluster page words)
    refine pl_rotationGroups hs acw _ (fun c hc => g2 c (hit.subset hc)) ?_ gs h1
    intro c hc e he w hw'
    exact (hQ w (g1.subset (List.mem_flatMap.mpr ⟨c, hit.subset hc, List.mem_flatMap.mpr ⟨e, he, hw'⟩⟩))).1

theorem pl_trimBox (h : HashOrder) (seg : Box) (lines : List Box) : ∃ t, computeTrimBox h seg lines = .ok t := by
  unfold computeTrimBox trimRightX
  obtain ⟨p, hp, _⟩ := mostFreqAndCount_spec h (lines.map fun b => roundTo b.getRotRightX 0)
  simp only
  split
  · next hpos =>
    rw [if_pos hpos] at hp
    rw [hp]
    exact ⟨_, rfl⟩
  · exact ⟨_, rfl⟩

/-! ## The lines of a segment, a page and the document -/

theorem pl_linesOfSegment {n : ℕ} {lib : Pipeline.Lib}
    (hs : LineSorts (PageWord n) (fun l => RoundedBox n l.pos) lib.lines) (acw : ℚ) (page : List Word)
    (hp : ∀ w ∈ page, GoodWord n w) (k : ℕ) (s : Segment) (hl : s.lines = []) :
    ∃ s' tls, linesOfSegment lib acw page k s = .ok (s', tls) ∧ s'.lines = List.range' k tls.length ∧
      s'.elements = s.elements ∧ s'.pos = s.pos ∧
      (tls.flatMap (·.line.words)).Perm ((s.words page).flatMap (wordGroup page)) ∧ ∀ l ∈ tls, GoodLine n l.line := by
  unfold linesOfSegment
  split
  · next he =>
    refine ⟨s, [], rfl, by simp [hl], rfl, rfl, ?_, by simp⟩
    rw [List.isEmpty_iff.mp he]; simp
  · have hmem : ∀ w ∈ s.words page, w ∈ page := by
      intro w hw
      obtain ⟨i, _, hi⟩ := List.mem_filterMap.mp hw
      exact List.mem_of_getElem? hi
    obtain ⟨gs, h1, h2, h3⟩ := pl_segmentLines hs acw page (s.words page) hp hmem
    obtain ⟨t, ht⟩ := pl_trimBox lib.lines.hash s.pos (gs.flatten.map (·.pos))
    obtain ⟨e1, e2, _⟩ := c26_links k gs
    rw [h1]
    simp only [Outcome.bind]
    rw [ht]
    refine ⟨_, _, rfl, ?_, rfl, rfl, ?_, ?_⟩
    · simp only [hl, List.nil_append, List.length_map, linkGroups_length]
      exact e2
    · rw [List.flatMap_map]
      have : (linkGroups k gs).flatMap (fun l => l.line.words) = ((linkGroups k gs).map (·.line)).flatMap (·.words) := by
        rw [List.flatMap_map]
      simp only
      rw [this, e1]
      exact h2
    · intro l hl'
      obtain ⟨x, hx, rfl⟩ := List.mem_map.mp hl'
      refine h3 x.line ?_
      rw [← e1]
      exact List.mem_map.mpr ⟨x, hx, rfl⟩

theorem pl_linesOfSegments {n : ℕ} {lib : Pipeline.Lib}
    (hs : LineSorts (PageWord n) (fun l => RoundedBox n l.pos) lib.lines) (acw : ℚ) (page : List Word)
    (hp : ∀ w ∈ page, GoodWord n w) : ∀ (ss : List Segment) (k : ℕ), (∀ s ∈ ss, s.lines = []) →
    ∃ ss' tls, linesOfSegments lib acw page k ss = .ok (ss', tls) ∧
      ss'.flatMap (·.lines) = List.range' k tls.length ∧ ss'.map (·.elements) = ss.map (·.elements) ∧
      (tls.flatMap (·.line.words)).Perm ((ss.flatMap fun s => s.words page).flatMap (wordGroup page)) ∧
      ∀ l ∈ tls, GoodLine n l.line := by
  intro ss
  induction ss with
  | nil => intro k _; exact ⟨[], [], rfl, rfl, rfl, by simp, by simp⟩
  | cons s ss ih =>
    intro k hl
    obtain ⟨s', t1, h1, h2, he, _, h3, h4⟩ := pl_linesOfSegment hs acw page hp k s (hl s (by simp))
    obtain ⟨ss', t2, g1, g2, g0, g3, g4⟩ := ih (k + t1.length) fun x hx => hl x (by simp [hx])
    refine ⟨s' :: ss', t1 ++ t2, ?_, ?_, by simp [g0, he], ?_, ?_⟩
    · rw [linesOfSegments, h1]
      simp only [Outcome.bind]
      rw [g1]
    · rw [List.flatMap_cons, h2, g2, List.length_append, List.range'_append_1]
    · rw [List.flatMap_append, List.flatMap_cons, List.flatMap_append]
      exact h3.append g3
    · intro l hl'
      rcases List.mem_append.mp hl' with hl' | hl'
      · exact h4 l hl'
      · exact g4 l hl'

/-- The words of the line with rank `i`. -/
def wordsAt (ls : List TextLine) (i : ℕ) : List Word := ((ls[i]?).map fun l => l.line.words).getD []

theorem pl_setHierarchy (acw : ℚ) (k : ℕ) (ls : List TextLine) :
    (setHierarchy acw k ls).map (·.line) = ls.map (·.line) := by
  unfold setHierarchy
  simp only
  apply List.ext_getElem?
  intro i
  simp only [List.getElem?_map, List.getElem?_mapIdx]
  cases ls[i]? <;> rfl

theorem pl_range'_flatMap (pre ls post : List TextLine) :
    (List.range' pre.length ls.length).flatMap (wordsAt (pre ++ ls ++ post)) = ls.flatMap (·.line.words) := by
  induction ls generalizing pre with
  | nil => simp
  | cons l ls ih =>
    rw [List.length_cons, List.range'_succ, List.flatMap_cons, List.flatMap_cons]
    have h1 : wordsAt (pre ++ l :: ls ++ post) pre.length = l.line.words := by
      unfold wordsAt
      simp
    rw [h1]
    congr 1
    have := ih (pre ++ [l])
    simpa using this

/-- The relation between a page before and after text line detection; `ls` are the lines of the document. -/
structure LinesOf (ls : List TextLine) (p p' : Page) : Prop where
  same : p' = { p with segments := p'.segments }
  elems : p'.segments.map (·.elements) = p.segments.map (·.elements)
  text : ((p'.segments.flatMap (·.lines)).flatMap (wordsAt ls)).Perm
    ((p.segments.flatMap fun s => s.words p.words).flatMap (wordGroup p.words))

theorem pl_linesPages {n : ℕ} {lib : Pipeline.Lib}
    (hs : LineSorts (PageWord n) (fun l => RoundedBox n l.pos) lib.lines) (acw : ℚ) :
    ∀ (ps : List Page) (pre : List TextLine), (∀ p ∈ ps, ∀ w ∈ p.words, GoodWord n w) → (∀ p ∈ ps, ∀ s ∈ p.segments, s.lines = []) →
    ∃ ps' tls, linesPages lib acw pre.length ps = .ok (ps', tls) ∧
      ps'.flatMap (fun p => p.segments.flatMap (·.lines)) = List.range' pre.length tls.length ∧
      (∀ post, List.Forall₂ (LinesOf (pre ++ tls ++ post)) ps ps') ∧ ∀ l ∈ tls, GoodLine n l.line := by
  intro ps
  induction ps with
  | nil => intro pre _ _; exact ⟨[], [], rfl, rfl, fun _ => .nil, by simp⟩
  | cons p ps ih =>
    intro pre hw hl
    obtain ⟨ss', t1, h1, h2, he, h3, h4⟩ := pl_linesOfSegments hs acw p.words (hw p (by simp)) p.segments pre.length (hl p (by simp))
    have hlen : (setHierarchy acw pre.length t1).length = t1.length := by
      have := congrArg List.length (pl_setHierarchy acw pre.length t1)
      simpa using this
    obtain ⟨ps', t2, g1, g2, g3, g4⟩ := ih (pre ++ setHierarchy acw pre.length t1) (fun q hq => hw q (by simp [hq]))
      (fun q hq => hl q (by simp [hq]))
    rw [List.length_append, hlen] at g1 g2
    refine ⟨{ p with segments := ss' } :: ps', setHierarchy acw pre.length t1 ++ t2, ?_, ?_, ?_, ?_⟩
    · rw [linesPages, h1]
      simp only [Outcome.bind]
      rw [g1]
    · rw [List.flatMap_cons, g2]
      simp only
      rw [h2, List.length_append, hlen, List.range'_append_1]
    · intro post
      refine .cons ⟨rfl, he, ?_⟩ ?_
      · simp only
        rw [h2, show pre ++ (setHierarchy acw pre.length t1 ++ t2) ++ post
            = pre ++ setHierarchy acw pre.length t1 ++ (t2 ++ post) by simp]
        rw [← hlen, pl_range'_flatMap]
        have : (setHierarchy acw pre.length t1).flatMap (·.line.words) = t1.flatMap (·.line.words) := by
          have h5 := congrArg (List.flatMap (·.words)) (pl_setHierarchy acw pre.length t1)
          simpa [List.flatMap_map] using h5
        rw [this]
        exact h3
      · have := g3 post
        rw [show pre ++ setHierarchy acw pre.length t1 ++ t2 ++ post = pre ++ (setHierarchy acw pre.length t1 ++ t2) ++ post by simp] at this
        exact this
    · intro l hl'
      rcases List.mem_append.mp hl' with hl' | hl'
      · have : l.line ∈ t1.map (·.line) := by
          rw [← pl_setHierarchy acw pre.length t1]
          exact List.mem_map.mpr ⟨l, hl', rfl⟩
        obtain ⟨x, hx, he⟩ := List.mem_map.mp this
        rw [← he]
        exact h4 x hx
      · exact g4 l hl'

end Verif.Props

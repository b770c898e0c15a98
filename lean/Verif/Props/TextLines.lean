import Verif.Model.TextLines
import Verif.Props.Stacked
import Verif.Lemmas.Sort
import Mathlib.Data.List.Flatten

/-!
# Text line detection: C26, C27, C28, C29
-/

namespace Verif.Props

open Verif.Math Verif.Elements Verif.Spec Verif.Words Verif.Counter Verif.TextLines

/-! ## Creating a line -/

/-- The word has a character whose font size exceeds the tolerance (any ordinary visible word). -/
def Inked (w : Word) : Prop := ∃ c ∈ w.chars, dblMin + tol < c.fontSize

/-- The sorts of text line detection rearrange words that satisfy `Qw` and lines that satisfy `Ql`. -/
structure LineSorts (Qw : Word → Prop) (Ql : Line → Prop) (lib : LineLib) : Prop where
  wordsAsc : PermOn Qw lib.sortRotLeftXAsc
  wordsDesc : PermOn Qw lib.sortRotLeftXDesc
  linesAsc : PermOn Ql lib.sortRotLowerYAsc
  linesDesc : PermOn Ql lib.sortRotLowerYDesc
  /-- lines made of words that satisfy `Qw` satisfy `Ql`. -/
  created : ∀ ws l, ws ≠ [] → (∀ w ∈ ws, Qw w) → createTextLine lib ws = .ok l → Ql l

theorem maxOr_ok (h : HashOrder) (d : ℚ) (xs : List ℚ) (hx : ∃ x ∈ xs, dblMin + tol < x) :
    ∃ m, maxOr h d xs = .ok m := by
  unfold maxOr
  simp only
  split
  · cases hm : Counter.max (h.order ℚ (countAll xs)) with
    | ok m => exact ⟨m, rfl⟩
    | throw m =>
      exfalso
      obtain ⟨x, hx, hlt⟩ := hx
      have h1 := (c08_throws_iff (h.order ℚ (countAll xs))).mp (by rw [hm]; rfl)
      obtain ⟨_, h2⟩ := isCounterOf_countAll xs
      have h3 : (x, xs.count x) ∈ countAll xs := by
        rw [h2]; exact ⟨hx, rfl⟩
      have := h1 (x, xs.count x) ((h.perm ℚ _).symm.subset h3) (List.count_pos_iff.mpr hx)
      simp only at this
      linarith
    | ub m =>
      unfold Counter.max at hm
      simp only at hm
      split at hm <;> cases hm
  · exact ⟨d, rfl⟩

theorem props_ok {Qw : Word → Prop} {Ql : Line → Prop} {lib : LineLib} (hs : LineSorts Qw Ql lib)
    (line : Line) (hne : line.words ≠ []) (hQ : ∀ w ∈ line.words, Qw w)
    (hink : ∃ w ∈ line.words, Inked w) :
    ∃ l, computeTextLineProperties lib line = .ok l ∧ l.words.Perm line.words := by
  unfold computeTextLineProperties
  cases hw : line.words with
  | nil => exact absurd hw hne
  | cons f r =>
    rw [hw] at hQ hink
    simp only
    have hperm : (if f.pos.rotation = 0 ∨ f.pos.rotation = 1 then lib.sortRotLeftXAsc (f :: r)
        else lib.sortRotLeftXDesc (f :: r)).Perm (f :: r) := by
      split
      · exact hs.wordsAsc _ hQ
      · exact hs.wordsDesc _ hQ
    generalize (if f.pos.rotation = 0 ∨ f.pos.rotation = 1 then lib.sortRotLeftXAsc (f :: r)
        else lib.sortRotLeftXDesc (f :: r)) = ws at hperm ⊢
    obtain ⟨fn, h1, _⟩ := mostFreqOr_spec lib.hash [] line.fontName ((ws.flatMap (·.chars)).map (·.fontName))
    obtain ⟨fs, h2, _⟩ := mostFreqOr_spec lib.hash 0 line.fontSize ((ws.flatMap (·.chars)).map (·.fontSize))
    obtain ⟨bs, h4, _⟩ := mostFreqOr_spec lib.hash 0 line.base ((ws.flatMap (·.chars)).map (·.base))
    obtain ⟨m, h3⟩ := maxOr_ok lib.hash line.maxFontSize ((ws.flatMap (·.chars)).map (·.fontSize)) (by
      obtain ⟨w, hw, c, hc, hlt⟩ := hink
      exact ⟨c.fontSize, List.mem_map.mpr ⟨c, List.mem_flatMap.mpr ⟨w, hperm.symm.subset hw, hc⟩, rfl⟩, hlt⟩)
    rw [h1, h2, h3, h4]
    exact ⟨_, rfl, hperm⟩

/-- What a created line looks like, whatever the sorts do. -/
theorem props_shape {lib : LineLib} {line l : Line} (h : computeTextLineProperties lib line = .ok l)
    (f : Word) (hf : line.words.head? = some f) :
    l.words = (if f.pos.rotation = 0 ∨ f.pos.rotation = 1
      then lib.sortRotLeftXAsc line.words else lib.sortRotLeftXDesc line.words) ∧
    l.text = [' '].intercalate (l.words.map (·.text)) ∧
    l.pos = Box.extendAll
      { line.pos with rotation := f.pos.rotation, wMode := f.pos.wMode, pageNum := f.pos.pageNum }
      (l.words.map fun w => normBox w.pos) ∧
    (0 < (l.words.flatMap (·.chars)).length → (l.words.flatMap (·.chars)).length < 2 ^ 32 →
      IsMostFrequent ((l.words.flatMap (·.chars)).map (·.fontName)) l.fontName ∧
      IsMostFrequent ((l.words.flatMap (·.chars)).map (·.fontSize)) l.fontSize ∧
      IsMostFrequent ((l.words.flatMap (·.chars)).map (·.base)) l.base) := by
  unfold computeTextLineProperties at h
  cases hw : line.words with
  | nil => rw [hw] at hf; cases hf
  | cons f' r =>
    rw [hw] at hf h
    obtain rfl : f' = f := by simpa using hf
    simp only at h
    generalize (if f'.pos.rotation = 0 ∨ f'.pos.rotation = 1 then lib.sortRotLeftXAsc (f' :: r)
        else lib.sortRotLeftXDesc (f' :: r)) = ws at h ⊢
    obtain ⟨fn, h1, g1⟩ := mostFreqOr_spec lib.hash [] line.fontName ((ws.flatMap (·.chars)).map (·.fontName))
    obtain ⟨fs, h2, g2⟩ := mostFreqOr_spec lib.hash 0 line.fontSize ((ws.flatMap (·.chars)).map (·.fontSize))
    obtain ⟨bs, h4, g4⟩ := mostFreqOr_spec lib.hash 0 line.base ((ws.flatMap (·.chars)).map (·.base))
    rw [h1, h2, h4] at h
    cases hm : maxOr lib.hash line.maxFontSize ((ws.flatMap (·.chars)).map (·.fontSize)) with
    | ok m =>
      rw [hm] at h
      simp only [Outcome.bind, Outcome.ok.injEq] at h
      subst h
      refine ⟨rfl, rfl, rfl, fun h0 hlt => ?_⟩
      have hne : ∀ {β : Type} (g : Glyph → β), (ws.flatMap (·.chars)).map g ≠ [] := by
        intro β g hcontra
        have := congrArg List.length hcontra
        rw [List.length_map] at this
        simp only at h0
        rw [this] at h0; simp at h0
      exact ⟨g1 (hne _) (by simpa using hlt), g2 (hne _) (by simpa using hlt),
        g4 (hne _) (by simpa using hlt)⟩
    | throw m => rw [hm] at h; cases h
    | ub m => rw [hm] at h; cases h

/-! ## Clustering -/

/-- All words of a table of clusters. -/
def clusterWords (cl : List (ℤ × List (ℚ × List Word))) : List Word :=
  cl.flatMap fun c => c.2.flatMap (·.2)

theorem addInner_words (y : ℚ) (ws : List Word) (t : List (ℚ × List Word)) :
    ((addInner y ws t).flatMap (·.2)).Perm (t.flatMap (·.2) ++ ws) := by
  induction t with
  | nil => simp [addInner]
  | cons e t ih =>
    obtain ⟨k, v⟩ := e
    rw [addInner]
    split
    · simp only [List.flatMap_cons, List.append_assoc]
      exact List.Perm.append_left v List.perm_append_comm
    · simp only [List.flatMap_cons, List.append_assoc]
      exact List.Perm.append_left v ih

theorem addInner_nonempty (y : ℚ) (ws : List Word) (hws : ws ≠ []) (t : List (ℚ × List Word))
    (ht : ∀ e ∈ t, e.2 ≠ []) : ∀ e ∈ addInner y ws t, e.2 ≠ [] := by
  induction t with
  | nil => simpa [addInner] using hws
  | cons e t ih =>
    obtain ⟨k, v⟩ := e
    rw [addInner]
    have hv : v ≠ [] := ht (k, v) (by simp)
    split
    · intro e he
      rcases List.mem_cons.mp he with rfl | he
      · simp [hv]
      · exact ht e (by simp [he])
    · intro e he
      rcases List.mem_cons.mp he with rfl | he
      · exact hv
      · exact ih (fun e he => ht e (by simp [he])) e he

theorem addCluster_words (rot : ℤ) (y : ℚ) (ws : List Word) (t : List (ℤ × List (ℚ × List Word))) :
    (clusterWords (addCluster rot y ws t)).Perm (clusterWords t ++ ws) := by
  unfold clusterWords
  induction t with
  | nil => simpa [addCluster] using addInner_words y ws []
  | cons e t ih =>
    obtain ⟨k, v⟩ := e
    rw [addCluster]
    split
    · simp only [List.flatMap_cons, List.append_assoc]
      refine ((addInner_words y ws v).append_right _).trans ?_
      rw [List.append_assoc]
      exact List.Perm.append_left _ List.perm_append_comm
    · simp only [List.flatMap_cons, List.append_assoc]
      exact List.Perm.append_left _ ih

theorem addCluster_nonempty (rot : ℤ) (y : ℚ) (ws : List Word) (hws : ws ≠ [])
    (t : List (ℤ × List (ℚ × List Word))) (ht : ∀ c ∈ t, ∀ e ∈ c.2, e.2 ≠ []) :
    ∀ c ∈ addCluster rot y ws t, ∀ e ∈ c.2, e.2 ≠ [] := by
  induction t with
  | nil => simpa [addCluster] using addInner_nonempty y ws hws [] (by simp)
  | cons e t ih =>
    obtain ⟨k, v⟩ := e
    rw [addCluster]
    have hv : ∀ e ∈ v, e.2 ≠ [] := ht (k, v) (by simp)
    split
    · intro c hc
      rcases List.mem_cons.mp hc with rfl | hc
      · exact addInner_nonempty y ws hws v hv
      · exact ht c (by simp [hc])
    · intro c hc
      rcases List.mem_cons.mp hc with rfl | hc
      · exact hv
      · exact ih (fun e he => ht e (by simp [he])) c hc

theorem cluster_spec (page words : List Word) :
    (clusterWords (cluster page words)).Perm (words.flatMap (wordGroup page)) ∧
    ∀ c ∈ cluster page words, ∀ e ∈ c.2, e.2 ≠ [] := by
  induction words using List.reverseRecOn with
  | nil => simp [cluster, clusterWords]
  | append_singleton ws w ih =>
    obtain ⟨h1, h2⟩ := ih
    have hc : cluster page (ws ++ [w]) = if w.partOf.isSome then cluster page ws
      else addCluster w.pos.rotation w.pos.getRotLowerY (wordGroup page w) (cluster page ws) := by
      simp [cluster]
    rw [hc]
    simp only [List.flatMap_append, List.flatMap_singleton]
    split
    · next hp => simp [wordGroup, hp]; exact ⟨h1, by simpa using h2⟩
    · next hp =>
      refine ⟨(addCluster_words _ _ _ _).trans (h1.append_right _), ?_⟩
      exact addCluster_nonempty _ _ _ (by simp [wordGroup, hp]) _ h2

/-! ## C27: merging rounds -/

/-- All words of some lines. -/
def lineWords (ls : List Line) : List Word := ls.flatMap (·.words)

theorem mergeFrom_spec {Qw : Word → Prop} {Ql : Line → Prop} {lib : LineLib} (hs : LineSorts Qw Ql lib)
    (acw : ℚ) (ls : List Line) : ∀ prev : Line, (∀ l ∈ prev :: ls, l.words ≠ []) →
      (∀ l ∈ prev :: ls, ∀ w ∈ l.words, Qw w ∧ Inked w) →
      ∃ r, mergeFrom lib acw prev ls = .ok r ∧ (lineWords r.1).Perm (lineWords (prev :: ls)) ∧
        (∀ l ∈ r.1, l.words ≠ []) ∧
        (r.2 = false → r.1 = prev :: ls ∧ (prev :: ls).IsChain fun a b => shouldMerge acw a b = false) := by
  induction ls with
  | nil => intro prev h1 h2; exact ⟨_, rfl, List.Perm.refl _, by simpa using h1, fun _ => ⟨rfl, by simp⟩⟩
  | cons l ls ih =>
    intro prev h1 h2
    rw [mergeFrom]
    split
    · have hne : prev.words ++ l.words ≠ [] := by simp [h1 prev (by simp)]
      have hall : ∀ w ∈ prev.words ++ l.words, Qw w ∧ Inked w := by
        intro w hw
        rcases List.mem_append.mp hw with hw | hw
        · exact h2 prev (by simp) w hw
        · exact h2 l (by simp) w hw
      obtain ⟨w0, hw0⟩ := List.exists_mem_of_ne_nil _ hne
      obtain ⟨p, hp, hperm⟩ := props_ok hs { prev with words := prev.words ++ l.words } hne
        (fun w hw => (hall w hw).1) ⟨w0, hw0, (hall w0 hw0).2⟩
      simp only at hperm
      have hpne : p.words ≠ [] := by
        intro hcontra
        rw [hcontra] at hperm
        exact hne (List.nil_perm.mp hperm)
      obtain ⟨r, hr, hr1, hr2, _⟩ := ih p (by
          intro x hx
          rcases List.mem_cons.mp hx with rfl | hx
          · exact hpne
          · exact h1 x (by simp [hx])) (by
          intro x hx w hw
          rcases List.mem_cons.mp hx with rfl | hx
          · exact hall w (hperm.subset hw)
          · exact h2 x (by simp [hx]) w hw)
      unfold mergeTextLines
      rw [hp]
      simp only [Outcome.bind]
      rw [hr]
      refine ⟨_, rfl, ?_, hr2, by simp⟩
      refine hr1.trans ?_
      simp only [lineWords, List.flatMap_cons, ← List.append_assoc]
      exact hperm.append_right _
    · next hsm =>
      obtain ⟨r, hr, hr1, hr2, hr3⟩ := ih l (fun x hx => h1 x (by simp [List.mem_cons.mp hx]))
        (fun x hx => h2 x (by simp [List.mem_cons.mp hx]))
      rw [hr]
      refine ⟨_, rfl, ?_, ?_, ?_⟩
      · simp only [lineWords, List.flatMap_cons] at hr1 ⊢
        exact hr1.append_left _
      · intro x hx
        rcases List.mem_cons.mp hx with rfl | hx
        · exact h1 x (by simp)
        · exact hr2 x hx
      · intro hf
        obtain ⟨e1, e2⟩ := hr3 hf
        refine ⟨by simp only [e1], ?_⟩
        rw [List.isChain_cons_cons]
        exact ⟨by simpa using hsm, e2⟩

/-- C27 (one round): a round of merging never fails on ordinary words, keeps the multiset of the words
and leaves no line empty; if it reports that it merged something the number of lines has become
smaller, otherwise it has left the lines alone and no line can be merged into its predecessor. -/
theorem c27_round {Qw : Word → Prop} {Ql : Line → Prop} {lib : LineLib} (hs : LineSorts Qw Ql lib)
    (acw : ℚ) (ls : List Line) (hne : ∀ l ∈ ls, l.words ≠ [])
    (hQ : ∀ l ∈ ls, ∀ w ∈ l.words, Qw w ∧ Inked w) :
    ∃ ls' merged, mergeRound lib acw ls = .ok (ls', merged) ∧
      (ls'.flatMap (·.words)).Perm (ls.flatMap (·.words)) ∧ (∀ l ∈ ls', l.words ≠ []) ∧
      (merged = true → ls'.length < ls.length) ∧
      (merged = false → ls' = ls ∧ ls.IsChain fun prev curr =>
        max (computeYOverlapRatios prev.pos curr.pos).1 (computeYOverlapRatios prev.pos curr.pos).2 <
          (if computeHorizontalGap prev.pos curr.pos < 3 * acw then 4 / 10 else 8 / 10) - tol) := by
  cases ls with
  | nil => exact ⟨[], false, rfl, List.Perm.refl _, by simp, by simp, by simp⟩
  | cons l ls =>
    obtain ⟨r, h1, h2, h3, h4⟩ := mergeFrom_spec hs acw ls l hne hQ
    refine ⟨r.1, r.2, h1, h2, h3, ?_, ?_⟩
    · intro hm
      simpa using (mergeFrom_length lib acw ls l r h1).2 hm
    · intro hm
      refine ⟨(h4 hm).1, (h4 hm).2.imp ?_⟩
      intro a b hab
      unfold shouldMerge at hab
      rw [eol_false] at hab
      simpa [computeMaxYOverlapRatio, maximum_eq_max, yOverlapRatioThreshold] using hab

/-- C27 (termination and result): merging in rounds terminates; the rounds form a finite sequence of
strictly decreasing numbers of lines, the words are those of the original lines, and no line of
the result can be merged into its predecessor (the vertical overlap is below the threshold). -/
theorem c27_rounds {Qw : Word → Prop} {Ql : Line → Prop} {lib : LineLib} (hs : LineSorts Qw Ql lib)
    (acw : ℚ) : ∀ (n : ℕ) (ls : List Line), ls.length = n → (∀ l ∈ ls, l.words ≠ []) →
    (∀ l ∈ ls, ∀ w ∈ l.words, Qw w ∧ Inked w) →
    ∃ (out : List Line) (trace : List (List Line)), mergeRounds lib acw ls = .ok out ∧
      trace.head? = some ls ∧ trace.getLast? = some out ∧
      (trace.IsChain fun a b => mergeRound lib acw a = .ok (b, true) ∧ b.length < a.length) ∧
      mergeRound lib acw out = .ok (out, false) ∧
      (out.flatMap (·.words)).Perm (ls.flatMap (·.words)) ∧ (∀ l ∈ out, l.words ≠ []) ∧
      out.IsChain fun prev curr =>
        max (computeYOverlapRatios prev.pos curr.pos).1 (computeYOverlapRatios prev.pos curr.pos).2 <
          (if computeHorizontalGap prev.pos curr.pos < 3 * acw then 4 / 10 else 8 / 10) - tol := by
  intro n
  induction n using Nat.strong_induction_on with
  | _ n ih =>
    intro ls hlen hne hQ
    obtain ⟨ls', merged, h1, h2, h3, h4, h5⟩ := c27_round hs acw ls hne hQ
    rw [mergeRounds.eq_def]
    cases merged with
    | true =>
      have hlt := h4 rfl
      obtain ⟨out, trace, g1, g2, g3, g4, g5, g6, g7, g8⟩ := ih ls'.length (by omega) ls' rfl h3 (by
        intro l hl w hw
        have : w ∈ ls.flatMap (·.words) := h2.subset (List.mem_flatMap.mpr ⟨l, hl, hw⟩)
        obtain ⟨l', hl', hw'⟩ := List.mem_flatMap.mp this
        exact hQ l' hl' w hw')
      refine ⟨out, ls :: trace, ?_, rfl, ?_, ?_, g5, g6.trans h2, g7, g8⟩
      · split <;> rename_i heq <;> rw [h1] at heq <;> simp at heq
        subst heq; exact g1
      · cases trace with
        | nil => simp at g2
        | cons a t => rw [List.getLast?_cons_cons]; exact g3
      · cases trace with
        | nil => simp at g2
        | cons a t =>
          obtain rfl : a = ls' := by simpa using g2
          rw [List.isChain_cons_cons]
          exact ⟨⟨h1, hlt⟩, g4⟩
    | false =>
      obtain ⟨e1, e2⟩ := h5 rfl
      subst e1
      refine ⟨ls', [ls'], ?_, rfl, rfl, by simp, h1, List.Perm.refl _, h3, e2⟩
      split <;> rename_i heq <;> rw [h1] at heq <;> simp at heq
      subst heq; rfl

/-! ## C26 -/

theorem createAll_spec {Qw : Word → Prop} {Ql : Line → Prop} {lib : LineLib} (hs : LineSorts Qw Ql lib)
    (es : List (ℚ × List Word)) (hne : ∀ e ∈ es, e.2 ≠ [])
    (hQ : ∀ e ∈ es, ∀ w ∈ e.2, Qw w ∧ Inked w) :
    ∃ ls, createAll lib es = .ok ls ∧ (lineWords ls).Perm (es.flatMap (·.2)) ∧
      (∀ l ∈ ls, l.words ≠ []) ∧ ∀ l ∈ ls, Ql l := by
  induction es with
  | nil => exact ⟨[], rfl, List.Perm.refl _, by simp, by simp⟩
  | cons e es ih =>
    obtain ⟨ls, h1, h2, h3, h4⟩ := ih (fun e he => hne e (by simp [he])) (fun e he => hQ e (by simp [he]))
    have he := hne e (by simp)
    obtain ⟨w0, hw0⟩ := List.exists_mem_of_ne_nil _ he
    obtain ⟨l, g1, g2⟩ := props_ok hs { words := e.2 } he (fun w hw => (hQ e (by simp) w hw).1)
      ⟨w0, hw0, (hQ e (by simp) w0 hw0).2⟩
    simp only at g2
    refine ⟨l :: ls, ?_, ?_, ?_, ?_⟩
    · rw [createAll, createTextLine, g1]; simp only [Outcome.bind]; rw [h1]
    · simp only [lineWords, List.flatMap_cons] at h2 ⊢
      exact g2.append h2
    · intro x hx
      rcases List.mem_cons.mp hx with rfl | hx
      · intro hcontra; rw [hcontra] at g2; exact he (List.nil_perm.mp g2)
      · exact h3 x hx
    · intro x hx
      rcases List.mem_cons.mp hx with rfl | hx
      · exact hs.created e.2 x he (fun w hw => (hQ e (by simp) w hw).1) g1
      · exact h4 x hx

theorem linesOfRotation_spec {Qw : Word → Prop} {Ql : Line → Prop} {lib : LineLib}
    (hs : LineSorts Qw Ql lib) (acw : ℚ) (rot : ℤ) (inner : List (ℚ × List Word))
    (hne : ∀ e ∈ inner, e.2 ≠ []) (hQ : ∀ e ∈ inner, ∀ w ∈ e.2, Qw w ∧ Inked w) :
    ∃ ls, linesOfRotation lib acw rot inner = .ok ls ∧ (lineWords ls).Perm (inner.flatMap (·.2)) ∧
      (∀ l ∈ ls, l.words ≠ []) := by
  have hp := lib.iterPerm _ inner
  obtain ⟨ls, h1, h2, h3, h4⟩ := createAll_spec hs (lib.iter _ inner)
    (fun e he => hne e (hp.subset he)) (fun e he => hQ e (hp.subset he))
  have hsort : (if rot = 0 ∨ rot = 1 then lib.sortRotLowerYAsc ls else lib.sortRotLowerYDesc ls).Perm ls := by
    split
    · exact hs.linesAsc _ h4
    · exact hs.linesDesc _ h4
  unfold linesOfRotation
  rw [h1]
  simp only [Outcome.bind]
  generalize (if rot = 0 ∨ rot = 1 then lib.sortRotLowerYAsc ls else lib.sortRotLowerYDesc ls) = ss at hsort ⊢
  have hall : (lineWords ls).Perm (inner.flatMap (·.2)) := h2.trans (hp.flatMap_right _)
  obtain ⟨out, _, g1, _, _, _, _, g2, g3, _⟩ := c27_rounds hs acw _ ss rfl
    (fun l hl => h3 l (hsort.subset hl)) (by
      intro l hl w hw
      have : w ∈ inner.flatMap (·.2) :=
        hall.subset (List.mem_flatMap.mpr ⟨l, hsort.subset hl, hw⟩)
      obtain ⟨e, he, hw'⟩ := List.mem_flatMap.mp this
      exact hQ e he w hw')
  exact ⟨out, g1, (g2.trans (hsort.flatMap_right _)).trans hall, g3⟩

theorem rotationGroups_spec {Qw : Word → Prop} {Ql : Line → Prop} {lib : LineLib}
    (hs : LineSorts Qw Ql lib) (acw : ℚ) (cs : List (ℤ × List (ℚ × List Word)))
    (hne : ∀ c ∈ cs, ∀ e ∈ c.2, e.2 ≠ []) (hQ : ∀ c ∈ cs, ∀ e ∈ c.2, ∀ w ∈ e.2, Qw w ∧ Inked w) :
    ∃ gs, rotationGroups lib acw cs = .ok gs ∧ (lineWords gs.flatten).Perm (clusterWords cs) ∧
      (∀ l ∈ gs.flatten, l.words ≠ []) := by
  induction cs with
  | nil => exact ⟨[], rfl, by simp [lineWords, clusterWords], by simp⟩
  | cons c cs ih =>
    obtain ⟨gs, h1, h2, h3⟩ := ih (fun c hc => hne c (by simp [hc])) (fun c hc => hQ c (by simp [hc]))
    obtain ⟨ls, g1, g2, g3⟩ := linesOfRotation_spec hs acw c.1 c.2 (hne c (by simp)) (hQ c (by simp))
    refine ⟨ls :: gs, ?_, ?_, ?_⟩
    · rw [rotationGroups, g1]; simp only [Outcome.bind]; rw [h1]
    · simp only [lineWords, List.flatten_cons, List.flatMap_append, clusterWords, List.flatMap_cons] at *
      exact g2.append h2
    · intro l hl
      rw [List.flatten_cons] at hl
      rcases List.mem_append.mp hl with hl | hl
      · exact g3 l hl
      · exact h3 l hl

/-- C26 (one segment): text line detection does not fail on ordinary words, the lines of a segment
contain every word of the segment that is not attached to an operator, and the words attached to
such a word together with it, each exactly once; no line is empty. -/
theorem c26_segment_partial {Qw : Word → Prop} {Ql : Line → Prop} {lib : LineLib} (hs : LineSorts Qw Ql lib)
    (acw : ℚ) (page words : List Word)
    (hQ : ∀ w ∈ words.flatMap (wordGroup page), Qw w ∧ Inked w) :
    ∃ gs, segmentLines lib acw page words = .ok gs ∧
      (gs.flatten.flatMap (·.words)).Perm
        ((words.filter (fun w => w.partOf.isNone)).flatMap
          fun w => w :: w.parts.filterMap (page[·]?)) ∧
      ∀ l ∈ gs.flatten, l.words ≠ [] := by
  obtain ⟨h1, h2⟩ := cluster_spec page words
  have hp := lib.iterPerm _ (cluster page words)
  have hmem : ∀ c ∈ cluster page words, ∀ e ∈ c.2, ∀ w ∈ e.2, Qw w ∧ Inked w := by
    intro c hc e he w hw
    exact hQ w (h1.subset (List.mem_flatMap.mpr ⟨c, hc, List.mem_flatMap.mpr ⟨e, he, hw⟩⟩))
  obtain ⟨gs, g1, g2, g3⟩ := rotationGroups_spec hs acw (lib.iter _ (cluster page words))
    (fun c hc => h2 c (hp.subset hc)) (fun c hc => hmem c (hp.subset hc))
  refine ⟨gs, g1, ?_, g3⟩
  have he : words.flatMap (wordGroup page) = (words.filter (fun w => w.partOf.isNone)).flatMap
          fun w => w :: w.parts.filterMap (page[·]?) := by
    clear h1 h2 hp hmem g1 g2 hQ
    induction words with
    | nil => rfl
    | cons w ws ih =>
      rw [List.flatMap_cons, List.filter_cons, ih]
      cases hw : w.partOf <;> simp [wordGroup, hw]
  rw [← he]
  exact (g2.trans (hp.flatMap_right _)).trans h1

/-- C26 (page): if the stacked symbols of a page are attached as in C25 (every word is visited once)
and the segments contain every word of the page exactly once, then the text lines of the page
contain every word of the page exactly once, and no line is empty. -/
theorem c26_page_partial {Qw : Word → Prop} {Ql : Line → Prop} {lib : LineLib} (hs : LineSorts Qw Ql lib)
    (acw : ℚ) (page : List Word) (hv : (visited page).Perm (List.range page.length))
    (segs : List (List ℕ)) (hseg : segs.flatten.Perm (List.range page.length))
    (hQ : ∀ w ∈ page, Qw w ∧ Inked w) :
    ∃ ls, pageLines lib acw page (segs.map fun s => s.filterMap (page[·]?)) = .ok ls ∧
      (ls.flatten.flatMap (·.words)).Perm page ∧ ∀ l ∈ ls.flatten, l.words ≠ [] := by
  have hgen : ∀ ss : List (List ℕ), ∃ ls,
      pageLines lib acw page (ss.map fun s => s.filterMap (page[·]?)) = .ok ls ∧
      (ls.flatten.flatMap (·.words)).Perm ((ss.flatten.filterMap (page[·]?)).flatMap (wordGroup page)) ∧
      ∀ l ∈ ls.flatten, l.words ≠ [] := by
    intro ss
    induction ss with
    | nil => exact ⟨[], rfl, by simp, by simp⟩
    | cons s ss ih =>
      obtain ⟨ls, h1, h2, h3⟩ := ih
      have hmem : ∀ w ∈ (s.filterMap (page[·]?)).flatMap (wordGroup page), Qw w ∧ Inked w := by
        intro w hw
        apply hQ
        obtain ⟨x, hx, hw⟩ := List.mem_flatMap.mp hw
        obtain ⟨i, _, hi⟩ := List.mem_filterMap.mp hx
        have hxp : x ∈ page := List.mem_of_getElem? hi
        unfold wordGroup at hw
        split at hw
        · simp at hw
        · rcases List.mem_cons.mp hw with rfl | hw
          · exact hxp
          · obtain ⟨k, _, hk⟩ := List.mem_filterMap.mp hw
            exact List.mem_of_getElem? hk
      obtain ⟨h1', h2'⟩ := cluster_spec page (s.filterMap (page[·]?))
      obtain ⟨gs, g1, g2, g3⟩ := c26_segment_partial hs acw page (s.filterMap (page[·]?)) hmem
      refine ⟨gs.flatten :: ls, ?_, ?_, ?_⟩
      · rw [List.map_cons, pageLines, g1]; simp only [Outcome.bind]; rw [h1]
      · rw [List.flatten_cons, List.flatMap_append, List.flatten_cons, List.filterMap_append,
          List.flatMap_append]
        refine List.Perm.append ?_ h2
        refine g2.trans (List.Perm.of_eq ?_)
        generalize (s.filterMap (page[·]?)) = words
        clear * -
        induction words with
        | nil => rfl
        | cons w ws ih =>
          rw [List.flatMap_cons, List.filter_cons, ← ih]
          cases hw : w.partOf <;> simp [wordGroup, hw]
      · intro l hl
        rw [List.flatten_cons] at hl
        rcases List.mem_append.mp hl with hl | hl
        · exact g3 l hl
        · exact h3 l hl
  obtain ⟨ls, h1, h2, h3⟩ := hgen segs
  refine ⟨ls, h1, h2.trans ?_, h3⟩
  refine ((hseg.filterMap _).flatMap_right _).trans ?_
  have hself : (List.range page.length).filterMap (page[·]?) = page := by
    clear * -
    induction page with
    | nil => rfl
    | cons w ws ih =>
      rw [List.length_cons, List.range_succ_eq_map, List.filterMap_cons]
      simp only [List.getElem?_cons_zero, List.filterMap_map, Function.comp_def,
        Nat.succ_eq_add_one, List.getElem?_cons_succ]
      rw [ih]
  have hvis : ((List.range page.length).filterMap (page[·]?)).flatMap (wordGroup page) =
      (visited page).filterMap (page[·]?) := by
    unfold visited
    rw [List.filterMap_flatMap]
    generalize List.range page.length = r
    induction r with
    | nil => rfl
    | cons i r ih =>
      rw [List.filterMap_cons, List.flatMap_cons]
      cases hi : page[i]? with
      | none => simpa using ih
      | some w =>
        simp only [List.flatMap_cons]
        rw [ih]
        congr 1
        unfold wordGroup
        split
        · rfl
        · rw [List.filterMap_cons, hi]
  rw [hvis]
  exact (hv.filterMap _).trans (List.Perm.of_eq hself)

/-- C26 (failure, finding): a line all of whose characters have a font size of at most 0.0001 (text
scaled to nothing) makes text line detection throw an exception that nobody catches. -/
theorem c26_tiny_text_throws (lib : LineLib) (w : Word) (hc : w.chars ≠ [])
    (hlen : w.chars.length < 2 ^ 32) (htiny : ∀ c ∈ w.chars, c.fontSize ≤ tol)
    (hasc : lib.sortRotLeftXAsc [w] = [w]) (hdesc : lib.sortRotLeftXDesc [w] = [w]) :
    (createTextLine lib [w]).isThrow = true := by
  unfold createTextLine computeTextLineProperties
  simp only [hasc, hdesc, ite_self, List.flatMap_cons, List.flatMap_nil, List.append_nil]
  obtain ⟨fn, h1, _⟩ := mostFreqOr_spec lib.hash [] ([] : Verif.Text.Str) (w.chars.map (·.fontName))
  obtain ⟨fs, h2, _⟩ := mostFreqOr_spec lib.hash (0:ℚ) (-1) (w.chars.map (·.fontSize))
  rw [h1, h2]
  simp only [Outcome.bind]
  have hm : (maxOr lib.hash 0 (w.chars.map (·.fontSize))).isThrow = true := by
    unfold maxOr
    simp only
    rw [c07_sumCounts _ _ (lib.hash.perm ℚ _), List.length_map, Nat.mod_eq_of_lt hlen,
      if_pos (List.length_pos_iff.mpr hc), c08_throws_iff]
    intro e he _
    have h3 := (lib.hash.perm ℚ _).subset he
    rw [(isCounterOf_countAll _).2 e.1 e.2] at h3
    obtain ⟨c, hcm, hce⟩ := List.mem_map.mp h3.1
    have h4 := htiny c hcm
    have : (0:ℚ) ≤ dblMin := by unfold dblMin; positivity
    rw [← hce]; linarith
  revert hm
  cases maxOr lib.hash 0 (w.chars.map (·.fontSize)) <;> simp [Outcome.isThrow]

/-- C26 (content of a line): the text of a line is the texts of its words joined by single spaces, its
rotation and writing mode are those of a word of the line, its box contains all of its words, and
font name, font size and base line are most frequent among its characters. -/
theorem c26_line_content {lib : LineLib} {ws : List Word} {l : Line} (hne : ws ≠ [])
    (h : createTextLine lib ws = .ok l) :
    l.text = [' '].intercalate (l.words.map (·.text)) ∧
    (∃ w ∈ ws, l.pos.rotation = w.pos.rotation ∧ l.pos.wMode = w.pos.wMode ∧
      l.pos.pageNum = w.pos.pageNum) ∧
    (∀ w ∈ l.words, l.pos.leftX ≤ min w.pos.leftX w.pos.rightX ∧
      max w.pos.leftX w.pos.rightX ≤ l.pos.rightX ∧
      l.pos.upperY ≤ min w.pos.upperY w.pos.lowerY ∧ max w.pos.upperY w.pos.lowerY ≤ l.pos.lowerY) ∧
    (0 < (l.words.flatMap (·.chars)).length → (l.words.flatMap (·.chars)).length < 2 ^ 32 →
      IsMostFrequent ((l.words.flatMap (·.chars)).map (·.fontName)) l.fontName ∧
      IsMostFrequent ((l.words.flatMap (·.chars)).map (·.fontSize)) l.fontSize ∧
      IsMostFrequent ((l.words.flatMap (·.chars)).map (·.base)) l.base) := by
  cases ws with
  | nil => exact absurd rfl hne
  | cons f r =>
    obtain ⟨_, h2, h3, h4⟩ := props_shape h f rfl
    refine ⟨h2, ⟨f, by simp, ?_⟩, ?_, h4⟩
    · obtain ⟨e1, e2, e3⟩ := extendAll_rest
        { ({} : Box) with rotation := f.pos.rotation, wMode := f.pos.wMode, pageNum := f.pos.pageNum }
        (l.words.map fun w => normBox w.pos)
      rw [h3]; exact ⟨e2, e3, e1⟩
    · intro w hw
      have := extendAll_contains
        { ({} : Box) with rotation := f.pos.rotation, wMode := f.pos.wMode, pageNum := f.pos.pageNum }
        (l.words.map fun w => normBox w.pos) (normBox w.pos) (List.mem_map.mpr ⟨w, hw, rfl⟩)
      rw [h3]
      simp only [normBox, minimum_eq_min, maximum_eq_max] at this ⊢
      obtain ⟨a1, a2, a3, a4⟩ := this
      exact ⟨a1, a3, by rw [min_comm]; exact a2, by rw [max_comm]; exact a4⟩

/-! ### Links between neighbouring lines -/

theorem linkGroups_getElem (n : ℕ) (gs : List (List Line)) : ∀ (i : ℕ) (x : Linked),
    (linkGroups n gs)[i]? = some x → x.rank = n + i ∧ gs.flatten[i]? = some x.line := by
  induction gs generalizing n with
  | nil => intro i x h; simp [linkGroups] at h
  | cons g gs ih =>
    intro i x h
    rw [linkGroups] at h
    have hl : (linkLines n g).length = g.length := by simp [linkLines]
    rw [List.flatten_cons]
    by_cases hi : i < g.length
    · rw [List.getElem?_append_left (by omega)] at h
      rw [List.getElem?_append_left hi]
      unfold linkLines at h
      rw [List.getElem?_mapIdx, List.getElem?_eq_getElem hi] at h
      simp only [Option.map_some, Option.some.injEq] at h
      subst h
      exact ⟨rfl, List.getElem?_eq_getElem hi⟩
    · rw [List.getElem?_append_right (by omega), hl] at h
      rw [List.getElem?_append_right (by omega)]
      obtain ⟨h1, h2⟩ := ih (n + g.length) (i - g.length) x h
      exact ⟨by omega, h2⟩

theorem linkGroups_length (n : ℕ) (gs : List (List Line)) :
    (linkGroups n gs).length = gs.flatten.length := by
  induction gs generalizing n with
  | nil => rfl
  | cons g gs ih => rw [linkGroups, List.length_append, ih]; simp [linkLines]

/-- C26 (order and links): the lines are numbered consecutively, and `prevLine` and `nextLine` are
inverse to each other and refer to the neighbour in the numbering. -/
theorem c26_links (n : ℕ) (gs : List (List Line)) :
    (linkGroups n gs).map (·.line) = gs.flatten ∧
    (linkGroups n gs).map (·.rank) = List.range' n gs.flatten.length ∧
    ∀ (i : ℕ) (x y : Linked), (linkGroups n gs)[i]? = some x → (linkGroups n gs)[i + 1]? = some y →
      (x.nextLine = some y.rank ∧ y.prevLine = some x.rank) ∨ (x.nextLine = none ∧ y.prevLine = none) := by
  refine ⟨?_, ?_, ?_⟩
  · induction gs generalizing n with
    | nil => rfl
    | cons g gs ih =>
      rw [linkGroups, List.map_append, ih, List.flatten_cons]
      congr 1
      unfold linkLines
      apply List.ext_getElem? 
      intro i
      simp only [List.getElem?_map, List.getElem?_mapIdx, Option.map_map]
      cases g[i]? <;> rfl
  · apply List.ext_getElem?
    intro i
    rw [List.getElem?_map]
    cases h : (linkGroups n gs)[i]? with
    | none =>
      have := List.getElem?_eq_none_iff.mp h
      rw [linkGroups_length] at this
      symm
      simpa using this
    | some x =>
      have hlt := (List.getElem?_eq_some_iff.mp h).1
      rw [linkGroups_length] at hlt
      rw [Option.map_some, (linkGroups_getElem n gs i x h).1, List.getElem?_range' hlt]
      simp
  · induction gs generalizing n with
    | nil => intro i x y h; simp [linkGroups] at h
    | cons g gs ih =>
      intro i x y hx hy
      rw [linkGroups] at hx hy
      have hl : (linkLines n g).length = g.length := by simp [linkLines]
      by_cases hi : i + 1 < g.length
      · rw [List.getElem?_append_left (by omega)] at hx hy
        unfold linkLines at hx hy
        rw [List.getElem?_mapIdx, List.getElem?_eq_getElem (by omega)] at hx hy
        simp only [Option.map_some, Option.some.injEq] at hx hy
        subst hx hy
        left
        exact ⟨by simp only; rw [if_pos (by omega)]; rfl, by simp⟩
      · by_cases hi' : i < g.length
        · right
          rw [List.getElem?_append_left (by omega)] at hx
          rw [List.getElem?_append_right (by omega), hl] at hy
          have e0 : i + 1 - g.length = 0 := by omega
          rw [e0] at hy
          unfold linkLines at hx
          rw [List.getElem?_mapIdx, List.getElem?_eq_getElem hi'] at hx
          simp only [Option.map_some, Option.some.injEq] at hx
          subst hx
          refine ⟨by simp only; rw [if_neg (by omega)], ?_⟩
          clear ih hl
          generalize n + g.length = m at hy
          induction gs generalizing m with
          | nil => simp [linkGroups] at hy
          | cons g' gs ih' =>
            rw [linkGroups] at hy
            cases g' with
            | nil => exact ih' _ hy
            | cons a t =>
              simp only [linkLines, List.mapIdx_cons, List.cons_append, List.getElem?_cons_zero,
                Option.some.injEq] at hy
              subst hy; rfl
        · rw [List.getElem?_append_right (by omega), hl] at hx hy
          refine ih (n + g.length) (i - g.length) x y hx ?_
          rw [← hy]; congr 1; omega

/-- C26 (links, precisely): in the group of lines of one segment and one rotation, every line is linked
to the line before and to the line after it; the first line has no previous and the last line no
next line. -/
theorem c26_links_in_group (n : ℕ) (pre : List (List Line)) (g : List Line) (post : List (List Line))
    (i : ℕ) (l : Line) (hi : g[i]? = some l) :
    (linkGroups n (pre ++ g :: post))[pre.flatten.length + i]? = some
      { line := l
        rank := n + pre.flatten.length + i
        prevLine := if i = 0 then none else some (n + pre.flatten.length + i - 1)
        nextLine := if i + 1 = g.length then none else some (n + pre.flatten.length + i + 1) } := by
  have hlt := (List.getElem?_eq_some_iff.mp hi).1
  induction pre generalizing n with
  | nil =>
    simp only [List.nil_append, List.flatten_nil, List.length_nil, Nat.zero_add, Nat.add_zero]
    rw [linkGroups, List.getElem?_append_left (by simpa [linkLines] using hlt), linkLines,
      List.getElem?_mapIdx, hi]
    simp only [Option.map_some, Option.some.injEq, Linked.mk.injEq, true_and]
    constructor
    · by_cases h0 : i = 0
      · simp [h0]
      · rw [if_pos (by omega), if_neg h0]
    · by_cases h0 : i + 1 = g.length
      · rw [if_pos h0, if_neg (by omega)]
      · rw [if_neg h0, if_pos (by omega)]
  | cons g' pre ih =>
    rw [List.cons_append, linkGroups, List.flatten_cons, List.length_append]
    have hl : (linkLines n g').length = g'.length := by simp [linkLines]
    rw [List.getElem?_append_right (by omega), hl,
      show g'.length + pre.flatten.length + i - g'.length = pre.flatten.length + i by omega, ih]
    simp only [Nat.add_assoc]

/-! ### What the C++ standard promises is enough -/

/-- The sort calls satisfy the contract of `std::sort` for their comparators. -/
structure LineLibContract (lib : LineLib) : Prop where
  wordsAsc : SortContract (fun a b : Word => Comparators.rotLeftXAsc a.pos b.pos) lib.sortRotLeftXAsc
  wordsDesc : SortContract (fun a b : Word => Comparators.rotLeftXDesc a.pos b.pos) lib.sortRotLeftXDesc
  linesAsc : SortContract (fun a b : Line => Comparators.rotLowerYAsc a.pos b.pos) lib.sortRotLowerYAsc
  linesDesc : SortContract (fun a b : Line => Comparators.rotLowerYDesc a.pos b.pos) lib.sortRotLowerYDesc

/-- A word as it comes out of the parser and word detection: rounded coordinates on the page. -/
structure PageWord (n : ℕ) (w : Word) : Prop where
  rounded : RoundedBox n w.pos
  leftPos : dblMin ≤ w.pos.leftX
  rightPos : dblMin ≤ w.pos.rightX
  upperPos : dblMin ≤ w.pos.upperY
  lowerPos : dblMin ≤ w.pos.lowerY
  leftMax : w.pos.leftX ≤ dblMax
  rightMax : w.pos.rightX ≤ dblMax
  upperMax : w.pos.upperY ≤ dblMax
  lowerMax : w.pos.lowerY ≤ dblMax

theorem normBox_positive {n : ℕ} {w : Word} (h : PageWord n w) : PositiveBox (normBox w.pos) := by
  have := h.leftPos; have := h.rightPos; have := h.upperPos; have := h.lowerPos
  have := h.leftMax; have := h.rightMax; have := h.upperMax; have := h.lowerMax
  constructor <;> simp only [normBox, minimum_eq_min, maximum_eq_max]
  · exact min_le_of_left_le h.leftMax
  · exact min_le_of_left_le h.lowerMax
  · exact le_max_of_le_left h.leftPos
  · exact le_max_of_le_left h.lowerPos

theorem normBox_rounded {n : ℕ} {b : Box} (h : RoundedBox n b) : RoundedBox n (normBox b) := by
  obtain ⟨h1, h2, h3, h4⟩ := h
  have hmin : ∀ {a c : ℚ}, (∃ x, a = roundTo x n) → (∃ x, c = roundTo x n) → ∃ x, min a c = roundTo x n := by
    intro a c ha hc; rcases min_choice a c with h | h <;> rw [h] <;> assumption
  have hmax : ∀ {a c : ℚ}, (∃ x, a = roundTo x n) → (∃ x, c = roundTo x n) → ∃ x, max a c = roundTo x n := by
    intro a c ha hc; rcases max_choice a c with h | h <;> rw [h] <;> assumption
  refine ⟨?_, ?_, ?_, ?_⟩ <;> simp only [normBox, minimum_eq_min, maximum_eq_max]
  · exact hmin h1 h3
  · exact hmin h4 h2
  · exact hmax h1 h3
  · exact hmax h4 h2

/-- C26 (box): the box of a line made of words on the page is the smallest box around its words. -/
theorem c26_line_box {lib : LineLib} {n : ℕ} {ws : List Word} {l : Line} (hne : ws ≠ [])
    (hp : ∀ w ∈ l.words, PageWord n w) (hl : l.words ≠ []) (h : createTextLine lib ws = .ok l) :
    IsHull (l.words.map fun w => { w.pos with
      leftX := min w.pos.leftX w.pos.rightX, rightX := max w.pos.leftX w.pos.rightX,
      upperY := min w.pos.upperY w.pos.lowerY, lowerY := max w.pos.upperY w.pos.lowerY }) l.pos := by
  cases ws with
  | nil => exact absurd rfl hne
  | cons f r =>
    obtain ⟨_, _, h3, _⟩ := props_shape h f rfl
    have he : (fun w : Word => { w.pos with
      leftX := min w.pos.leftX w.pos.rightX, rightX := max w.pos.leftX w.pos.rightX,
      upperY := min w.pos.upperY w.pos.lowerY, lowerY := max w.pos.upperY w.pos.lowerY }) =
      fun w => normBox w.pos := by
      funext w
      simp only [normBox, minimum_eq_min, maximum_eq_max, min_comm, max_comm]
    rw [he, h3]
    refine extendAll_isHull (by simpa using hl) rfl rfl rfl rfl ?_
    intro e hb
    obtain ⟨w, hw, rfl⟩ := List.mem_map.mp hb
    exact normBox_positive (hp w hw)

theorem isHull_rounded {n : ℕ} {bs : List Box} {b : Box} (h : IsHull bs b)
    (hr : ∀ e ∈ bs, RoundedBox n e) : RoundedBox n b := by
  obtain ⟨⟨e1, m1, q1⟩, _⟩ := h.left
  obtain ⟨⟨e2, m2, q2⟩, _⟩ := h.upper
  obtain ⟨⟨e3, m3, q3⟩, _⟩ := h.right
  obtain ⟨⟨e4, m4, q4⟩, _⟩ := h.lower
  rw [RoundedBox, ← q1, ← q2, ← q3, ← q4]
  exact ⟨(hr e1 m1).1, (hr e2 m2).2.1, (hr e3 m3).2.2.1, (hr e4 m4).2.2.2⟩

theorem swo_rot {α : Type} (pos : α → Box) {n : ℕ} (hn : n ≤ 3) (l : List α)
    (h : ∀ e ∈ l, RoundedBox n (pos e)) :
    StrictWeakOrderOn (fun a b => Comparators.rotLeftXAsc (pos a) (pos b)) l ∧
    StrictWeakOrderOn (fun a b => Comparators.rotLeftXDesc (pos a) (pos b)) l ∧
    StrictWeakOrderOn (fun a b => Comparators.rotLowerYAsc (pos a) (pos b)) l ∧
    StrictWeakOrderOn (fun a b => Comparators.rotLowerYDesc (pos a) (pos b)) l := by
  refine ⟨swo_of_exact (fun e => (pos e).getRotLeftX) ?_, swo_of_exact (fun e => -(pos e).getRotLeftX) ?_,
    swo_of_exact (fun e => (pos e).getRotLowerY) ?_, swo_of_exact (fun e => -(pos e).getRotLowerY) ?_⟩
  · exact fun a ha b hb => smaller_exact_of_decimal hn (rotLeftX_decimal (h a ha)) (rotLeftX_decimal (h b hb))
  · intro a ha b hb
    rw [Comparators.rotLeftXDesc,
      larger_exact_of_decimal hn (rotLeftX_decimal (h a ha)) (rotLeftX_decimal (h b hb))]
    exact neg_lt_neg_iff.symm
  · exact fun a ha b hb => smaller_exact_of_decimal hn (rotLowerY_decimal (h a ha)) (rotLowerY_decimal (h b hb))
  · intro a ha b hb
    rw [Comparators.rotLowerYDesc,
      larger_exact_of_decimal hn (rotLowerY_decimal (h a ha)) (rotLowerY_decimal (h b hb))]
    exact neg_lt_neg_iff.symm

/-- C26, C27 need no more of the library than the C++ standard promises, for words as they come from
the parser. -/
theorem c26_sorts_are_permutations {lib : LineLib} (hl : LineLibContract lib) {n : ℕ} (hn : n ≤ 3) :
    LineSorts (PageWord n) (fun l => RoundedBox n l.pos) lib where
  wordsAsc l h := (hl.wordsAsc l (swo_rot Word.pos hn l fun e he => (h e he).rounded).1).1
  wordsDesc l h := (hl.wordsDesc l (swo_rot Word.pos hn l fun e he => (h e he).rounded).2.1).1
  linesAsc l h := (hl.linesAsc l (swo_rot Line.pos hn l h).2.2.1).1
  linesDesc l h := (hl.linesDesc l (swo_rot Line.pos hn l h).2.2.2).1
  created ws l hne hQ hc := by
    cases ws with
    | nil => exact absurd rfl hne
    | cons f r =>
      obtain ⟨h1, _, h3, _⟩ := props_shape hc f rfl
      have hperm : l.words.Perm (f :: r) := by
        rw [h1]
        simp only
        split
        · exact (hl.wordsAsc _ (swo_rot Word.pos hn _ fun e he => (hQ e he).rounded).1).1
        · exact (hl.wordsDesc _ (swo_rot Word.pos hn _ fun e he => (hQ e he).rounded).2.1).1
      have hlne : l.words ≠ [] := by
        intro hcontra; rw [hcontra] at hperm; exact hne (List.nil_perm.mp hperm)
      rw [h3]
      refine isHull_rounded (bs := l.words.map fun w => normBox w.pos)
        (extendAll_isHull (by simpa using hlne) rfl rfl rfl rfl ?_) ?_
      · intro e hb
        obtain ⟨w, hw, rfl⟩ := List.mem_map.mp hb
        exact normBox_positive (hQ w (hperm.subset hw))
      · intro e hb
        obtain ⟨w, hw, rfl⟩ := List.mem_map.mp hb
        exact normBox_rounded (hQ w (hperm.subset hw)).rounded

/-- C26 (word order): the words of a horizontal line are in the order of their left edges. -/
theorem c26_words_sorted {lib : LineLib} (hl : LineLibContract lib) {n : ℕ} (hn : n ≤ 3)
    {ws : List Word} {l : Line} (hQ : ∀ w ∈ ws, RoundedBox n w.pos)
    (hrot : ∀ w ∈ ws, w.pos.rotation = 0) (h : createTextLine lib ws = .ok l) :
    l.words.Pairwise fun a b => a.pos.leftX ≤ b.pos.leftX := by
  cases ws with
  | nil => simp [createTextLine, computeTextLineProperties] at h; subst h; exact List.Pairwise.nil
  | cons f r =>
    obtain ⟨h1, _⟩ := props_shape h f rfl
    rw [h1]
    simp only
    rw [if_pos (Or.inl (hrot f (by simp)))]
    obtain ⟨p, q⟩ := hl.wordsAsc _ (swo_rot Word.pos hn _ hQ).1
    refine q.imp_of_mem ?_
    intro a b ha hb hab
    have ha' := p.subset ha; have hb' := p.subset hb
    simp only [Comparators.rotLeftXAsc] at hab
    rw [← Bool.not_eq_true,
      smaller_exact_of_decimal hn (rotLeftX_decimal (hQ b hb')) (rotLeftX_decimal (hQ a ha')), not_lt] at hab
    simpa [Box.getRotLeftX, hrot a ha', hrot b hb'] using hab

/-! ### Examples -/

/-- A library for examples: insertion sort, and tables iterated in insertion order. -/
def refLineLib : LineLib where
  hash := idOrder
  iter _ l := l
  iterPerm _ _ := List.Perm.refl _
  sortRotLeftXAsc := insSort fun a b : Word => Comparators.rotLeftXAsc a.pos b.pos
  sortRotLeftXDesc := insSort fun a b : Word => Comparators.rotLeftXDesc a.pos b.pos
  sortRotLowerYAsc := insSort fun a b : Line => Comparators.rotLowerYAsc a.pos b.pos
  sortRotLowerYDesc := insSort fun a b : Line => Comparators.rotLowerYDesc a.pos b.pos

example : LineLibContract refLineLib :=
  ⟨insSort_contract _, insSort_contract _, insSort_contract _, insSort_contract _⟩

/-- Sorting by insertion always rearranges: `LineSorts` is satisfiable for all words. -/
theorem refLineLib_sorts : LineSorts (fun _ => True) (fun _ => True) refLineLib where
  wordsAsc l _ := insSort_alwaysPerm _ l
  wordsDesc l _ := insSort_alwaysPerm _ l
  linesAsc l _ := insSort_alwaysPerm _ l
  linesDesc l _ := insSort_alwaysPerm _ l
  created _ _ _ _ _ := trivial

/-- A word at a given position for examples. -/
def wordAt (x y : ℚ) (t : String) : Word :=
  { chars := [{ uid := 0, pos := { pageNum := 1, leftX := x, upperY := y, rightX := x + 10, lowerY := y + 10 },
                text := utf8 t, fontSize := 10 }]
    pos := { pageNum := 1, leftX := x, upperY := y, rightX := x + 10, lowerY := y + 10 }
    text := utf8 t, fontName := [], fontSize := 10 }

theorem inked_wordAt (x y : ℚ) (t : String) : Inked (wordAt x y t) := by
  refine ⟨_, List.mem_singleton.mpr rfl, ?_⟩
  have h1 : (dblMin : ℚ) ≤ 1 := by
    unfold dblMin
    rw [div_le_one (by positivity)]
    exact one_le_pow₀ (by norm_num)
  have ht : tol = 1 / 10000 := rfl
  rw [ht]; simp only; linarith

theorem wordAt_pageWord (x y : ℕ) (hx : 0 < x) (hy : 0 < y) (hx' : x < 1000) (hy' : y < 1000) (t : String) :
    PageWord 1 (wordAt x y t) := by
  have h1 : (dblMin : ℚ) ≤ 1 := by
    unfold dblMin
    rw [div_le_one (by positivity)]
    exact one_le_pow₀ (by norm_num)
  have h2 : (2000 : ℚ) ≤ dblMax := by 
    unfold dblMax
    generalize hP : (2 : ℚ) ^ 971 = P
    have : 1 ≤ P := by rw [← hP]; exact one_le_pow₀ (by norm_num)
    clear hP
    norm_num
    nlinarith
  have a1 : (1 : ℚ) ≤ x := by exact_mod_cast hx
  have a2 : (1 : ℚ) ≤ y := by exact_mod_cast hy
  have a3 : (x : ℚ) ≤ 1000 := by exact_mod_cast hx'.le
  have a4 : (y : ℚ) ≤ 1000 := by exact_mod_cast hy'.le
  have hr : ∀ z : ℕ, ∃ q : ℚ, (z : ℚ) = roundTo q 1 := by
    intro z
    refine ⟨z, ?_⟩
    rw [roundTo_eq, show (z : ℚ) * 10 ^ 1 = ((z * 10 : ℤ) : ℚ) by push_cast; ring, stdRound_int]
    push_cast; ring
  constructor <;> simp only [wordAt]
  · refine ⟨hr x, hr y, ?_, ?_⟩
    · simpa using hr (x + 10)
    · simpa using hr (y + 10)
  all_goals linarith

/-- Texts of the lines, for examples. -/
def lineTexts (o : Outcome (List (List Line))) : List (List String) :=
  match o with
  | .ok gs => gs.map fun g => g.map fun l => String.ofList l.text
  | _ => []

-- Two lines on the page: the hypotheses of `c27_rounds` hold, and the two lines are merged.
example : ∃ l₁ l₂ : Line, createTextLine refLineLib [wordAt 10 100 "a"] = .ok l₁ ∧
    createTextLine refLineLib [wordAt 22 96 "b"] = .ok l₂ ∧
    (∀ l ∈ [l₁, l₂], l.words ≠ []) ∧ (∀ l ∈ [l₁, l₂], ∀ w ∈ l.words, True ∧ Inked w) := by
  obtain ⟨l₁, h1, p1⟩ := props_ok refLineLib_sorts { words := [wordAt 10 100 "a"] } (by simp)
    (fun _ _ => trivial) ⟨_, List.mem_singleton.mpr rfl, inked_wordAt _ _ _⟩
  obtain ⟨l₂, h2, p2⟩ := props_ok refLineLib_sorts { words := [wordAt 22 96 "b"] } (by simp)
    (fun _ _ => trivial) ⟨_, List.mem_singleton.mpr rfl, inked_wordAt _ _ _⟩
  simp only [List.perm_singleton] at p1 p2
  refine ⟨l₁, l₂, h1, h2, ?_, ?_⟩
  · simp [p1, p2]
  · simp only [List.mem_cons, List.not_mem_nil, or_false, forall_eq_or_imp, forall_eq, p1, p2]
    exact ⟨⟨trivial, inked_wordAt _ _ _⟩, trivial, inked_wordAt _ _ _⟩

-- Four words of two lines; the superscript-like word "d" is merged into the first line.
example : lineTexts (segmentLines refLineLib 5 []
    [wordAt 30 100 "b", wordAt 10 100 "a", wordAt 10 120 "c", wordAt 42 96 "d"]) =
    [["a b d", "c"]] := by decide +kernel

end Verif.Props

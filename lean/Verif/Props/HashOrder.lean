import Verif.Spec.HashOrder
import Verif.Props.Direction
import Verif.Props.Formats

/-!
# C98: the order of the entries of hash tables matters only for ties
-/

namespace Verif.Props

open Verif.Math Verif.Elements Verif.Spec Verif.Words Verif.TextLines Verif.Pipeline Verif.Counter
open Verif.Cli (Stage StageConfig Env Config)

/-! ## Counters -/

theorem ho_noUb {κ : Type} (z : κ) (es : Entries κ) (m : String) : mostFreqAndCount z es ≠ .ub m := by
  intro h
  unfold mostFreqAndCount at h
  simp only at h
  split at h <;> cases h

theorem ho_freqOf (h h' : HashOrder) {κ : Type} [DecidableEq κ] (z : κ) (xs : List κ) (ht : ¬ Tied xs) :
    mostFreqAndCount z (h.order κ (countAll xs)) = mostFreqAndCount z (h'.order κ (countAll xs)) := by
  · obtain ⟨a1, a2⟩ := c07_most_frequent_element z xs _ (h.perm κ (countAll xs))
    obtain ⟨b1, b2⟩ := c07_most_frequent_element z xs _ (h'.perm κ (countAll xs))
    have hth : ∀ es : Entries κ, (mostFreqAndCount z es).isThrow = true → mostFreqAndCount z es = .throw "The counter is empty or all counts are == 0." := by
      intro es he
      unfold mostFreqAndCount at he ⊢
      simp only at he ⊢
      split
      · rfl
      · rename_i hn; rw [if_neg hn] at he; cases he
    by_cases hx : xs = []
    · rw [hth _ (a1.mpr hx), hth _ (b1.mpr hx)]
    · cases ha : mostFreqAndCount z (h.order κ (countAll xs)) with
      | throw m => exact absurd (a1.mp (by rw [ha]; rfl)) hx
      | ub m => exact absurd ha (ho_noUb _ _ _)
      | ok p =>
        cases hb : mostFreqAndCount z (h'.order κ (countAll xs)) with
        | throw m => exact absurd (b1.mp (by rw [hb]; rfl)) hx
        | ub m => exact absurd hb (ho_noUb _ _ _)
        | ok q =>
          obtain ⟨c1, c2, c3⟩ := a2 p.1 p.2 ha
          obtain ⟨d1, d2, d3⟩ := b2 q.1 q.2 hb
          have he : p.1 = q.1 := by
            by_contra hne
            have hocc : ∀ y, occurrences xs y = xs.count y := by
              intro y
              rw [occurrences, List.count_eq_length_filter]
              congr 1
            exact ht ⟨p.1, q.1, ⟨c1, fun y hy => by rw [hocc, hocc]; exact c3 y hy⟩, ⟨d1, fun y hy => by rw [hocc, hocc]; exact d3 y hy⟩, hne⟩
          congr 1
          refine Prod.ext he ?_
          rw [c2, d2, he]

theorem ho_freq {h h' : HashOrder} (hh : SameOnTies h h') {κ : Type} [DecidableEq κ] (z : κ) (xs : List κ) :
    mostFreqAndCount z (h.order κ (countAll xs)) = mostFreqAndCount z (h'.order κ (countAll xs)) := by
  by_cases ht : Tied xs
  · rw [hh.ties κ xs ht]
  · exact ho_freqOf h h' z xs ht

theorem ho_sum (h h' : HashOrder) {κ : Type} [DecidableEq κ] (xs : List κ) : sumCounts (h.order κ (countAll xs)) = sumCounts (h'.order κ (countAll xs)) := by
  rw [c07_sumCounts xs _ (h.perm κ _), c07_sumCounts xs _ (h'.perm κ _)]

theorem ho_max {h h' : HashOrder} (hh : SameOnTies h h') (xs : List ℚ) : Counter.max (h.order ℚ (countAll xs)) = Counter.max (h'.order ℚ (countAll xs)) := by
  by_cases ht : Close xs
  · rw [hh.close xs ht]
  · have hp := (h.perm ℚ (countAll xs)).trans (h'.perm ℚ (countAll xs)).symm
    have hmem : ∀ e ∈ h.order ℚ (countAll xs), e.1 ∈ xs := fun e he => (((isCounterOf_countAll xs).2 e.1 e.2).mp ((h.perm ℚ _).subset he)).1
    have hmem' : ∀ e ∈ h'.order ℚ (countAll xs), e.1 ∈ xs := fun e he => (((isCounterOf_countAll xs).2 e.1 e.2).mp ((h'.perm ℚ _).subset he)).1
    obtain ⟨_, a2, a3⟩ := foldl_max_spec (h.order ℚ (countAll xs)) (dblMin, false)
    obtain ⟨_, b2, b3⟩ := foldl_max_spec (h'.order ℚ (countAll xs)) (dblMin, false)
    unfold Counter.max
    simp only at a2 a3 b2 b3 ⊢
    generalize (h.order ℚ (countAll xs)).foldl maxStep (dblMin, false) = r at a2 a3 ⊢
    generalize (h'.order ℚ (countAll xs)).foldl maxStep (dblMin, false) = r' at b2 b3 ⊢
    rcases a3 with ⟨rfl, a3⟩ | ⟨a3, e, he, e1, e2, e3⟩
    · rcases b3 with ⟨rfl, b3⟩ | ⟨b3, e, he, e1, e2, e3⟩
      · rfl
      · have := a3 e (hp.symm.subset he) e2
        linarith
    · rcases b3 with ⟨rfl, b3⟩ | ⟨b3, f, hf, f1, f2, f3⟩
      · have := b3 e (hp.subset he) e2
        linarith
      · rw [a3, b3]
        have g1 := a2 f (hp.symm.subset hf) f2
        have g2 := b2 e (hp.subset he) e2
        rcases lt_trichotomy r.1 r'.1 with hlt | heq | hgt
        · exact absurd ⟨r.1, e1 ▸ hmem e he, r'.1, f1 ▸ hmem' f hf, hlt, by rw [← f1]; exact g1⟩ ht
        · rw [heq]
        · exact absurd ⟨r'.1, f1 ▸ hmem' f hf, r.1, e1 ▸ hmem e he, hgt, by rw [← e1]; exact g2⟩ ht

theorem ho_or {h h' : HashOrder} (hh : SameOnTies h h') {κ : Type} [DecidableEq κ] (z d : κ) (xs : List κ) : mostFreqOr h z d xs = mostFreqOr h' z d xs := by
  unfold mostFreqOr mostFreq
  simp only
  rw [ho_sum h h', ho_freq hh]

theorem ho_maxOr {h h' : HashOrder} (hh : SameOnTies h h') (d : ℚ) (xs : List ℚ) : maxOr h d xs = maxOr h' d xs := by
  unfold maxOr
  simp only
  rw [ho_sum h h', ho_max hh]

/-- **C98.** A counter whose values have no tie gives the same answer, in whatever order the entries of its hash table come. -/
theorem c98_counter {κ : Type} [DecidableEq κ] (xs : List κ) (hx : ¬ Tied xs) (h h' : HashOrder) (z d : κ) : mostFreqOr h z d xs = mostFreqOr h' z d xs := by
  unfold mostFreqOr mostFreq
  simp only
  rw [ho_sum h h', ho_freqOf h h' z xs hx]

/-! ## The stages -/

variable {h h' : HashOrder}

theorem ho_createWord (hh : SameOnTies h h') : createWord h = createWord h' := by
  funext cs
  cases cs with
  | nil => rfl
  | cons c cs =>
    unfold createWord
    simp only
    rw [ho_or hh, ho_or hh]

theorem ho_stepChar (hh : SameOnTies h h') : stepChar h = stepChar h' := by
  funext st c
  unfold stepChar emitWord
  rw [ho_createWord hh]

theorem ho_charLoop (hh : SameOnTies h h') (cs : List Glyph) : ∀ st, charLoop h st cs = charLoop h' st cs := by
  induction cs with
  | nil => intro st; rfl
  | cons c cs ih =>
    intro st
    rw [charLoop, charLoop, ho_stepChar hh]
    congr 1
    funext st'
    exact ih st'

theorem ho_detectWords (hh : SameOnTies h h') : detectWords h = detectWords h' := by
  funext a n cs
  unfold detectWords emitWord
  simp only [ho_charLoop hh, ho_createWord hh]

theorem ho_glyphStatistics (hh : SameOnTies h h') : Statistics.glyphStatistics h = Statistics.glyphStatistics h' := by
  funext doc pages
  unfold Statistics.glyphStatistics
  simp only [ho_or hh]

theorem ho_wordStatistics (hh : SameOnTies h h') : Statistics.wordStatistics h = Statistics.wordStatistics h' := by
  funext doc pages
  unfold Statistics.wordStatistics
  simp only [ho_or hh]

theorem ho_perSizeLoop (hh : SameOnTies h h') (es : List (ℚ × List ℚ)) : ∀ m, Statistics.perSizeLoop h es m = Statistics.perSizeLoop h' es m := by
  induction es with
  | nil => intro m; rfl
  | cons e es ih =>
    intro m
    unfold Statistics.perSizeLoop mostFreq
    simp only [ho_sum h h', ho_freq hh, ih]

theorem ho_computeTrimBox (hh : SameOnTies h h') : computeTrimBox h = computeTrimBox h' := by
  funext seg ls
  unfold computeTrimBox trimRightX
  simp only [ho_sum h h', ho_freq hh]

theorem ho_hanging (hh : SameOnTies h h') : TextBlocks.computeHangingIndent h = TextBlocks.computeHangingIndent h' := by
  funext d s ls
  unfold TextBlocks.computeHangingIndent
  simp only [ho_sum h h', ho_freq hh]

theorem ho_createTextBlock (hh : SameOnTies h h') : TextBlocks.createTextBlock h = TextBlocks.createTextBlock h' := by
  funext d s ls bs
  cases ls with
  | nil => rfl
  | cons l ls =>
    unfold TextBlocks.createTextBlock
    simp only [ho_or hh, ho_hanging hh]

theorem ho_blockLoop (hh : SameOnTies h h') (d : TextBlocks.Doc) (pre : TextBlocks.State → ℕ → TextBlocks.State) (starts : TextBlocks.State → ℕ → Bool) (ls : List ℕ) :
    ∀ cur s bs, TextBlocks.blockLoop h d pre starts ls cur s bs = TextBlocks.blockLoop h' d pre starts ls cur s bs := by
  induction ls with
  | nil => intro cur s bs; unfold TextBlocks.blockLoop; rw [ho_createTextBlock hh]
  | cons l ls ih =>
    intro cur s bs
    unfold TextBlocks.blockLoop
    simp only [ho_createTextBlock hh, ih]

theorem ho_pass1Page (hh : SameOnTies h h') (d : TextBlocks.Doc) (segs : List (List ℕ)) : ∀ s, TextBlocks.pass1Page h d segs s = TextBlocks.pass1Page h' d segs s := by
  induction segs with
  | nil => intro s; rfl
  | cons g gs ih =>
    intro s
    unfold TextBlocks.pass1Page TextBlocks.preliminaryBlocks
    simp only [ho_blockLoop hh, ih]

theorem ho_pass1 (hh : SameOnTies h h') (d : TextBlocks.Doc) (pages : List (List (List ℕ))) : ∀ s, TextBlocks.pass1 h d pages s = TextBlocks.pass1 h' d pages s := by
  induction pages with
  | nil => intro s; rfl
  | cons g gs ih =>
    intro s
    unfold TextBlocks.pass1
    simp only [ho_pass1Page hh, ih]

theorem ho_pass2Page (hh : SameOnTies h h') (d : TextBlocks.Doc) (l : List TextBlocks.Block) : ∀ s bs, TextBlocks.pass2Page h d l s bs = TextBlocks.pass2Page h' d l s bs := by
  induction l with
  | nil => intro s bs; rfl
  | cons g gs ih =>
    intro s bs
    unfold TextBlocks.pass2Page TextBlocks.splitBlock
    simp only [ho_blockLoop hh, ih]

theorem ho_pass2 (hh : SameOnTies h h') (d : TextBlocks.Doc) (pages : List (List (List TextBlocks.Block))) : ∀ s, TextBlocks.pass2 h d pages s = TextBlocks.pass2 h' d pages s := by
  induction pages with
  | nil => intro s; rfl
  | cons g gs ih =>
    intro s
    unfold TextBlocks.pass2
    simp only [ho_pass2Page hh, ih]

theorem ho_blocks (hh : SameOnTies h h') : TextBlocks.process h = TextBlocks.process h' := by
  funext d s pages
  unfold TextBlocks.process
  simp only [ho_pass1 hh, ho_pass2 hh]

/-! ## Text lines -/

/-- The library with another order. -/
def lineOrder (lib : LineLib) (h : HashOrder) (iter : (β : Type) → List β → List β) (hp : ∀ β l, (iter β l).Perm l) : LineLib :=
  { lib with hash := h, iter := iter, iterPerm := hp }

variable {iter : (β : Type) → List β → List β} {hp : ∀ β l, (iter β l).Perm l}

theorem ho_lineProperties {lib : LineLib} (hh : SameOnTies lib.hash h') : computeTextLineProperties (lineOrder lib h' iter hp) = computeTextLineProperties lib := by
  funext line
  unfold computeTextLineProperties
  cases line.words with
  | nil => rfl
  | cons w ws =>
    unfold lineOrder
    simp only [ho_or hh, ho_maxOr hh]

theorem ho_mergeFrom {lib : LineLib} (hh : SameOnTies lib.hash h') (acw : ℚ) (ls : List Line) : ∀ prev, mergeFrom (lineOrder lib h' iter hp) acw prev ls = mergeFrom lib acw prev ls := by
  induction ls with
  | nil => intro prev; rfl
  | cons l ls ih =>
    intro prev
    unfold mergeFrom mergeTextLines
    simp only [ho_lineProperties hh, ih]

theorem ho_mergeRounds {lib : LineLib} (hh : SameOnTies lib.hash h') (acw : ℚ) : ∀ (k : ℕ) (ls : List Line), ls.length = k →
    mergeRounds (lineOrder lib h' iter hp) acw ls = mergeRounds lib acw ls := by
  have hr : ∀ ls, mergeRound (lineOrder lib h' iter hp) acw ls = mergeRound lib acw ls := by
    intro ls
    cases ls with
    | nil => rfl
    | cons l ls => exact ho_mergeFrom hh acw ls l
  intro k
  induction k using Nat.strong_induction_on with
  | _ k ih =>
    intro ls hk
    rw [mergeRounds, mergeRounds]
    have he := hr ls
    split
    · next x hx =>
      rw [he] at hx
      split
      · next y hy =>
        rw [hx] at hy
        cases hy
        exact ih _ (by rw [← hk]; exact mergeRound_shrinks lib acw ls x hx) x rfl
      · next y hy => rw [hx] at hy; cases hy
      · next y hy => rw [hx] at hy; cases hy
      · next y hy => rw [hx] at hy; cases hy
    · next x hx =>
      rw [he] at hx
      split
      · next y hy => rw [hx] at hy; cases hy
      · next y hy => rw [hx] at hy; cases hy; rfl
      · next y hy => rw [hx] at hy; cases hy
      · next y hy => rw [hx] at hy; cases hy
    · next x hx =>
      rw [he] at hx
      split
      · next y hy => rw [hx] at hy; cases hy
      · next y hy => rw [hx] at hy; cases hy
      · next y hy => rw [hx] at hy; cases hy; rfl
      · next y hy => rw [hx] at hy; cases hy
    · next x hx =>
      rw [he] at hx
      split
      · next y hy => rw [hx] at hy; cases hy
      · next y hy => rw [hx] at hy; cases hy
      · next y hy => rw [hx] at hy; cases hy
      · next y hy => rw [hx] at hy; cases hy; rfl

theorem ho_createAll {lib : LineLib} (hh : SameOnTies lib.hash h') (es : List (ℚ × List Word)) : createAll (lineOrder lib h' iter hp) es = createAll lib es := by
  induction es with
  | nil => rfl
  | cons e es ih =>
    unfold createAll createTextLine
    rw [ho_lineProperties hh, ih]

/-- Different keys, and words that belong to words with these keys. -/
def KeyedRows (page words : List Word) (v : List (ℚ × List Word)) : Prop :=
  (v.map (·.1)).Nodup ∧ ∀ e ∈ v, ∀ x ∈ e.2, ∃ a ∈ words, a.pos.getRotLowerY = e.1 ∧ x ∈ wordGroup page a

theorem ho_addInner_keys (y : ℚ) (ws : List Word) (v : List (ℚ × List Word)) (k : ℚ) : k ∈ (addInner y ws v).map (·.1) ↔ k = y ∨ k ∈ v.map (·.1) := by
  induction v with
  | nil => simp [addInner]
  | cons e v ih =>
    obtain ⟨a, b⟩ := e
    rw [addInner]
    split
    · next hk => subst hk; simp
    · rw [List.map_cons, List.map_cons, List.mem_cons, List.mem_cons, ih]
      tauto

theorem ho_addInner {page words : List Word} {y : ℚ} {ws : List Word} (hw : ∀ x ∈ ws, ∃ a ∈ words, a.pos.getRotLowerY = y ∧ x ∈ wordGroup page a) {v : List (ℚ × List Word)}
    (hv : KeyedRows page words v) : KeyedRows page words (addInner y ws v) := by
  obtain ⟨h1, h2⟩ := hv
  induction v with
  | nil =>
    refine ⟨by simp [addInner], ?_⟩
    intro e he w hw'
    rw [show addInner y ws [] = [(y, ws)] from rfl, List.mem_singleton] at he
    subst he
    exact hw w hw'
  | cons e v ih =>
    obtain ⟨a, b⟩ := e
    rw [List.map_cons, List.nodup_cons] at h1
    rw [addInner]
    split
    · next hk =>
      refine ⟨by rw [List.map_cons, List.nodup_cons]; exact h1, ?_⟩
      intro e he w hw'
      rcases List.mem_cons.mp he with rfl | he
      · rcases List.mem_append.mp hw' with hw' | hw'
        · exact h2 (a, b) (by simp) w hw'
        · obtain ⟨z, z1, z2, z3⟩ := hw w hw'
          exact ⟨z, z1, z2.trans hk.symm, z3⟩
      · exact h2 e (by simp [he]) w hw'
    · next hk =>
      obtain ⟨i1, i2⟩ := ih h1.2 (fun e he => h2 e (by simp [he]))
      refine ⟨?_, ?_⟩
      · rw [List.map_cons, List.nodup_cons, ho_addInner_keys]
        exact ⟨fun hc => hc.elim hk h1.1, i1⟩
      · intro e he w hw'
        rcases List.mem_cons.mp he with rfl | he
        · exact h2 (a, b) (by simp) w hw'
        · exact i2 e he w hw'

theorem ho_cluster (page words : List Word) : ∀ c ∈ cluster page words, KeyedRows page (words.filter fun w => decide (w.pos.rotation = c.1)) c.2 := by
  have key : ∀ (ws : List Word) (cl : List (ℤ × List (ℚ × List Word))), (∀ w ∈ ws, w ∈ words) → (∀ c ∈ cl, KeyedRows page (words.filter fun w => decide (w.pos.rotation = c.1)) c.2) →
      ∀ c ∈ ws.foldl (fun cl w => if w.partOf.isSome then cl else addCluster w.pos.rotation w.pos.getRotLowerY (wordGroup page w) cl) cl,
        KeyedRows page (words.filter fun w => decide (w.pos.rotation = c.1)) c.2 := by
    intro ws
    induction ws with
    | nil => intro cl _ h; exact h
    | cons w ws ih =>
      intro cl hp hcl
      rw [List.foldl_cons]
      refine ih _ (fun x hx => hp x (by simp [hx])) ?_
      split
      · exact hcl
      · have hg : ∀ x ∈ wordGroup page w, ∃ a ∈ words.filter fun v => decide (v.pos.rotation = w.pos.rotation), a.pos.getRotLowerY = w.pos.getRotLowerY ∧ x ∈ wordGroup page a :=
          fun x hx => ⟨w, List.mem_filter.mpr ⟨hp w (by simp), by simp⟩, rfl, hx⟩
        generalize wordGroup page w = g at hg
        generalize w.pos.getRotLowerY = y at hg
        generalize w.pos.rotation = r at hg
        clear ih hp
        induction cl with
        | nil =>
          intro c hc
          rw [show addCluster r y g [] = [(r, addInner y g [])] from rfl, List.mem_singleton] at hc
          subst hc
          exact ho_addInner hg ⟨by simp, by simp⟩
        | cons e cl ih =>
          obtain ⟨a, b⟩ := e
          rw [addCluster]
          split
          · next hk =>
            intro c hc
            rcases List.mem_cons.mp hc with rfl | hc
            · have hk : a = r := hk
              subst hk
              exact ho_addInner hg (hcl (a, b) (by simp))
            · exact hcl c (by simp [hc])
          · intro c hc
            rcases List.mem_cons.mp hc with rfl | hc
            · exact hcl (a, b) (by simp)
            · exact ih (fun c hc => hcl c (by simp [hc])) c hc
  exact key words [] (fun w hw => hw) (by simp)

/-- Words of different rows end at different heights. -/
def UntiedRows (v : List (ℚ × List Word)) : Prop := (v.map (·.1)).Nodup ∧ ∀ e ∈ v, ∀ f ∈ v, e.1 ≠ f.1 → ∀ x ∈ e.2, ∀ y ∈ f.2, x.pos.getRotLowerY ≠ y.pos.getRotLowerY

/-- The line made of a row of words. -/
def rowLine (lib : LineLib) (e : ℚ × List Word) : Line :=
  match createTextLine lib e.2 with
  | .ok l => l
  | _ => { words := [] }

theorem ho_rows (lib : LineLib) (es : List (ℚ × List Word)) : ∀ ls, createAll lib es = .ok ls → (∀ e ∈ es, createTextLine lib e.2 = .ok (rowLine lib e)) ∧ ls = es.map (rowLine lib) := by
  induction es with
  | nil => intro ls h; exact ⟨by simp, (wi_ok h).symm ▸ rfl⟩
  | cons e es ih =>
    intro ls h
    rw [createAll] at h
    obtain ⟨l, hl, h⟩ := wi_bind h
    obtain ⟨z, hz, h⟩ := wi_bind h
    have h := wi_ok h
    obtain ⟨i1, i2⟩ := ih z hz
    have hr : rowLine lib e = l := by unfold rowLine; rw [hl]
    refine ⟨?_, ?_⟩
    · intro x hx
      rcases List.mem_cons.mp hx with rfl | hx
      · rw [hr]; exact hl
      · exact i1 x hx
    · subst h
      rw [List.map_cons, hr, i2]

/-- Words of one direction with well-formed boxes. -/
def PlainWord (r : ℤ) (w : Word) : Prop := w.pos.rotation = r ∧ w.pos.leftX ≤ w.pos.rightX ∧ w.pos.upperY ≤ w.pos.lowerY

theorem ho_key {n : ℕ} (hn : n ≤ 3) {lib : LineLib} (hlib : LineLibContract lib) {r : ℤ} {e : ℚ × List Word} (hne : e.2 ≠ []) (hQ : ∀ w ∈ e.2, PageBox n w.pos)
    (hr : ∀ w ∈ e.2, PlainWord r w) {l : Line} (h : createTextLine lib e.2 = .ok l) :
    ∃ w ∈ e.2, l.pos.getRotLowerY = w.pos.getRotLowerY := by
  have hs := c26_sorts_are_permutations hlib hn
  have hc : createAll lib [e] = .ok [l] := by
    rw [createAll, h]
    rfl
  have hf := (lc_createAll hs [e] (by simpa using hne) (by simpa using hQ) [l] hc l (by simp)).2.box
  obtain ⟨t, p⟩ := ln_props hlib hn r (line := { words := e.2 }) hne (fun w hw => (hQ w hw).rounded) (fun w hw => (hr w hw).1) h
  have p : l.words.Perm e.2 := p
  have hb : ∀ b ∈ l.words.map fun w => normBox w.pos, ∃ w ∈ e.2, b.getRotLowerY = w.pos.getRotLowerY ∧ b.rotation = r := by
    intro b hb
    obtain ⟨w, hw, rfl⟩ := List.mem_map.mp hb
    have hw := p.subset hw
    obtain ⟨q1, q4, q5⟩ := hr w hw
    refine ⟨w, hw, ?_, q1⟩
    unfold normBox Box.getRotLowerY
    simp only [minimum_eq_min, maximum_eq_max, min_eq_left q4, max_eq_right q4, min_eq_right q5, max_eq_left q5]
  obtain ⟨⟨w1, m1, c1⟩, _⟩ := hf.left
  obtain ⟨⟨w2, m2, c2⟩, _⟩ := hf.upper
  obtain ⟨⟨w3, m3, c3⟩, _⟩ := hf.right
  obtain ⟨⟨w4, m4, c4⟩, _⟩ := hf.lower
  have ht := t.turned
  unfold Box.getRotLowerY at hb ⊢
  rw [ht]
  by_cases r1 : r = 1
  · rw [if_pos r1, ← c1]
    obtain ⟨w, hw, x1, x2⟩ := hb w1 m1
    rw [x2, if_pos r1] at x1
    exact ⟨w, hw, x1⟩
  rw [if_neg r1]
  by_cases r2 : r = 2
  · rw [if_pos r2, ← c2]
    obtain ⟨w, hw, x1, x2⟩ := hb w2 m2
    rw [x2, if_neg r1, if_pos r2] at x1
    exact ⟨w, hw, x1⟩
  rw [if_neg r2]
  by_cases r3 : r = 3
  · rw [if_pos r3, ← c3]
    obtain ⟨w, hw, x1, x2⟩ := hb w3 m3
    rw [x2, if_neg r1, if_neg r2, if_pos r3] at x1
    exact ⟨w, hw, x1⟩
  rw [if_neg r3, ← c4]
  obtain ⟨w, hw, x1, x2⟩ := hb w4 m4
  rw [x2, if_neg r1, if_neg r2, if_neg r3] at x1
  exact ⟨w, hw, x1⟩

theorem ho_linesOfRotation {n : ℕ} (hn : n ≤ 3) {lib : LineLib} (hlib : LineLibContract lib) (hh : SameOnTies lib.hash h') (acw : ℚ) (r : ℤ) (inner : List (ℚ × List Word))
    (hne : ∀ e ∈ inner, e.2 ≠ []) (hQ : ∀ e ∈ inner, ∀ w ∈ e.2, GoodWord n w) (hr : ∀ e ∈ inner, ∀ w ∈ e.2, PlainWord r w) (hk : UntiedRows inner) :
    linesOfRotation (lineOrder lib h' iter hp) acw r inner = linesOfRotation lib acw r inner := by
  have hs := c26_sorts_are_permutations hlib hn
  have p1 := lib.iterPerm _ inner
  have p2 := hp _ inner
  have ok : ∀ es : List (ℚ × List Word), es.Perm inner → ∃ ls, createAll lib es = .ok ls := by
    intro es pe
    obtain ⟨ls, hls, _⟩ := createAll_spec hs es (fun e he => hne e (pe.subset he)) (fun e he w hw => ⟨pl_pageWord (hQ e (pe.subset he) w hw).1, (hQ e (pe.subset he) w hw).2⟩)
    exact ⟨ls, hls⟩
  obtain ⟨ls1, e1⟩ := ok _ p1
  obtain ⟨ls2, e2⟩ := ok _ p2
  obtain ⟨f1, g1⟩ := ho_rows lib _ ls1 e1
  obtain ⟨f2, g2⟩ := ho_rows lib _ ls2 e2
  have full := lc_createAll hs _ (fun e he => hne e (p1.subset he)) (fun e he w hw => (hQ e (p1.subset he) w hw).1) ls1 e1
  have full2 := lc_createAll hs _ (fun e he => hne e (p2.subset he)) (fun e he w hw => (hQ e (p2.subset he) w hw).1) ls2 e2
  obtain ⟨s1, t1⟩ := ln_sortLines hlib hn r ls1 fun l hl => (full l hl).1.box.rounded
  obtain ⟨s2, t2⟩ := ln_sortLines hlib hn r ls2 fun l hl => (full2 l hl).1.box.rounded
  unfold linesOfRotation
  rw [ho_createAll hh, e1, show (lineOrder lib h' iter hp).iter = iter from rfl, e2]
  simp only [Outcome.bind]
  rw [ho_mergeRounds hh acw _ _ rfl]
  congr 1
  show (if r = 0 ∨ r = 1 then lib.sortRotLowerYAsc ls2 else lib.sortRotLowerYDesc ls2) = _
  have keyOf : ∀ e ∈ inner, ∃ w ∈ e.2, (rowLine lib e).pos.getRotLowerY = w.pos.getRotLowerY := fun e he =>
    ho_key hn hlib (hne e he) (fun w hw => (hQ e he w hw).1) (hr e he) (f1 e (p1.symm.subset he))
  refine List.Perm.eq_of_pairwise (le := fun v w : Line => ln_lineKey r v.pos ≤ ln_lineKey r w.pos) ?_ t2 t1 ?_
  · intro a b ha hb hab hba
    have ha := s2.subset ha
    have hb := s1.subset hb
    rw [g2] at ha
    rw [g1] at hb
    obtain ⟨x, hx, rfl⟩ := List.mem_map.mp ha
    obtain ⟨y, hy, rfl⟩ := List.mem_map.mp hb
    have hx := p2.subset hx
    have hy := p1.subset hy
    have he := le_antisymm hab hba
    unfold ln_lineKey at he
    have he : (rowLine lib x).pos.getRotLowerY = (rowLine lib y).pos.getRotLowerY := by
      split at he
      · exact he
      · linarith
    have : x.1 = y.1 := by
      by_contra hc
      obtain ⟨u, u1, u2⟩ := keyOf x hx
      obtain ⟨v, v1, v2⟩ := keyOf y hy
      exact hk.2 x hx y hy hc u u1 v v1 (u2.symm.trans (he.trans v2))
    rw [List.inj_on_of_nodup_map hk.1 hx hy this]
  · refine s2.trans (List.Perm.trans ?_ s1.symm)
    rw [g1, g2]
    exact (p2.trans p1.symm).map _

/-- Of two words (or formulas) whose lower edges differ, no words end at the same height. -/
def NoTies (page : List Word) : Prop :=
  ∀ a ∈ page, ∀ b ∈ page, a.partOf = none → b.partOf = none → a.pos.getRotLowerY ≠ b.pos.getRotLowerY →
    ∀ x ∈ a :: a.parts.filterMap (page[·]?), ∀ y ∈ b :: b.parts.filterMap (page[·]?), x.pos.getRotLowerY ≠ y.pos.getRotLowerY

theorem ho_base {page : List Word} {a x : Word} (hx : x ∈ wordGroup page a) : a.partOf = none ∧ x ∈ a :: a.parts.filterMap (page[·]?) := by
  unfold wordGroup at hx
  split at hx
  · cases hx
  · next hp => exact ⟨by simpa using hp, hx⟩

theorem ho_untied {page words : List Word} (hu : ∀ a ∈ words, ∀ b ∈ words, a.partOf = none → b.partOf = none → a.pos.getRotLowerY ≠ b.pos.getRotLowerY →
    ∀ x ∈ a :: a.parts.filterMap (page[·]?), ∀ y ∈ b :: b.parts.filterMap (page[·]?), x.pos.getRotLowerY ≠ y.pos.getRotLowerY) {v : List (ℚ × List Word)} (h : KeyedRows page words v) : UntiedRows v := by
  refine ⟨h.1, ?_⟩
  intro e he f hf hne x hx y hy
  obtain ⟨a, a1, a2, a3⟩ := h.2 e he x hx
  obtain ⟨b, b1, b2, b3⟩ := h.2 f hf y hy
  obtain ⟨a4, a5⟩ := ho_base a3
  obtain ⟨b4, b5⟩ := ho_base b3
  exact hu a a1 b b1 a4 b4 (by rw [a2, b2]; exact hne) x a5 y b5

theorem ho_segmentLines {n : ℕ} (hn : n ≤ 3) {lib : LineLib} (hlib : LineLibContract lib) (hh : SameOnTies lib.hash h') (acw : ℚ) (r : ℤ) (page words : List Word)
    (hpg : ∀ w ∈ page, GoodWord n w ∧ PlainWord r w) (hu : NoTies page) (hw : ∀ w ∈ words, w ∈ page) :
    TextLines.segmentLines (lineOrder lib h' iter hp) acw page words = TextLines.segmentLines lib acw page words := by
  have hQ : ∀ w ∈ words.flatMap (wordGroup page), w ∈ page := by
    intro w hw'
    obtain ⟨v, hv, hw'⟩ := List.mem_flatMap.mp hw'
    exact pl_wordGroup_mem (hw v hv) hw'
  obtain ⟨g1, g2⟩ := cluster_spec page words
  have g3 := ho_cluster page words
  have hit := lib.iterPerm _ (cluster page words)
  have hit' := hp _ (cluster page words)
  unfold TextLines.segmentLines
  rw [show (lineOrder lib h' iter hp).iter = iter from rfl]
  rcases ln_cluster_one page r words (fun w hw' => (hpg w (hw w hw')).2.1) with e | ⟨v, e⟩
  · rw [e] at hit hit' ⊢
    rw [List.perm_nil.mp hit, List.perm_nil.mp hit']
    rfl
  · rw [e] at hit hit' g1 g2 g3 ⊢
    rw [List.perm_singleton.mp hit, List.perm_singleton.mp hit']
    have hmem : ∀ e ∈ v, ∀ w ∈ e.2, w ∈ page := by
      intro e he w hw'
      exact hQ w (g1.subset (List.mem_flatMap.mpr ⟨(r, v), by simp, List.mem_flatMap.mpr ⟨e, he, hw'⟩⟩))
    unfold rotationGroups rotationGroups
    rw [ho_linesOfRotation hn hlib hh acw r v (g2 (r, v) (by simp)) (fun e he w hw' => (hpg w (hmem e he w hw')).1) (fun e he w hw' => (hpg w (hmem e he w hw')).2)
      (ho_untied (fun a ha b hb => hu a (hw a (List.mem_filter.mp ha).1) b (hw b (List.mem_filter.mp hb).1)) (g3 (r, v) (by simp)))]

/-- The lines of a direction. -/
def directionLines (lib : LineLib) (acw : ℚ) (c : ℤ × List (ℚ × List Word)) : List Line :=
  match linesOfRotation lib acw c.1 c.2 with
  | .ok ls => ls
  | _ => []

theorem ho_groups (lib : LineLib) (acw : ℚ) (cs : List (ℤ × List (ℚ × List Word))) (h : ∀ c ∈ cs, ∃ ls, linesOfRotation lib acw c.1 c.2 = .ok ls) :
    rotationGroups lib acw cs = .ok (cs.map (directionLines lib acw)) := by
  induction cs with
  | nil => rfl
  | cons c cs ih =>
    obtain ⟨ls, hls⟩ := h c (by simp)
    rw [rotationGroups, hls, ih fun d hd => h d (by simp [hd]), List.map_cons, show directionLines lib acw c = ls by unfold directionLines; rw [hls]]
    rfl

theorem ho_directions {n : ℕ} (hn : n ≤ 3) {lib : LineLib} (hlib : LineLibContract lib) (hh : SameOnTies lib.hash h') (acw : ℚ) (p : Pipeline.Page) (words : List Word)
    (hg : ∀ w ∈ p.words, GoodWord n w) (hu : UntiedDirections p) (hw : ∀ w ∈ words, w ∈ p.words) :
    ∃ gs gs', TextLines.segmentLines lib acw p.words words = .ok gs ∧ TextLines.segmentLines (lineOrder lib h' iter hp) acw p.words words = .ok gs' ∧ gs.Perm gs' := by
  obtain ⟨u1, u2, u3⟩ := hu
  have hQ : ∀ w ∈ words.flatMap (wordGroup p.words), w ∈ p.words := by
    intro w hw'
    obtain ⟨v, hv, hw'⟩ := List.mem_flatMap.mp hw'
    exact pl_wordGroup_mem (hw v hv) hw'
  obtain ⟨g1, g2⟩ := cluster_spec p.words words
  have g3 := ho_cluster p.words words
  have hs := c26_sorts_are_permutations hlib hn
  have hgood : ∀ c ∈ cluster p.words words, ∀ e ∈ c.2, ∀ w ∈ e.2, w ∈ p.words := by
    intro c hc e he w hw'
    exact hQ w (g1.subset (List.mem_flatMap.mpr ⟨c, hc, List.mem_flatMap.mpr ⟨e, he, hw'⟩⟩))
  have hsame : ∀ c ∈ cluster p.words words, linesOfRotation (lineOrder lib h' iter hp) acw c.1 c.2 = linesOfRotation lib acw c.1 c.2 := by
    intro c hc
    refine ho_linesOfRotation hn hlib hh acw c.1 c.2 (g2 c hc) (fun e he w hw' => hg w (hgood c hc e he w hw')) (fun e he w hw' => ?_) (ho_untied ?_ (g3 c hc))
    · obtain ⟨a, a1, _, a3⟩ := (g3 c hc).2 e he w hw'
      obtain ⟨a4, a5⟩ := List.mem_filter.mp a1
      have hm := hgood c hc e he w hw'
      exact ⟨(u2 a (hw a a4) w (ho_base a3).2).trans (by simpa using a5), u1 w hm⟩
    · intro a ha b hb h1 h2
      obtain ⟨a1, a2⟩ := List.mem_filter.mp ha
      obtain ⟨b1, b2⟩ := List.mem_filter.mp hb
      exact u3 a (hw a a1) b (hw b b1) h1 h2 ((by simpa using a2 : a.pos.rotation = c.1).trans (by simpa using b2 : b.pos.rotation = c.1).symm)
  have ok : ∀ c ∈ cluster p.words words, ∃ ls, linesOfRotation lib acw c.1 c.2 = .ok ls := by
    intro c hc
    obtain ⟨ls, hls, _⟩ := linesOfRotation_spec hs acw c.1 c.2 (g2 c hc) fun e he w hw' => ⟨pl_pageWord (hg w (hgood c hc e he w hw')).1, (hg w (hgood c hc e he w hw')).2⟩
    exact ⟨ls, hls⟩
  have p1 := lib.iterPerm _ (cluster p.words words)
  have p2 := hp _ (cluster p.words words)
  refine ⟨_, _, ho_groups _ _ _ fun c hc => ok c (p1.subset hc), ho_groups _ _ (iter _ (cluster p.words words)) fun c hc => ?_, ?_⟩
  · rw [hsame c (p2.subset hc)]; exact ok c (p2.subset hc)
  · rw [List.map_congr_left (l := iter _ (cluster p.words words)) (g := directionLines lib acw) fun c hc => by unfold directionLines; rw [hsame c (p2.subset hc)]]
    exact (p1.trans p2.symm).map _

variable {lib : Pipeline.Lib} {n : ℕ}

theorem ho_segmentWords (page : List Word) (s : Segment) : ∀ w ∈ s.words page, w ∈ page := by
  intro w hw
  unfold Segment.words at hw
  obtain ⟨i, _, hi⟩ := List.mem_filterMap.mp hw
  exact List.mem_of_getElem? hi

theorem ho_linesOfSegments (hn : n ≤ 3) (hl : LineLibContract lib.lines) (hh : SameOnTies lib.lines.hash h') (acw : ℚ) (r : ℤ) (page : List Word)
    (hpg : ∀ w ∈ page, GoodWord n w ∧ PlainWord r w) (hu : NoTies page) (ss : List Segment) : ∀ k,
    linesOfSegments (withOrder lib h' iter hp) acw page k ss = linesOfSegments lib acw page k ss := by
  have h1 : ∀ k s, linesOfSegment (withOrder lib h' iter hp) acw page k s = linesOfSegment lib acw page k s := by
    intro k s
    have e := ho_segmentLines (iter := iter) (hp := hp) hn hl hh acw r page (s.words page) hpg hu (ho_segmentWords page s)
    have e : TextLines.segmentLines (withOrder lib h' iter hp).lines acw page (s.words page) = TextLines.segmentLines lib.lines acw page (s.words page) := e
    unfold linesOfSegment
    rw [e, show (withOrder lib h' iter hp).lines.hash = h' from rfl, ← ho_computeTrimBox hh]
  induction ss with
  | nil => intro k; rfl
  | cons s ss ih =>
    intro k
    unfold linesOfSegments
    simp only [h1, ih]

theorem ho_linesPages (hn : n ≤ 3) (hl : LineLibContract lib.lines) (hh : SameOnTies lib.lines.hash h') (acw : ℚ) (ps : List Page)
    (hg : ∀ p ∈ ps, (∀ w ∈ p.words, GoodWord n w) ∧ UntiedPage p) : ∀ k, linesPages (withOrder lib h' iter hp) acw k ps = linesPages lib acw k ps := by
  induction ps with
  | nil => intro k; rfl
  | cons p ps ih =>
    intro k
    obtain ⟨g1, ⟨r, g2⟩, g3⟩ := hg p (by simp)
    unfold linesPages
    rw [ho_linesOfSegments hn hl hh acw r p.words (fun w hw => ⟨g1 w hw, g2 w hw⟩) g3 p.segments k]
    simp only [ih fun q hq => hg q (by simp [hq])]

theorem ho_addDistance_keys (a b : ℚ) (l : List (ℚ × List ℚ)) (k : ℚ) : k ∈ (Statistics.addDistance a b l).map (·.1) ↔ k = a ∨ k ∈ l.map (·.1) := by
  induction l with
  | nil => simp [Statistics.addDistance]
  | cons e l ih =>
    rw [Statistics.addDistance]
    split
    · next hk => subst hk; simp
    · rw [List.map_cons, List.map_cons, List.mem_cons, List.mem_cons, ih]
      tauto

theorem ho_addDistance {a b : ℚ} {l : List (ℚ × List ℚ)} (h : (l.map (·.1)).Nodup) : ((Statistics.addDistance a b l).map (·.1)).Nodup := by
  induction l with
  | nil => simp [Statistics.addDistance]
  | cons e l ih =>
    rw [List.map_cons, List.nodup_cons] at h
    rw [Statistics.addDistance]
    split
    · rw [List.map_cons, List.nodup_cons]; exact h
    · next hk =>
      rw [List.map_cons, List.nodup_cons, ho_addDistance_keys]
      exact ⟨fun hc => hc.elim hk h.1, ih h.2⟩

theorem ho_lineLoop (ls : List Statistics.BasedLine) : ∀ k : Statistics.LineCounts, (k.perSize.map (·.1)).Nodup → ((Statistics.lineLoop ls k).perSize.map (·.1)).Nodup := by
  induction ls with
  | nil => intro k h; exact h
  | cons a ls ih =>
    intro k h
    cases ls with
    | nil => exact h
    | cons b ls =>
      rw [Statistics.lineLoop]
      refine ih _ ?_
      unfold Statistics.lineStep
      split
      · exact h
      · split
        · exact h
        · simp only
          split
          · exact ho_addDistance h
          · exact h

/-- What one counter changes in the table of the line distances. -/
theorem ho_perSizeStep (h : HashOrder) (e : ℚ × List ℚ) : ∃ o : Option ℚ, ∀ es m, Statistics.perSizeLoop h (e :: es) m = Statistics.perSizeLoop h es (fun fs => if fs = e.1 then o.or (m fs) else m fs) := by
  by_cases hs : sumCounts (h.order ℚ (countAll e.2)) > 0
  · have hx : e.2 ≠ [] := by
      intro hx
      rw [c07_sumCounts e.2 _ (h.perm ℚ _), hx] at hs
      simp at hs
    obtain ⟨a1, _⟩ := c07_most_frequent_element 0 e.2 _ (h.perm ℚ (countAll e.2))
    cases hm : mostFreqAndCount 0 (h.order ℚ (countAll e.2)) with
    | throw m => exact absurd (a1.mp (by rw [hm]; rfl)) hx
    | ub m => exact absurd hm (ho_noUb _ _ _)
    | ok p =>
      refine ⟨some p.1, fun es m => ?_⟩
      rw [Statistics.perSizeLoop, if_pos hs, mostFreq, hm]
      rfl
  · refine ⟨none, fun es m => ?_⟩
    rw [Statistics.perSizeLoop, if_neg hs]
    congr 1
    funext fs
    simp

theorem ho_perSizePerm (h : HashOrder) {es es' : List (ℚ × List ℚ)} (hp : es.Perm es') : (es.map (·.1)).Nodup → ∀ m, Statistics.perSizeLoop h es m = Statistics.perSizeLoop h es' m := by
  induction hp with
  | nil => intro _ m; rfl
  | cons e _ ih =>
    intro hn m
    rw [List.map_cons, List.nodup_cons] at hn
    obtain ⟨o, ho⟩ := ho_perSizeStep h e
    rw [ho, ho, ih hn.2]
  | swap a b l =>
    intro hn m
    rw [List.map_cons, List.map_cons, List.nodup_cons, List.mem_cons, not_or] at hn
    obtain ⟨o, ho⟩ := ho_perSizeStep h a
    obtain ⟨o', ho'⟩ := ho_perSizeStep h b
    rw [ho, ho', ho', ho]
    congr 1
    funext fs
    by_cases ha : fs = a.1
    · have hb : fs ≠ b.1 := by
        intro hb
        exact hn.1.1 (hb.symm.trans ha)
      simp only [if_pos ha, if_neg hb]
    · by_cases hb : fs = b.1
      · simp only [if_pos hb, if_neg ha]
      · simp only [if_neg hb, if_neg ha]
  | trans p1 _ ih1 ih2 =>
    intro hn m
    rw [ih1 hn, ih2 ((p1.map _).nodup_iff.mp hn)]

theorem ho_lineStatistics {lib : LineLib} (hh : SameOnTies lib.hash h') (s : Statistics.Stats) (segs : List (List Statistics.BasedLine)) :
    Statistics.lineStatistics (lineOrder lib h' iter hp) s segs = Statistics.lineStatistics lib s segs := by
  have hn : ((segs.foldl (fun k seg => Statistics.lineLoop seg k) ({} : Statistics.LineCounts)).perSize.map (·.1)).Nodup := by
    have : ∀ (segs : List (List Statistics.BasedLine)) (k : Statistics.LineCounts), (k.perSize.map (·.1)).Nodup →
        ((segs.foldl (fun k seg => Statistics.lineLoop seg k) k).perSize.map (·.1)).Nodup := by
      intro segs
      induction segs with
      | nil => intro k h; exact h
      | cons a segs ih => intro k h; rw [List.foldl_cons]; exact ih _ (ho_lineLoop a k h)
    exact this segs {} (by simp)
  unfold Statistics.lineStatistics
  simp only
  rw [show (lineOrder lib h' iter hp).hash = h' from rfl, show (lineOrder lib h' iter hp).iter = iter from rfl]
  generalize segs.foldl (fun k seg => Statistics.lineLoop seg k) ({} : Statistics.LineCounts) = k at hn
  rw [← ho_or hh, ← ho_perSizeLoop hh]
  rw [ho_perSizePerm lib.hash (hp _ k.perSize) (((hp _ k.perSize).map _).nodup_iff.mpr hn), ho_perSizePerm lib.hash (lib.iterPerm _ k.perSize) (((lib.iterPerm _ k.perSize).map _).nodup_iff.mpr hn)]

/-! ## Runs -/

/-- Every stage but the detection of lines gives the same result. -/
theorem ho_stage (hh : SameOnTies lib.lines.hash h') (st : Stage) (hs : st ≠ .lines) (d : Document) : stage (withOrder lib h' iter hp) st d = stage lib st d := by
  cases st with
  | glyphStatistics =>
    show glyphStage _ d = glyphStage _ d
    unfold glyphStage
    rw [show (withOrder lib h' iter hp).lines.hash = h' from rfl, ← ho_glyphStatistics hh]
  | diacritics => rfl
  | words =>
    show wordsStage _ d = wordsStage _ d
    unfold wordsStage
    have : wordsPage (withOrder lib h' iter hp) = wordsPage lib := by
      funext p
      unfold wordsPage
      rw [show (withOrder lib h' iter hp).lines.hash = h' from rfl, ← ho_detectWords hh]
    rw [this]
  | wordStatistics =>
    show wordStatsStage _ d = wordStatsStage _ d
    unfold wordStatsStage
    rw [show (withOrder lib h' iter hp).lines.hash = h' from rfl, ← ho_wordStatistics hh]
  | segmentation => rfl
  | lines => exact absurd rfl hs
  | scripts => rfl
  | lineStatistics =>
    show lineStatsStage _ d = lineStatsStage _ d
    unfold lineStatsStage
    rw [show (withOrder lib h' iter hp).lines = lineOrder lib.lines h' iter hp from rfl, ho_lineStatistics hh]
  | blocks =>
    show blocksStage _ d = blocksStage _ d
    unfold blocksStage
    rw [show (withOrder lib h' iter hp).lines.hash = h' from rfl, ← ho_blocks hh]
    rfl
  | readingOrder => rfl
  | dehyphenation => rfl

theorem ho_linesStage (hh : SameOnTies lib.lines.hash h') (d : Document) : linesStage (withCounters lib h') d = linesStage lib d := by
  have h1 : ∀ acw r inner, linesOfRotation (withCounters lib h').lines acw r inner = linesOfRotation lib.lines acw r inner := by
    intro acw r inner
    rw [show (withCounters lib h').lines = lineOrder lib.lines h' lib.lines.iter lib.lines.iterPerm from rfl]
    unfold linesOfRotation
    rw [ho_createAll hh]
    congr 1
    funext ls
    rw [ho_mergeRounds hh acw _ _ rfl]
    rfl
  have h2 : ∀ acw cs, rotationGroups (withCounters lib h').lines acw cs = rotationGroups lib.lines acw cs := by
    intro acw cs
    induction cs with
    | nil => rfl
    | cons c cs ih => unfold rotationGroups; rw [h1, ih]
  have h3 : ∀ acw page k s, linesOfSegment (withCounters lib h') acw page k s = linesOfSegment lib acw page k s := by
    intro acw page k s
    unfold linesOfSegment TextLines.segmentLines
    rw [h2, show (withCounters lib h').lines.hash = h' from rfl, ← ho_computeTrimBox hh]
    rfl
  have h4 : ∀ acw page ss k, linesOfSegments (withCounters lib h') acw page k ss = linesOfSegments lib acw page k ss := by
    intro acw page ss
    induction ss with
    | nil => intro k; rfl
    | cons s ss ih => intro k; unfold linesOfSegments; simp only [h3, ih]
  have h5 : ∀ acw ps k, linesPages (withCounters lib h') acw k ps = linesPages lib acw k ps := by
    intro acw ps
    induction ps with
    | nil => intro k; rfl
    | cons p ps ih => intro k; unfold linesPages; simp only [h4, ih]
  unfold linesStage
  rw [h5]

/-- **C98.** If the values of no counter are tied, the order in which the entries of the counters come does not matter: two versions of the program that go through the entries of counters
in different orders, except for counters with a tie, have the same result, whatever the document, the stages and the outcome. -/
theorem c98_counters (hh : SameOnTies lib.lines.hash h') (le : Option ℤ) (parse : StageConfig → Bool → Document → Outcome Document) (dur : ℕ → ℕ) :
    env (withCounters lib h') le parse dur = env lib le parse dur := by
  unfold env
  congr 1
  funext st _ _ d
  by_cases hs : st = .lines
  · subst hs; exact ho_linesStage hh d
  · exact ho_stage hh st hs d

theorem ho_did {cfg : Config} {st : Stage} {d d' : Document} {lib' : Pipeline.Lib} (he : Enabled cfg st → stage lib' st d = stage lib st d) (hd : Did lib cfg st d d')
    (le : Option ℤ) (parse : StageConfig → Bool → Document → Outcome Document) (dur : ℕ → ℕ) : runAll (stageSteps (env lib' le parse dur) cfg st) d = .ok d' := by
  unfold Did at hd
  unfold stageSteps
  by_cases hE : Enabled cfg st
  · rw [if_pos hE] at hd ⊢
    obtain ⟨m, h1, h2⟩ := hd
    rw [pl_runAll_append]
    have : runAll [(env lib' le parse dur).stage st (cfg.stage st) cfg.roles] d = .ok m := by
      rw [runAll, show (env lib' le parse dur).stage st (cfg.stage st) cfg.roles d = stage lib' st d from rfl, he hE, h1]
      rfl
    rw [this, h2]
    by_cases hs : st = .lines
    · simp only [if_pos hs, Outcome.bind]; rfl
    · simp only [if_neg hs, Outcome.bind]; rfl
  · rw [if_neg hE] at hd ⊢
    rw [hd]
    rfl

variable {cfg : Config} {d0 d' : Document}

/-- The words of a page depend on its characters only. -/
theorem ho_samePage {R R' : Ran} {ls ls' : List TextLine} {p0 p q : Page} (h1 : PageInv lib n R ls p0 p) (h2 : PageInv lib n R' ls' p0 q) (hm : R.marks = R'.marks) (hw : R.words = R'.words) :
    p.words = q.words := by
  have hc : p.characters = q.characters := by
    have a := h1.chars
    have b := h2.chars
    rw [← hm] at b
    split at a
    · rename_i hR
      rw [if_pos hR] at b
      rw [a] at b
      exact Outcome.ok.inj b
    · rename_i hR
      rw [if_neg hR] at b
      rw [a, b]
  have a := h1.words
  have b := h2.words
  rw [← hw] at b
  split at a
  · rename_i hR
    rw [if_pos hR] at b
    obtain ⟨ws, x, a1, a2⟩ := a
    obtain ⟨ws', x', b1, b2⟩ := b
    rw [← hc, h2.num, ← h1.num, a1] at b1
    cases b1
    rw [a2, b2]
  · rename_i hR
    rw [if_neg hR] at b
    rw [a, b]

theorem ho_words (hn : n ≤ 3) (hl : LibOk lib) (hd0 : ParsedDoc n d0) {e : ℕ → Document} (he : TraceOf lib cfg d0 d' e) (hpages : ∀ p ∈ d'.pages, UntiedPage p) :
    ∀ p ∈ (e 5).pages, (∀ w ∈ p.words, GoodWord n w) ∧ UntiedPage p := by
  have hi := tr_inv hn hl hd0 he
  intro p hp'
  obtain ⟨k, hk⟩ := List.getElem?_of_mem hp'
  obtain ⟨p0, h0, i5⟩ := pl_forall₂_get hi.i5.pages.flip k p hk
  obtain ⟨q, hq, i10⟩ := pl_forall₂_get hi.i10.pages k p0 h0
  refine ⟨i5.good, ?_⟩
  have hw : p.words = q.words := ho_samePage i5 i10 rfl rfl
  have hmem : q ∈ (e 11).pages := by
    have hd := he.dehyphenation
    unfold Did at hd
    split at hd
    · obtain ⟨m, h1, h2⟩ := hd
      have h1 : dehyphenationStage (e 10) = .ok m := h1
      have h1 := wi_ok h1
      rw [if_neg (by decide)] at h2
      rw [h2, h1]
      exact List.mem_of_getElem? hq
    · rw [hd]; exact List.mem_of_getElem? hq
  have hmem' : { q with textLines := q.blocks.flatMap (·.block.lines) } ∈ d'.pages := by
    rw [he.result]
    exact List.mem_map.mpr ⟨q, hmem, rfl⟩
  have hr := hpages _ hmem'
  unfold UntiedPage withStacked at hr ⊢
  rw [hw]
  exact hr

/-- **C98.** On pages whose words are written in one direction and whose stacked formulas make no ties, the order of the entries of the other hash tables (those of the words by direction and height, and of the
counters by font size) does not matter either: the run with the other order has the same result. -/
theorem c98_tables (h : EndedRun lib n cfg d0 d') (hpages : ∀ p ∈ d'.pages, UntiedPage p) (hh : SameOnTies lib.lines.hash h') : RunOf (withOrder lib h' iter hp) cfg d0 d' := by
  obtain ⟨parse, dur, d, ts, ts', h1, h2⟩ := h.run
  obtain ⟨e, he⟩ := tr_trace h1 h2
  have hl : stage (withOrder lib h' iter hp) .lines (e 5) = stage lib .lines (e 5) := by
    show linesStage _ (e 5) = linesStage _ (e 5)
    unfold linesStage
    rw [ho_linesPages h.precision h.sorts.lines hh _ _ (ho_words h.precision h.sorts h.parsed he hpages)]
  have hrun : runAll (steps (env (withOrder lib h' iter hp) none parse dur) cfg) d = .ok d' := by
    rw [pl_steps, List.append_assoc, pl_runAll_append]
    have : runAll [(env (withOrder lib h' iter hp) none parse dur).parse cfg.parsing cfg.skipFontFiles] d = .ok d0 := by
      simp only [runAll, env]; rw [h1]
    rw [this]
    simp only [Outcome.bind]
    rw [pl_runAll_append]
    have key : ∀ (st : Stage) (a b : Document) (rest : List (Document → Outcome Document)), (st ≠ .lines ∨ a = e 5) → Did lib cfg st a b →
        runAll (stageSteps (env (withOrder lib h' iter hp) none parse dur) cfg st ++ rest) a = runAll rest b := by
      intro st a b rest hs hd
      rw [pl_runAll_append, ho_did (lib' := withOrder lib h' iter hp) (fun _ => ?_) hd]
      · rfl
      · by_cases hst : st = .lines
        · subst hst
          rw [hs.resolve_left (fun hc => hc rfl)]
          exact hl
        · exact ho_stage hh st hst a
    have hall : runAll ((stageTable.map (·.1)).flatMap (stageSteps (env (withOrder lib h' iter hp) none parse dur) cfg)) d0 = .ok (e 11) := by
      simp only [stageTable, List.map_cons, List.map_nil, List.flatMap_cons, List.flatMap_nil]
      rw [← he.start]
      rw [key _ _ _ _ (.inl (by decide)) he.glyphStatistics, key _ _ _ _ (.inl (by decide)) he.diacritics, key _ _ _ _ (.inl (by decide)) he.words,
        key _ _ _ _ (.inl (by decide)) he.wordStatistics, key _ _ _ _ (.inl (by decide)) he.segmentation, key _ _ _ _ (.inr rfl) he.lines, key _ _ _ _ (.inl (by decide)) he.scripts,
        key _ _ _ _ (.inl (by decide)) he.lineStatistics, key _ _ _ _ (.inl (by decide)) he.blocks, key _ _ _ _ (.inl (by decide)) he.readingOrder,
        key _ _ _ _ (.inl (by decide)) he.dehyphenation]
      rfl
    rw [hall, he.result]
    rfl
  obtain ⟨t, q, _⟩ := (c44_stages (env (withOrder lib h' iter hp) none parse dur) cfg d ts rfl).1 d' hrun
  exact ⟨parse, dur, d, ts, t, h1, q⟩

/-- **C98.** On pages with words of several directions, each segment has the same lines in the same order within each direction (if there are no ties): only the order of the directions may differ. -/
theorem c98_segments (h : EndedRun lib n cfg d0 d') (hh : SameOnTies lib.lines.hash h') (p : Page) (hp' : p ∈ d'.pages) (hu : UntiedDirections p) (acw : ℚ) (s : Segment) :
    ∃ gs gs', TextLines.segmentLines lib.lines acw p.words (s.words p.words) = .ok gs ∧ TextLines.segmentLines (withOrder lib h' iter hp).lines acw p.words (s.words p.words) = .ok gs' ∧
      gs.Perm gs' := by
  obtain ⟨e, he⟩ := h.trace
  have hi := tr_inv h.precision h.sorts h.parsed he
  refine ho_directions h.precision h.sorts.lines hh acw p _ ?_ hu (ho_segmentWords p.words s)
  rw [he.result] at hp'
  obtain ⟨q, hq, rfl⟩ := List.mem_map.mp hp'
  have hq : q ∈ (e 10).pages := by
    have hd := he.dehyphenation
    unfold Did at hd
    split at hd
    · obtain ⟨m, h1, h2⟩ := hd
      have h1 : dehyphenationStage (e 10) = .ok m := h1
      have h1 := wi_ok h1
      rw [if_neg (by decide)] at h2
      rw [h2, h1] at hq
      exact hq
    · rw [hd] at hq; exact hq
  obtain ⟨k, hk⟩ := List.getElem?_of_mem hq
  obtain ⟨p0, _, i10⟩ := pl_forall₂_get hi.i10.pages.flip k q hk
  exact i10.good

/-! ## Where the order does matter -/

/-- An order of the entries of the counters: the other way round. -/
def hoBackwards : HashOrder := ⟨fun _ l => l.reverse, fun _ l => l.reverse_perm⟩

/-- The result of the run of a program. -/
def hoResult (lib : Pipeline.Lib) (gs : List Glyph) : Option Document :=
  match Cli.process (env lib none (fun _ _ _ => .ok (lnDoc gs)) (fun _ => 0)) plConfig ⟨{}, none⟩ with
  | .ok (_, r) => some r.doc
  | _ => none

/-- A run of a program whose sort functions sort. -/
theorem ho_run {lib : Pipeline.Lib} (hl : LibOk lib) {gs : List Glyph} (h : ParsedDoc 1 (lnDoc gs)) (hok : (hoResult lib gs).isSome = true) :
    ∃ d', EndedRun lib 1 plConfig (lnDoc gs) d' ∧ hoResult lib gs = some d' := by
  cases hrun : Cli.process (env lib none (fun _ _ _ => .ok (lnDoc gs)) (fun _ => 0)) plConfig ⟨{}, none⟩ with
  | throw m => unfold hoResult at hok; rw [hrun] at hok; cases hok
  | ub m => unfold hoResult at hok; rw [hrun] at hok; cases hok
  | ok z =>
    obtain ⟨c, w, ts⟩ := z
    have hr : hoResult lib gs = some w := by unfold hoResult; rw [hrun]
    rcases pl_process (by decide) hl (fun _ _ _ => .ok (lnDoc gs)) (fun _ => 0) plConfig {} (lnDoc gs) none rfl h with
      ⟨d', ts', h', _⟩ | ⟨_, _, _, ⟨m, _, h'⟩ | ⟨m, _, h'⟩⟩
    · rw [h'] at hrun
      cases hrun
      exact ⟨_, ⟨by decide, hl, h, ⟨_, _, _, _, _, rfl, h'⟩⟩, hr⟩
    · rw [h'] at hrun; cases hrun
    · rw [h'] at hrun; cases hrun

theorem ho_libOk {lib : Pipeline.Lib} (hl : LibOk lib) : LibOk (withOrder lib h' iter hp) :=
  ⟨⟨hl.lines.1, hl.lines.2, hl.lines.3, hl.lines.4⟩, hl.2, hl.3, hl.4⟩

/-- A line of two words. -/
def hoLine (y : ℤ) : List Glyph :=
  [lnGlyph 0 10 y 15 (y + 10) 'a', lnGlyph 0 15 y 20 (y + 10) 'b', lnGlyph 0 30 y 35 (y + 10) 'c', lnGlyph 0 35 y 40 (y + 10) 'd']

/-- Three lines whose distances, 2 and 6, occur equally often. -/
def hoThree : List Glyph := hoLine 10 ++ hoLine 22 ++ hoLine 38

/-- An upright word, and a word that stands on its head at the same place. -/
def hoOver : List Glyph :=
  [lnGlyph 0 10 10 15 20 'a', lnGlyph 0 15 10 20 20 'b', lnGlyph 2 10 10 15 20 'c', lnGlyph 2 15 10 20 20 'd']

/-- The text that is printed, paragraph by paragraph. -/
def hoBlocks (d : Document) : List String := d.pages.flatMap fun p => p.blocks.map fun b => String.ofList b.block.text

theorem hoThree_glyphs : LnGlyphs hoThree := by
  show LnGlyphs (hoLine 10 ++ (hoLine 22 ++ hoLine 38))
  unfold hoLine
  repeat' first | exact lnGlyphs_nil | refine lnGlyphs_cons ?_ _ _ _ _ _ _ rfl

theorem hoOver_glyphs : LnGlyphs hoOver := by
  unfold hoOver
  repeat' first | exact lnGlyphs_nil | refine lnGlyphs_cons ?_ _ _ _ _ _ _ rfl

/-- **C98, false in general.** When two line distances occur equally often, the paragraphs depend on the order of the entries of the counter: the same three lines are two paragraphs, or one. -/
theorem c98_ties_refuted : ∃ d d', EndedRun refPipeline 1 plConfig (lnDoc hoThree) d ∧ EndedRun (withCounters refPipeline hoBackwards) 1 plConfig (lnDoc hoThree) d' ∧
    hoBlocks d = ["ab cd ab cd", "ab cd"] ∧ hoBlocks d' = ["ab cd ab cd ab cd"] := by
  obtain ⟨d, h, hr⟩ := ho_run refPipeline_ok (lnDoc_parsed hoThree_glyphs) (by decide +kernel)
  obtain ⟨d', h', hr'⟩ := ho_run (lib := withCounters refPipeline hoBackwards) (ho_libOk refPipeline_ok) (lnDoc_parsed hoThree_glyphs) (by decide +kernel)
  have e : (hoResult refPipeline hoThree).map hoBlocks = some ["ab cd ab cd", "ab cd"] := by decide +kernel
  have e' : (hoResult (withCounters refPipeline hoBackwards) hoThree).map hoBlocks = some ["ab cd ab cd ab cd"] := by decide +kernel
  rw [hr] at e
  rw [hr'] at e'
  exact ⟨d, d', h, h', Option.some.inj e, Option.some.inj e'⟩

/-- **C98, false in general.** With words of several directions, the order of the lines, and even that of the printed paragraphs, depends on the order of the table of the directions. -/
theorem c98_directions_refuted : ∃ d d', EndedRun refPipeline 1 plConfig (lnDoc hoOver) d ∧
    EndedRun (withOrder refPipeline refPipeline.lines.hash (fun _ l => l.reverse) (fun _ l => l.reverse_perm)) 1 plConfig (lnDoc hoOver) d' ∧
    hoBlocks d = ["ab", "cd"] ∧ hoBlocks d' = ["cd", "ab"] := by
  obtain ⟨d, h, hr⟩ := ho_run refPipeline_ok (lnDoc_parsed hoOver_glyphs) (by decide +kernel)
  obtain ⟨d', h', hr'⟩ := ho_run (lib := withOrder refPipeline refPipeline.lines.hash (fun _ l => l.reverse) (fun _ l => l.reverse_perm)) (ho_libOk refPipeline_ok) (lnDoc_parsed hoOver_glyphs)
    (by decide +kernel)
  have e : (hoResult refPipeline hoOver).map hoBlocks = some ["ab", "cd"] := by decide +kernel
  have e' : (hoResult (withOrder refPipeline refPipeline.lines.hash (fun _ l => l.reverse) (fun _ l => l.reverse_perm)) hoOver).map hoBlocks = some ["cd", "ab"] := by decide +kernel
  rw [hr] at e
  rw [hr'] at e'
  exact ⟨d, d', h, h', Option.some.inj e, Option.some.inj e'⟩

/-- An upright character of the given font size. -/
def hoGlyph (x1 y1 x2 y2 : ℤ) (t : Char) (fs : ℕ) : Glyph := { lnGlyph 0 x1 y1 x2 y2 t with fontSize := fs }

/-- Characters of a font size of at least one point, at whole coordinates on the page. -/
def HoGlyphs (gs : List Glyph) : Prop :=
  ∀ g ∈ gs, ∃ x1 y1 x2 y2 t fs, g = hoGlyph x1 y1 x2 y2 t fs ∧ 0 < x1 ∧ 0 < y1 ∧ 0 < x2 ∧ 0 < y2 ∧ x1 < 2000 ∧ y1 < 2000 ∧ x2 < 2000 ∧ y2 < 2000 ∧ 1 ≤ fs

theorem hoGlyphs_nil : HoGlyphs [] := by intro g hg; cases hg

theorem hoGlyphs_cons {gs : List Glyph} (h : HoGlyphs gs) (x1 y1 x2 y2 : ℤ) (t : Char) (fs : ℕ)
    (hb : (decide (0 < x1) && decide (0 < y1) && decide (0 < x2) && decide (0 < y2) && decide (x1 < 2000) && decide (y1 < 2000) && decide (x2 < 2000) && decide (y2 < 2000) && decide (1 ≤ fs)) = true) :
    HoGlyphs (hoGlyph x1 y1 x2 y2 t fs :: gs) := by
  intro g hg
  rcases List.mem_cons.mp hg with rfl | hg
  · simp only [Bool.and_eq_true, decide_eq_true_eq] at hb
    obtain ⟨⟨⟨⟨⟨⟨⟨⟨a, b⟩, c⟩, d⟩, e⟩, f⟩, g⟩, h⟩, i⟩ := hb
    exact ⟨x1, y1, x2, y2, t, fs, rfl, a, b, c, d, e, f, g, h, i⟩
  · exact h g hg

theorem hoDoc_parsed {gs : List Glyph} (h : HoGlyphs gs) : ParsedDoc 1 (lnDoc gs) := by
  have hb : ∀ z : ℤ, 0 < z → z < 2000 → OnPage (z : ℚ) := by
    intro z h1 h2
    have h1' : (1 : ℚ) ≤ z := by exact_mod_cast h1
    have h2' : (z : ℚ) ≤ 2000 := by exact_mod_cast h2.le
    constructor
    · refine le_trans ?_ h1'
      decide +kernel
    · refine le_trans h2' ?_
      decide +kernel
  refine ⟨?_, ?_, ?_, ?_, ?_, rfl, rfl⟩
  · intro p hp c hc
    rw [show (lnDoc gs).pages = [_] from rfl, List.mem_singleton] at hp
    subst hp
    obtain ⟨x1, y1, x2, y2, t, fs, rfl, h1, h2, h3, h4, h5, h6, h7, h8, h9⟩ := h c hc
    refine ⟨⟨⟨pl_int_rounded _, pl_int_rounded _, pl_int_rounded _, pl_int_rounded _⟩, hb _ h1 h5, hb _ h2 h6, hb _ h3 h7, hb _ h4 h8⟩, ?_⟩
    show dblMin + tol < (fs : ℚ)
    have h9' : (1 : ℚ) ≤ (fs : ℚ) := by exact_mod_cast h9
    refine lt_of_lt_of_le ?_ h9'
    decide +kernel
  all_goals
    intro p hp
    rw [show (lnDoc gs).pages = [_] from rfl, List.mem_singleton] at hp
    subst hp
    try rfl
  intro b hb
  simp at hb

/-- The words "ab" and "lim" in a line, with an "n" below "lim", and the word "cd" over the "n", with the same lower edge as the "n". -/
def hoLim : List Glyph :=
  [hoGlyph 50 10 55 20 'l' 10, hoGlyph 55 10 60 20 'i' 10, hoGlyph 60 10 65 20 'm' 10, hoGlyph 55 22 60 27 'n' 5, hoGlyph 10 10 15 20 'a' 10, hoGlyph 15 10 20 20 'b' 10,
   hoGlyph 55 15 60 27 'c' 10, hoGlyph 60 15 65 27 'd' 10]

/-- The same formula in a line, and another line. -/
def hoFormula : List Glyph :=
  [hoGlyph 10 10 15 20 'a' 10, hoGlyph 15 10 20 20 'b' 10, hoGlyph 50 10 55 20 'l' 10, hoGlyph 55 10 60 20 'i' 10, hoGlyph 60 10 65 20 'm' 10, hoGlyph 55 22 60 27 'n' 5,
   hoGlyph 10 32 15 42 'c' 10, hoGlyph 15 32 20 42 'd' 10]

theorem hoLim_glyphs : HoGlyphs hoLim := by
  unfold hoLim
  repeat' first | exact hoGlyphs_nil | refine hoGlyphs_cons ?_ _ _ _ _ _ _ rfl

theorem hoFormula_glyphs : HoGlyphs hoFormula := by
  unfold hoFormula
  repeat' first | exact hoGlyphs_nil | refine hoGlyphs_cons ?_ _ _ _ _ _ _ rfl

/-- **C98, false in general.** When a word of a stacked formula ends at the same height as a word of another line, the order of the printed words depends on the order of the table of the words. -/
theorem c98_formulas_refuted : ∃ d d', EndedRun refPipeline 1 plConfig (lnDoc hoLim) d ∧
    EndedRun (withOrder refPipeline refPipeline.lines.hash (fun _ l => l.reverse) (fun _ l => l.reverse_perm)) 1 plConfig (lnDoc hoLim) d' ∧
    hoBlocks d = ["ab lim n cd"] ∧ hoBlocks d' = ["ab lim cd n"] := by
  obtain ⟨d, h, hr⟩ := ho_run refPipeline_ok (hoDoc_parsed hoLim_glyphs) (by decide +kernel)
  obtain ⟨d', h', hr'⟩ := ho_run (lib := withOrder refPipeline refPipeline.lines.hash (fun _ l => l.reverse) (fun _ l => l.reverse_perm)) (ho_libOk refPipeline_ok) (hoDoc_parsed hoLim_glyphs)
    (by decide +kernel)
  have e : (hoResult refPipeline hoLim).map hoBlocks = some ["ab lim n cd"] := by decide +kernel
  have e' : (hoResult (withOrder refPipeline refPipeline.lines.hash (fun _ l => l.reverse) (fun _ l => l.reverse_perm)) hoLim).map hoBlocks = some ["ab lim cd n"] := by decide +kernel
  rw [hr] at e
  rw [hr'] at e'
  exact ⟨d, d', h, h', Option.some.inj e, Option.some.inj e'⟩

/-! ## Examples -/

open Classical in
/-- An order of the entries of the counters that differs from the other one whenever there is no tie. -/
noncomputable def hoUntied (h : HashOrder) : HashOrder where
  order κ l := if (∃ (_ : DecidableEq κ) (xs : List κ), Tied xs ∧ l = countAll xs) ∨ (∃ xs : List ℚ, Close xs ∧ κ = ℚ ∧ HEq l (countAll xs)) then h.order κ l else (h.order κ l).reverse
  perm κ l := by
    split
    · exact h.perm κ l
    · exact (List.reverse_perm _).trans (h.perm κ l)

theorem hoUntied_same (h : HashOrder) : SameOnTies h (hoUntied h) := by
  constructor
  · intro κ _ xs hx
    exact (if_pos (Or.inl ⟨inferInstance, xs, hx, rfl⟩)).symm
  · intro xs hx
    exact (if_pos (Or.inr ⟨xs, hx, rfl, HEq.rfl⟩)).symm

theorem ho_sample (inst : DecidableEq ℚ) (xs : List ℚ) (hx : ([(10, 2), (12, 1)] : Entries ℚ) = countAll xs) : (∀ x ∈ xs, x = 10 ∨ x = 12) ∧ xs.count 10 = 2 ∧ xs.count 12 = 1 := by
  have hk := (isCounterOf_countAll xs).2
  rw [← hx] at hk
  have h10 := (hk 10 2).mp (by simp)
  have h12 := (hk 12 1).mp (by simp)
  refine ⟨fun x hxs => ?_, h10.2.symm, h12.2.symm⟩
  have := (hk x (xs.count x)).mpr ⟨hxs, rfl⟩
  simp only [List.mem_cons, Prod.mk.injEq, List.not_mem_nil, or_false] at this
  rcases this with h | h
  · exact .inl h.1
  · exact .inr h.1

theorem ho_sample_untied (inst : DecidableEq ℚ) (xs : List ℚ) (hx : ([(10, 2), (12, 1)] : Entries ℚ) = countAll xs) : ¬ Tied xs := by
  obtain ⟨ha, h2, h1⟩ := ho_sample inst xs hx
  have key : ∀ x, IsMostFrequent xs x → x = 10 := by
    intro x h
    rcases ha x h.1 with e | e
    · exact e
    · have h10 : (10 : ℚ) ∈ xs := List.count_pos_iff.mp (by omega)
      have := h.2 10 h10
      have hocc : ∀ y, occurrences xs y = xs.count y := by
        intro y
        rw [occurrences, List.count_eq_length_filter]
        congr 1
      rw [hocc, hocc, e] at this
      omega
  rintro ⟨x, y, hx, hy, hne⟩
  exact hne ((key x hx).trans (key y hy).symm)

/-- It does differ: the entries of the counter of the numbers 10, 10, 12 come in another order. -/
theorem hoUntied_differs : (hoUntied idOrder).order ℚ (countAll [10, 10, 12]) = [(12, 1), (10, 2)] := by
  have hc : countAll ([10, 10, 12] : List ℚ) = [(10, 2), (12, 1)] := by decide +kernel
  rw [hc]
  unfold hoUntied
  simp only
  refine if_neg ?_
  rintro (⟨inst, xs, ht, he⟩ | ⟨xs, ⟨x, hx, y, hy, h1, h2⟩, _, he⟩)
  · exact ho_sample_untied inst xs he ht
  · obtain ⟨ha, _⟩ := ho_sample _ xs (eq_of_heq he)
    rcases ha x hx with rfl | rfl <;> rcases ha y hy with rfl | rfl
    · exact lt_irrefl _ h1
    · exact absurd h2 (by decide +kernel)
    · exact absurd h1 (by decide +kernel)
    · exact lt_irrefl _ h1

/-- The premises of C98 are met, also by a page with a stacked formula. -/
theorem c98_premises : SameOnTies refPipeline.lines.hash (hoUntied refPipeline.lines.hash) ∧ ∃ d', EndedRun refPipeline 1 plConfig (lnDoc hoFormula) d' ∧
    (∀ p ∈ d'.pages, UntiedPage p ∧ ∃ w ∈ p.words, w.parts ≠ []) ∧ lnTexts d' = (["ab lim n", "cd"], ["ab lim n cd"]) := by
  refine ⟨hoUntied_same _, ?_⟩
  obtain ⟨d, h, hr⟩ := ho_run refPipeline_ok (hoDoc_parsed hoFormula_glyphs) (by decide +kernel)
  refine ⟨d, h, ?_, ?_⟩
  · have e : ((hoResult refPipeline hoFormula).map fun d => d.pages.all fun p =>
        (p.words.all fun w => decide (w.pos.rotation = 0) && decide (w.pos.leftX ≤ w.pos.rightX) && decide (w.pos.upperY ≤ w.pos.lowerY)) &&
        (p.words.any fun w => decide (w.parts ≠ [])) &&
        (p.words.all fun a => p.words.all fun b => decide (a.partOf ≠ none) || decide (b.partOf ≠ none) || decide (a.pos.getRotLowerY = b.pos.getRotLowerY) ||
          ((withStacked p a).all fun x => (withStacked p b).all fun y => decide (x.pos.getRotLowerY ≠ y.pos.getRotLowerY)))) = some true := by decide +kernel
    rw [hr] at e
    have e := Option.some.inj e
    intro p hp
    have e := List.all_eq_true.mp e p hp
    rw [Bool.and_eq_true, Bool.and_eq_true] at e
    obtain ⟨⟨e1, e2⟩, e3⟩ := e
    simp only [List.all_eq_true, List.any_eq_true, Bool.and_eq_true, Bool.or_eq_true, decide_eq_true_eq] at e1 e2 e3
    refine ⟨⟨⟨0, fun w hw => ⟨(e1 w hw).1.1, (e1 w hw).1.2, (e1 w hw).2⟩⟩, ?_⟩, e2⟩
    intro a ha b hb h1 h2 h3 x hx y hy
    rcases e3 a ha b hb with ((hc | hc) | hc) | hc
    · exact absurd h1 hc
    · exact absurd h2 hc
    · exact absurd hc h3
    · exact hc x hx y hy
  · have e : (hoResult refPipeline hoFormula).map lnTexts = some (["ab lim n", "cd"], ["ab lim n cd"]) := by decide +kernel
    rw [hr] at e
    exact Option.some.inj e

/-- The premises of `c98_segments` are met by a page with words of two directions. -/
theorem c98_segments_premises : ∃ d', EndedRun refPipeline 1 plConfig (lnDoc hoOver) d' ∧ ∀ p ∈ d'.pages, UntiedDirections p ∧ (p.words.map (·.pos.rotation)) = [0, 2] := by
  obtain ⟨d, h, hr⟩ := ho_run refPipeline_ok (lnDoc_parsed hoOver_glyphs) (by decide +kernel)
  refine ⟨d, h, ?_⟩
  have e : ((hoResult refPipeline hoOver).map fun d => d.pages.all fun p =>
      (p.words.all fun w => decide (w.pos.leftX ≤ w.pos.rightX) && decide (w.pos.upperY ≤ w.pos.lowerY)) && decide ((p.words.map (·.pos.rotation)) = [0, 2]) &&
      (p.words.all fun a => (withStacked p a).all fun x => decide (x.pos.rotation = a.pos.rotation)) &&
      (p.words.all fun a => p.words.all fun b => decide (a.partOf ≠ none) || decide (b.partOf ≠ none) || decide (a.pos.rotation ≠ b.pos.rotation) ||
        decide (a.pos.getRotLowerY = b.pos.getRotLowerY) ||
        ((withStacked p a).all fun x => (withStacked p b).all fun y => decide (x.pos.getRotLowerY ≠ y.pos.getRotLowerY)))) = some true := by decide +kernel
  rw [hr] at e
  have e := Option.some.inj e
  intro p hp
  have e := List.all_eq_true.mp e p hp
  rw [Bool.and_eq_true, Bool.and_eq_true, Bool.and_eq_true] at e
  obtain ⟨⟨⟨e1, e2⟩, e3⟩, e4⟩ := e
  simp only [List.all_eq_true, Bool.and_eq_true, Bool.or_eq_true, decide_eq_true_eq] at e1 e2 e3 e4
  refine ⟨⟨fun w hw => e1 w hw, fun a ha x hx => e3 a ha x hx, ?_⟩, e2⟩
  intro a ha b hb h1 h2 h3 h4 x hx y hy
  rcases e4 a ha b hb with (((hc | hc) | hc) | hc) | hc
  · exact absurd h1 hc
  · exact absurd h2 hc
  · exact absurd h3 hc
  · exact absurd hc h4
  · exact hc x hx y hy

end Verif.Props

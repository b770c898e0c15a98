import Verif.Model.Words
import Verif.Lemmas.Grouping
import Verif.Spec.Frequency
import Verif.Lemmas.Hull
import Verif.Props.Geometry
import Verif.Props.Containers

/-!
# Word detection: C22, C23, C24, C25
-/

namespace Verif.Props

open Verif.Math Verif.Elements Verif.Spec Verif.Words Verif.Counter

/-! ## createWord -/

/-- The guarded search for the most frequent value never throws; its result is a most frequent
value (for fewer than 2^32 values). -/
theorem mostFreqOr_spec {κ : Type} [DecidableEq κ] (h : HashOrder) (zero dflt : κ) (xs : List κ) :
    ∃ k, mostFreqOr h zero dflt xs = .ok k ∧
      (xs ≠ [] → xs.length < 2 ^ 32 → IsMostFrequent xs k) := by
  have hocc : ∀ y, occurrences xs y = xs.count y := by
    intro y
    rw [occurrences, List.count_eq_length_filter]
    rfl
  have hp := h.perm κ (countAll xs)
  obtain ⟨h1, h2⟩ := c07_most_frequent_element zero xs _ hp
  have h3 := c07_sumCounts xs _ hp
  have hmf : xs ≠ [] → ∃ k c, mostFreqAndCount zero (h.order κ (countAll xs)) = .ok (k, c) := by
    intro hne
    cases hm : mostFreqAndCount zero (h.order κ (countAll xs)) with
    | ok p => exact ⟨p.1, p.2, rfl⟩
    | throw m => exact absurd (h1.mp (by rw [hm]; rfl)) hne
    | ub m =>
      unfold mostFreqAndCount at hm
      simp only at hm
      split at hm <;> cases hm
  unfold mostFreqOr
  simp only
  rw [h3]
  split
  · next hpos =>
    have hne : xs ≠ [] := by rintro rfl; simp at hpos
    obtain ⟨k, c, hkc⟩ := hmf hne
    refine ⟨k, (c07_components _ _ _ _ hkc).1, fun _ _ => ?_⟩
    obtain ⟨g1, _, g3⟩ := h2 k c hkc
    exact ⟨g1, by simpa [hocc] using g3⟩
  · next hz =>
    refine ⟨dflt, rfl, fun hne hlt => ?_⟩
    rw [Nat.mod_eq_of_lt hlt] at hz
    exact absurd (List.length_pos_iff.mpr hne) hz

/-- What `createWord` returns for a non-empty list. -/
theorem createWord_ok (h : HashOrder) (cs : List Glyph) (hne : cs ≠ []) :
    ∃ w, createWord h cs = .ok w ∧ w.chars = cs ∧ w.text = (cs.map glyphText).flatten ∧
      (∀ f, cs.head? = some f → w.pos =
        { Box.extendAll { pageNum := f.pos.pageNum } (cs.map (·.pos)) with
          wMode := f.pos.wMode, rotation := f.pos.rotation }) ∧
      (cs.length < 2 ^ 32 →
        IsMostFrequent (cs.map (·.fontName)) w.fontName ∧
        IsMostFrequent (cs.map (·.fontSize)) w.fontSize) ∧
      w.partOf = none ∧ w.parts = [] := by
  cases cs with
  | nil => exact absurd rfl hne
  | cons f cs =>
    obtain ⟨n, hn, hn'⟩ := mostFreqOr_spec h ([] : Verif.Text.Str) [] ((f :: cs).map (·.fontName))
    obtain ⟨s, hs, hs'⟩ := mostFreqOr_spec h (0 : ℚ) (-1) ((f :: cs).map (·.fontSize))
    unfold createWord
    simp only
    rw [hn, hs]
    refine ⟨_, rfl, rfl, rfl, ?_, ?_, rfl, rfl⟩
    · intro g hg
      simp only [List.head?_cons, Option.some.injEq] at hg
      subst hg; rfl
    · intro hlt
      exact ⟨hn' (by simp) (by simpa using hlt), hs' (by simp) (by simpa using hlt)⟩

/-! ## The active word -/

/-- The active word after the given characters. -/
def activeOf (pn : ℤ) (cs : List Glyph) : Active := cs.foldl Active.push (Active.reset pn)

theorem activeOf_append (pn : ℤ) (cs : List Glyph) (c : Glyph) :
    activeOf pn (cs ++ [c]) = (activeOf pn cs).push c := by
  simp [activeOf]

theorem activeOf_chars (pn : ℤ) (cs : List Glyph) : (activeOf pn cs).chars = cs := by
  induction cs using List.reverseRecOn with
  | nil => rfl
  | append_singleton cs c ih => rw [activeOf_append]; simp [Active.push, ih]

theorem activeOf_pageNum (pn : ℤ) (cs : List Glyph) : (activeOf pn cs).pos.pageNum = pn := by
  induction cs using List.reverseRecOn with
  | nil => rfl
  | append_singleton cs c ih => rw [activeOf_append]; simp [Active.push, Box.extend, ih]

theorem activeOf_rot (pn : ℤ) (cs : List Glyph) (c : Glyph) :
    (activeOf pn (cs ++ [c])).pos.rotation = c.pos.rotation ∧
    (activeOf pn (cs ++ [c])).pos.wMode = c.pos.wMode := by
  rw [activeOf_append]; exact ⟨rfl, rfl⟩

theorem activeOf_box (pn : ℤ) (cs : List Glyph) :
    (activeOf pn cs).pos.leftX = (Box.extendAll {} (cs.map (·.pos))).leftX ∧
    (activeOf pn cs).pos.upperY = (Box.extendAll {} (cs.map (·.pos))).upperY ∧
    (activeOf pn cs).pos.rightX = (Box.extendAll {} (cs.map (·.pos))).rightX ∧
    (activeOf pn cs).pos.lowerY = (Box.extendAll {} (cs.map (·.pos))).lowerY := by
  induction cs using List.reverseRecOn with
  | nil => exact ⟨rfl, rfl, rfl, rfl⟩
  | append_singleton cs c ih =>
    obtain ⟨h1, h2, h3, h4⟩ := ih
    rw [activeOf_append]
    simp only [Box.extendAll] at h1 h2 h3 h4
    simp [Active.push, Box.extend, Box.extendAll, h1, h2, h3, h4]

theorem activeOf_fontSize (pn : ℤ) (cs : List Glyph) :
    (activeOf pn cs).fontSize = cs.foldl (fun a c => max a c.fontSize) 0 := by
  induction cs using List.reverseRecOn with
  | nil => rfl
  | append_singleton cs c ih =>
    rw [activeOf_append]
    simp [Active.push, maximum_eq_max, ih]

/-- The words are made of these characters, one after the other. -/
def WordsOf (h : HashOrder) (ws : List Word) : Prop :=
  ∀ (i : ℕ) (w : Word), ws[i]? = some w → w.rank = i ∧ ∃ w', createWord h w.chars = .ok w' ∧ w = { w' with rank := i }

theorem emitWord_ok (h : HashOrder) (ws : List Word) (a : Active) (hne : a.chars ≠ [])
    (hws : WordsOf h ws) :
    ∃ w, emitWord h ws a = .ok (ws ++ [w]) ∧ w.chars = a.chars ∧ WordsOf h (ws ++ [w]) := by
  obtain ⟨w, h1, h2, _⟩ := createWord_ok h a.chars hne
  refine ⟨{ w with rank := ws.length }, ?_, h2, ?_⟩
  · unfold emitWord; rw [h1]; rfl
  · intro i w' hi
    rcases Nat.lt_trichotomy i ws.length with hlt | heq | hgt
    · rw [List.getElem?_append_left hlt] at hi
      exact hws i w' hi
    · subst heq
      simp only [List.getElem?_append_right (le_refl _), Nat.sub_self, List.getElem?_cons_zero,
        Option.some.injEq] at hi
      subst hi
      exact ⟨rfl, w, by simp only; rw [h2]; exact h1, rfl⟩
    · rw [List.getElem?_eq_none (by simp; omega)] at hi
      cases hi

/-- The loop, started with a partial result. -/
theorem charLoop_spec (h : HashOrder) (pn : ℤ) (cs : List Glyph) : ∀ (ws : List Word) (done : List Glyph)
    (cur : List Glyph), WordsOf h ws →
      (cur = [] → ws = [] ∧ done = []) →
      (cur ≠ [] → IsGreedy (fun pre c => startsWord (activeOf pn pre) c = false) done
        (ws.map (·.chars) ++ [cur])) →
      ∃ ws' cur', charLoop h (ws, activeOf pn cur) cs = .ok (ws', activeOf pn cur') ∧ WordsOf h ws' ∧
        (cur' = [] → ws' = [] ∧ done ++ cs.filter (·.markOf.isNone) = []) ∧
        (cur' ≠ [] → IsGreedy (fun pre c => startsWord (activeOf pn pre) c = false)
          (done ++ cs.filter (·.markOf.isNone)) (ws'.map (·.chars) ++ [cur'])) := by
  induction cs with
  | nil =>
    intro ws done cur hws h0 h1
    exact ⟨ws, cur, rfl, hws, by simpa using h0, by simpa using h1⟩
  | cons c cs ih =>
    intro ws done cur hws h0 h1
    rw [charLoop]
    unfold stepChar
    cases hm : c.markOf with
    | some b =>
      simp only [Option.isSome_some, if_true, Outcome.bind]
      obtain ⟨ws', cur', g⟩ := ih ws done cur hws h0 h1
      refine ⟨ws', cur', ?_⟩
      simpa [hm] using g
    | none =>
      simp only [Option.isSome_none, Bool.false_eq_true, if_false, activeOf_chars]
      have happ : done ++ (c :: cs).filter (·.markOf.isNone)
          = (done ++ [c]) ++ cs.filter (·.markOf.isNone) := by simp [hm]
      rw [happ]
      by_cases hcur : cur = []
      · obtain ⟨rfl, rfl⟩ := h0 hcur
        subst hcur
        simp only [List.isEmpty_nil, Bool.not_true, Bool.and_false, Bool.false_eq_true, if_false,
          Outcome.bind]
        rw [← activeOf_append]
        refine ih [] [c] [c] hws (by simp) (fun _ => ?_)
        exact isGreedy_singleton c
      · have hemp : cur.isEmpty = false := by
          cases cur with
          | nil => exact absurd rfl hcur
          | cons _ _ => rfl
        rw [hemp]
        simp only [Bool.not_false, Bool.and_true]
        cases hst : startsWord (activeOf pn cur) c with
        | true =>
          simp only [if_true]
          obtain ⟨w, hw1, hw2, hw3⟩ := emitWord_ok h ws (activeOf pn cur)
            (by rw [activeOf_chars]; exact hcur) hws
          rw [hw1]
          simp only [Outcome.bind]
          rw [activeOf_pageNum]
          have hact : (Active.reset pn).push c = activeOf pn [c] := rfl
          rw [hact]
          refine ih (ws ++ [w]) (done ++ [c]) [c] hw3 (by simp) (fun _ => ?_)
          have := (h1 hcur).start (c := c) (by rw [hst]; simp)
          simpa [hw2, activeOf_chars] using this
        | false =>
          simp only [Bool.false_eq_true, if_false, Outcome.bind]
          rw [← activeOf_append]
          refine ih ws (done ++ [c]) (cur ++ [c]) hws (by simp) (fun _ => ?_)
          exact (h1 hcur).extend hst

/-- Everything about the words of a page in terms of the model. -/
theorem detectWords_spec (h : HashOrder) (a : Active) (pn : ℤ) (cs : List Glyph) :
    ∃ ws a', detectWords h a pn cs = .ok (ws, a') ∧ WordsOf h ws ∧
      IsGreedy (fun pre c => startsWord (activeOf pn pre) c = false)
        (cs.filter (·.markOf.isNone)) (ws.map (·.chars)) := by
  unfold detectWords
  have hreset : Active.reset pn = activeOf pn [] := rfl
  simp only
  split
  · next hemp =>
    have : cs = [] := by simpa using hemp
    subst this
    exact ⟨[], _, rfl, by intro i w hi; simp at hi, by simpa using isGreedy_nil⟩
  · rw [hreset]
    obtain ⟨ws', cur', g1, g2, g3, g4⟩ := charLoop_spec h pn cs [] [] []
      (by intro i w hi; simp at hi) (by simp) (by simp)
    rw [g1]
    simp only [Outcome.bind, activeOf_chars, List.nil_append] at g3 g4 ⊢
    by_cases hcur : cur' = []
    · obtain ⟨rfl, h2⟩ := g3 hcur
      subst hcur
      exact ⟨[], activeOf pn [], rfl, g2, by rw [h2]; simpa using isGreedy_nil⟩
    · obtain ⟨w, hw1, hw2, hw3⟩ := emitWord_ok h ws' (activeOf pn cur')
        (by rw [activeOf_chars]; exact hcur) g2
      have hemp : cur'.isEmpty = false := by
        cases cur' with
        | nil => exact absurd rfl hcur
        | cons _ _ => rfl
      rw [hemp, hw1]
      refine ⟨ws' ++ [w], activeOf pn cur', rfl, hw3, ?_⟩
      simpa [hw2, activeOf_chars] using g4 hcur

/-! ## C22 -/

/-- C22: word detection never fails; the characters of the words, one after the other, are the
characters of the page without the merged diacritical marks (so each lies in exactly one word and
the order is kept); no word is empty; the words are numbered 0, 1, 2, ... -/
theorem c22_words_partition (h : HashOrder) (a : Active) (pn : ℤ) (cs : List Glyph) :
    ∃ ws a', detectWords h a pn cs = .ok (ws, a') ∧
      (ws.map (·.chars)).flatten = cs.filter (fun c => c.markOf.isNone) ∧
      (∀ w ∈ ws, w.chars ≠ []) ∧
      (∀ (i : ℕ) (w : Word), ws[i]? = some w → w.rank = i) := by
  obtain ⟨ws, a', h1, h2, h3⟩ := detectWords_spec h a pn cs
  refine ⟨ws, a', h1, h3.flatten, ?_, fun i w hi => (h2 i w hi).1⟩
  intro w hw
  exact h3.nonempty _ (List.mem_map.mpr ⟨w, hw, rfl⟩)

/-- C22: the words of a page do not depend on the pages before (the state left behind in the
detector). -/
theorem c22_pages_independent (h : HashOrder) (a a' : Active) (pn : ℤ) (cs : List Glyph) :
    detectWords h a pn cs = detectWords h a' pn cs := rfl

/-! ## C23 -/

theorem startsWord_false_rot {pn : ℤ} {pre : List Glyph} {p c : Glyph}
    (h : startsWord (activeOf pn (pre ++ [p])) c = false) :
    p.pos.rotation = c.pos.rotation ∧ p.pos.wMode = c.pos.wMode := by
  obtain ⟨h1, h2⟩ := activeOf_rot pn pre p
  unfold startsWord at h
  rw [activeOf_chars, h1, h2] at h
  have hemp : (pre ++ [p]).isEmpty = false := by simp
  rw [hemp] at h
  constructor
  · by_contra hne; simp [hne] at h
  · by_contra hne
    simp [hne] at h

/-- A group in which every element fits to the elements before it is homogeneous. -/
theorem group_homogeneous {pn : ℤ} {g : List Glyph}
    (h : ∀ pre c post, g = pre ++ c :: post → pre ≠ [] → startsWord (activeOf pn pre) c = false) :
    ∀ x ∈ g, ∀ y ∈ g, x.pos.rotation = y.pos.rotation ∧ x.pos.wMode = y.pos.wMode := by
  induction g using List.reverseRecOn with
  | nil => simp
  | append_singleton g z ih =>
    have ih' := ih (fun pre c post he hne => h pre c (post ++ [z]) (by rw [he]; simp) hne)
    have hz : ∀ x ∈ g, x.pos.rotation = z.pos.rotation ∧ x.pos.wMode = z.pos.wMode := by
      intro x hx
      rcases List.eq_nil_or_concat' g with rfl | ⟨g', p, rfl⟩
      · simp at hx
      · have := startsWord_false_rot (h (g' ++ [p]) z [] rfl (by simp))
        have hxp := ih' x hx p (by simp)
        exact ⟨hxp.1.trans this.1, hxp.2.trans this.2⟩
    intro x hx y hy
    rcases List.mem_append.mp hx with hx' | hx' <;> rcases List.mem_append.mp hy with hy' | hy'
    · exact ih' x hx' y hy'
    · rw [List.mem_singleton.mp hy']; exact hz x hx'
    · rw [List.mem_singleton.mp hx']
      exact ⟨(hz y hy').1.symm, (hz y hy').2.symm⟩
    · rw [List.mem_singleton.mp hx', List.mem_singleton.mp hy']; exact ⟨rfl, rfl⟩

/-- C23: all characters of a word have the same rotation and writing mode. -/
theorem c23_homogeneous (h : HashOrder) (a a' : Active) (pn : ℤ) (cs : List Glyph) (ws : List Word)
    (hd : detectWords h a pn cs = .ok (ws, a')) :
    ∀ w ∈ ws, ∀ x ∈ w.chars, ∀ y ∈ w.chars,
      x.pos.rotation = y.pos.rotation ∧ x.pos.wMode = y.pos.wMode := by
  obtain ⟨ws', a'', h1, _, h3⟩ := detectWords_spec h a pn cs
  rw [hd] at h1
  obtain ⟨rfl, rfl⟩ : ws = ws' ∧ a' = a'' := by simpa using h1
  intro w hw
  exact group_homogeneous (h3.inside w.chars (List.mem_map.mpr ⟨w, hw, rfl⟩))

/-- The specification of "the character `c` continues the word made of the characters `pre`": same
rotation and writing mode, the vertical overlap of `c` and the word is at least half of the
smaller height (up to the tolerance), and `c` starts (ends) at most 0.15 times the largest font
size right (left) of the word. -/
def ContinuesWord (pre : List Glyph) (c : Glyph) : Prop :=
  (∀ p ∈ pre, p.pos.rotation = c.pos.rotation ∧ p.pos.wMode = c.pos.wMode) ∧
  ∃ (b : Box) (fs : ℚ), IsHull (pre.map (·.pos)) b ∧ IsGreatestOf pre (·.fontSize) fs ∧
    1 / 2 - tol ≤ max
      (interLen c.pos.upperY c.pos.lowerY b.upperY b.lowerY / (c.pos.lowerY - c.pos.upperY))
      (interLen c.pos.upperY c.pos.lowerY b.upperY b.lowerY / (b.lowerY - b.upperY)) ∧
    c.pos.leftX - b.rightX ≤ 15 / 100 * fs + tol ∧
    b.leftX - c.pos.rightX ≤ 15 / 100 * fs + tol

/-- An ordinary character: positive coordinates, left before right, upper before lower, not rotated
by 180 or 270 degrees, and with a non-negative font size. -/
structure OrdinaryGlyph (c : Glyph) : Prop where
  positive : PositiveBox c.pos
  wide : c.pos.leftX ≤ c.pos.rightX
  tall : c.pos.upperY ≤ c.pos.lowerY
  upright : Upright c.pos
  font : 0 ≤ c.fontSize

theorem IsLeastOf.unique' {α : Type} {l : List α} {f : α → ℚ} {v w : ℚ} (h : IsLeastOf l f v)
    (h' : IsLeastOf l f w) : v = w := by
  obtain ⟨⟨e, he, hv⟩, h2⟩ := h
  obtain ⟨⟨e', he', hw⟩, h2'⟩ := h'
  have := h2 e' he'; have := h2' e he
  linarith

theorem IsGreatestOf.unique' {α : Type} {l : List α} {f : α → ℚ} {v w : ℚ} (h : IsGreatestOf l f v)
    (h' : IsGreatestOf l f w) : v = w := by
  obtain ⟨⟨e, he, hv⟩, h2⟩ := h
  obtain ⟨⟨e', he', hw⟩, h2'⟩ := h'
  have := h2 e' he'; have := h2' e he
  linarith

theorem startsWord_iff (pn : ℤ) (pre : List Glyph) (c : Glyph) (hne : pre ≠ [])
    (hpre : ∀ p ∈ pre, OrdinaryGlyph p) (hc : OrdinaryGlyph c)
    (hhom : ∀ x ∈ pre, ∀ y ∈ pre, x.pos.rotation = y.pos.rotation ∧ x.pos.wMode = y.pos.wMode) :
    startsWord (activeOf pn pre) c = false ↔ ContinuesWord pre c := by
  obtain ⟨hb1, hb2, hb3, hb4⟩ := activeOf_box pn pre
  have hfs := activeOf_fontSize pn pre
  have hchars := activeOf_chars pn pre
  have hull : IsHull (pre.map (·.pos)) (activeOf pn pre).pos := by
    have := extendAll_isHull (b := {}) (es := pre.map (·.pos)) (by simpa using hne) rfl rfl rfl rfl
      (by intro e he; obtain ⟨p, hp, rfl⟩ := List.mem_map.mp he; exact (hpre p hp).positive)
    exact ⟨hb1 ▸ this.left, hb2 ▸ this.upper, hb3 ▸ this.right, hb4 ▸ this.lower⟩
  have hgreat : IsGreatestOf pre (·.fontSize) (activeOf pn pre).fontSize := by
    rw [hfs]; exact isGreatestOf_foldl _ hne fun e he => (hpre e he).font
  obtain ⟨pre', p, rfl⟩ : ∃ pre' p, pre = pre' ++ [p] := by
    rcases List.eq_nil_or_concat' pre with rfl | ⟨a, b, rfl⟩
    · exact absurd rfl hne
    · exact ⟨a, b, rfl⟩
  have hp := hpre p (by simp)
  obtain ⟨hr1, hr2⟩ := activeOf_rot pn pre' p
  set A := (activeOf pn (pre' ++ [p])) with hA
  have hwide : A.pos.leftX ≤ A.pos.rightX := by
    have h1 := hull.left.2 p.pos (by simp)
    have h2 := hull.right.2 p.pos (by simp)
    have := hp.wide; linarith
  have htall : A.pos.upperY ≤ A.pos.lowerY := by
    have h1 := hull.upper.2 p.pos (by simp)
    have h2 := hull.lower.2 p.pos (by simp)
    have := hp.tall; linarith
  have hfs0 : 0 ≤ A.fontSize := le_trans hp.font (hgreat.2 p (by simp))
  have hup : Upright A.pos := by
    have := hp.upright; unfold Upright at this ⊢; rw [hr1]; exact this
  have htol := tol_pos
  have hov : computeMaxYOverlapRatio c.pos A.pos = max
      (interLen c.pos.upperY c.pos.lowerY A.pos.upperY A.pos.lowerY / (c.pos.lowerY - c.pos.upperY))
      (interLen c.pos.upperY c.pos.lowerY A.pos.upperY A.pos.lowerY / (A.pos.lowerY - A.pos.upperY)) := by
    unfold computeMaxYOverlapRatio computeYOverlapRatios
    rw [c04_value]
    simp only [maximum_eq_max, min_eq_left hc.tall, max_eq_right hc.tall, min_eq_left htall,
      max_eq_right htall, abs_of_nonneg (sub_nonneg.mpr hc.tall), abs_of_nonneg (sub_nonneg.mpr htall)]
  -- the two gap conditions
  have hgap : (larger (computeHorizontalGap c.pos A.pos) (horizontalGapThreshold A) tol = false ∧
      larger (computeHorizontalGap A.pos c.pos) (horizontalGapThreshold A) tol = false) ↔
      (c.pos.leftX - A.pos.rightX ≤ 15 / 100 * A.fontSize + tol ∧
        A.pos.leftX - c.pos.rightX ≤ 15 / 100 * A.fontSize + tol) := by
    have e1 : computeHorizontalGap c.pos A.pos =
        if c.pos.leftX < A.pos.leftX - tol then A.pos.leftX - c.pos.rightX
        else c.pos.leftX - A.pos.rightX := by
      unfold computeHorizontalGap
      by_cases hs : c.pos.leftX < A.pos.leftX - tol
      · rw [if_pos (smaller_iff.mpr hs), if_pos hs]
        simp only
        rw [if_neg (by rintro (g | g); exacts [hc.upright.1 g, hc.upright.2 g])]
      · rw [if_neg (by rw [smaller_iff]; exact hs), if_neg hs]
        simp only
        rw [if_neg (by rintro (g | g); exacts [hup.1 g, hup.2 g])]
    have e2 : computeHorizontalGap A.pos c.pos =
        if A.pos.leftX < c.pos.leftX - tol then c.pos.leftX - A.pos.rightX
        else A.pos.leftX - c.pos.rightX := by
      unfold computeHorizontalGap
      by_cases hs : A.pos.leftX < c.pos.leftX - tol
      · rw [if_pos (smaller_iff.mpr hs), if_pos hs]
        simp only
        rw [if_neg (by rintro (g | g); exacts [hup.1 g, hup.2 g])]
      · rw [if_neg (by rw [smaller_iff]; exact hs), if_neg hs]
        simp only
        rw [if_neg (by rintro (g | g); exacts [hc.upright.1 g, hc.upright.2 g])]
    rw [larger_false, larger_false, e1, e2]
    unfold horizontalGapThreshold
    have hcw := hc.wide
    by_cases h1 : c.pos.leftX < A.pos.leftX - tol
    · have h2 : ¬ A.pos.leftX < c.pos.leftX - tol := by intro h; linarith
      rw [if_pos h1, if_neg h2]
      constructor
      · rintro ⟨g, _⟩; exact ⟨by linarith, g⟩
      · rintro ⟨_, g⟩; exact ⟨g, g⟩
    · rw [if_neg h1]
      by_cases h2 : A.pos.leftX < c.pos.leftX - tol
      · rw [if_pos h2]
        constructor
        · rintro ⟨g, _⟩; exact ⟨g, by linarith⟩
        · rintro ⟨g, _⟩; exact ⟨g, g⟩
      · rw [if_neg h2]
  have hemp : (pre' ++ [p]).isEmpty = false := by simp
  have hstart : startsWord A c = false ↔
      (p.pos.rotation = c.pos.rotation ∧ p.pos.wMode = c.pos.wMode ∧
        smaller (computeMaxYOverlapRatio c.pos A.pos) minYOverlapRatio tol = false ∧
        larger (computeHorizontalGap c.pos A.pos) (horizontalGapThreshold A) tol = false ∧
        larger (computeHorizontalGap A.pos c.pos) (horizontalGapThreshold A) tol = false) := by
    unfold startsWord
    rw [hchars, hr1, hr2, hemp]
    by_cases g1 : p.pos.rotation = c.pos.rotation
    · by_cases g2 : p.pos.wMode = c.pos.wMode
      · cases smaller (computeMaxYOverlapRatio c.pos A.pos) minYOverlapRatio tol <;>
        cases larger (computeHorizontalGap c.pos A.pos) (horizontalGapThreshold A) tol <;>
        cases larger (computeHorizontalGap A.pos c.pos) (horizontalGapThreshold A) tol <;>
        simp [g1, g2]
      · simp [g1, g2]
    · simp [g1]
  rw [hstart, hgap, smaller_false, hov, minYOverlapRatio]
  constructor
  · rintro ⟨g1, g2, g3, g4, g5⟩
    refine ⟨fun x hx => ?_, A.pos, A.fontSize, hull, hgreat, g3, g4, g5⟩
    have := hhom x hx p (by simp)
    exact ⟨this.1.trans g1, this.2.trans g2⟩
  · rintro ⟨g1, b, fs, k1, k2, k3, k4, k5⟩
    have q1 := IsLeastOf.unique' k1.left hull.left
    have q2 := IsLeastOf.unique' k1.upper hull.upper
    have q3 := IsGreatestOf.unique' k1.right hull.right
    have q4 := IsGreatestOf.unique' k1.lower hull.lower
    have q5 := IsGreatestOf.unique' k2 hgreat
    rw [q2, q4] at k3
    rw [q3, q5] at k4
    rw [q1, q5] at k5
    exact ⟨(g1 p (by simp)).1, (g1 p (by simp)).2, k3, k4, k5⟩

/-- C23: for ordinary characters, the division into words is exactly the greedy division by
`ContinuesWord`: inside a word every character continues the part of the word before it, and the
first character of a word does not continue the previous word. -/
theorem c23_word_boundaries (h : HashOrder) (a a' : Active) (pn : ℤ) (cs : List Glyph) (ws : List Word)
    (hord : ∀ c ∈ cs, OrdinaryGlyph c) (hd : detectWords h a pn cs = .ok (ws, a')) :
    IsGreedy ContinuesWord (cs.filter (fun c => c.markOf.isNone)) (ws.map (·.chars)) := by
  obtain ⟨ws', a'', h1, _, h3⟩ := detectWords_spec h a pn cs
  rw [hd] at h1
  obtain ⟨rfl, rfl⟩ : ws = ws' ∧ a' = a'' := by simpa using h1
  have hmem : ∀ g ∈ ws.map (·.chars), ∀ c ∈ g, c ∈ cs := by
    intro g hg c hcg
    have : c ∈ cs.filter (·.markOf.isNone) := by
      rw [← h3.flatten]; exact List.mem_flatten.mpr ⟨g, hg, hcg⟩
    exact (List.mem_filter.mp this).1
  refine h3.congr ?_
  intro g hg pre hpre hne c hc
  refine startsWord_iff pn pre c hne (fun p hp => hord p (hmem g hg p (hpre.subset hp)))
    (hord c (List.mem_filter.mp hc).1) ?_
  have hhom := group_homogeneous (h3.inside g hg)
  intro x hx y hy
  exact hhom x (hpre.subset hx) y (hpre.subset hy)

/-- C23: two executions can only differ in the order of hash tables, never in the word boundaries. -/
theorem c23_deterministic (h h' : HashOrder) (a : Active) (pn : ℤ) (cs : List Glyph) (ws ws' : List Word)
    (b b' : Active) (hd : detectWords h a pn cs = .ok (ws, b)) (hd' : detectWords h' a pn cs = .ok (ws', b')) :
    ws.map (·.chars) = ws'.map (·.chars) := by
  obtain ⟨v, c, h1, _, h3⟩ := detectWords_spec h a pn cs
  obtain ⟨v', c', h1', _, h3'⟩ := detectWords_spec h' a pn cs
  rw [hd] at h1; rw [hd'] at h1'
  obtain ⟨rfl, _⟩ : ws = v ∧ b = c := by simpa using h1
  obtain ⟨rfl, _⟩ : ws' = v' ∧ b' = c' := by simpa using h1'
  exact h3.unique h3'

/-- C23 (consequence, finding): characters without common vertical extent are never put into one
word, even if the text runs downwards (rotation 1): vertical text yields one word per character. -/
theorem c23_vertical_text_single_characters (h : HashOrder) (a a' : Active) (pn : ℤ) (cs : List Glyph)
    (ws : List Word) (hord : ∀ c ∈ cs, OrdinaryGlyph c)
    (hdis : ∀ x ∈ cs, ∀ y ∈ cs, x = y ∨ x.pos.lowerY ≤ y.pos.upperY ∨ y.pos.lowerY ≤ x.pos.upperY)
    (hnd : cs.Nodup) (hd : detectWords h a pn cs = .ok (ws, a')) :
    ∀ w ∈ ws, w.chars.length = 1 := by
  have hg := c23_word_boundaries h a a' pn cs ws hord hd
  intro w hw
  have hmem : w.chars ∈ ws.map (·.chars) := List.mem_map.mpr ⟨w, hw, rfl⟩
  have hne := hg.nonempty _ hmem
  have hsub : ∀ c ∈ w.chars, c ∈ cs := by
    intro c hcg
    have : c ∈ cs.filter (fun c => c.markOf.isNone) := by
      rw [← hg.flatten]; exact List.mem_flatten.mpr ⟨_, hmem, hcg⟩
    exact (List.mem_filter.mp this).1
  have hndw : w.chars.Nodup := by
    have : (ws.map (·.chars)).flatten.Nodup := by rw [hg.flatten]; exact hnd.filter _
    exact (List.nodup_flatten.mp this).1 _ hmem
  match hch : w.chars, hne with
  | [c], _ => rfl
  | c1 :: c2 :: cs', _ =>
    exfalso
    obtain ⟨_, b, fs, hb, _, hov, _⟩ := hg.inside _ hmem [c1] c2 cs' (by rw [hch]; rfl) (by simp)
    rw [hch] at hndw hsub
    have hne12 : c2 ≠ c1 := by
      intro he; subst he; simp at hndw
    have hu : b.upperY = c1.pos.upperY := by
      obtain ⟨⟨e, he, hv⟩, _⟩ := hb.upper
      simp only [List.map_cons, List.map_nil, List.mem_singleton] at he
      rw [← hv, he]
    have hl : b.lowerY = c1.pos.lowerY := by
      obtain ⟨⟨e, he, hv⟩, _⟩ := hb.lower
      simp only [List.map_cons, List.map_nil, List.mem_singleton] at he
      rw [← hv, he]
    rw [hu, hl] at hov
    have hz : interLen c2.pos.upperY c2.pos.lowerY c1.pos.upperY c1.pos.lowerY = 0 := by
      unfold interLen
      apply max_eq_left
      rcases hdis c2 (hsub c2 (by simp)) c1 (hsub c1 (by simp)) with g | g | g
      · exact absurd g hne12
      · have := min_le_left c2.pos.lowerY c1.pos.lowerY
        have := le_max_right c2.pos.upperY c1.pos.upperY
        linarith
      · have := min_le_right c2.pos.lowerY c1.pos.lowerY
        have := le_max_left c2.pos.upperY c1.pos.upperY
        linarith
    rw [hz] at hov
    norm_num [tol] at hov

/-- C23 (finding): two characters of text rotated by 180 degrees (with left and right edge as computed
by the parser) that are 390 units apart end up in one word. -/
theorem c23_rotated_never_split : ∃ c₁ c₂ : Glyph, c₁.pos.rotation = 2 ∧ c₂.pos.rotation = 2 ∧
    c₁.fontSize = 10 ∧ c₂.fontSize = 10 ∧ c₁.pos.rightX - c₂.pos.leftX = 390 ∧
    ∀ (h : HashOrder) (a : Active) (ws : List Word) (a' : Active),
      detectWords h a 1 [c₁, c₂] = .ok (ws, a') → ws.map (·.chars) = [[c₁, c₂]] := by
  refine ⟨⟨0, { pageNum := 1, leftX := 500, upperY := 100, rightX := 490, lowerY := 110, rotation := 2 },
      ['a'], [], [], 10, 0, 0, [], none, none, [], false, false⟩,
    ⟨1, { pageNum := 1, leftX := 100, upperY := 100, rightX := 90, lowerY := 110, rotation := 2 },
      ['b'], [], [], 10, 0, 1, [], none, none, [], false, false⟩, rfl, rfl, rfl, rfl, by norm_num, ?_⟩
  intro h a ws a' hd
  obtain ⟨v, c, h1, _, h3⟩ := detectWords_spec h a 1 _
  rw [hd] at h1
  obtain ⟨rfl, _⟩ : ws = v ∧ a' = c := by simpa using h1
  refine h3.unique (gs' := [] ++ [[_] ++ [_]]) ?_
  refine (isGreedy_singleton _).extend (gs := []) ?_
  have key : startsWord (activeOf 1 [⟨0, { pageNum := 1, leftX := 500, upperY := 100, rightX := 490, lowerY := 110, rotation := 2 },
      ['a'], [], [], 10, 0, 0, [], none, none, [], false, false⟩]) ⟨1, { pageNum := 1, leftX := 100, upperY := 100, rightX := 90, lowerY := 110, rotation := 2 },
      ['b'], [], [], 10, 0, 1, [], none, none, [], false, false⟩ = false := by decide +kernel
  exact key

/-! ## C24 -/

/-- C24: `createWord` succeeds on every non-empty list of characters. The text of the word is the
concatenation of the texts of its characters - for a character merged with a diacritical mark the
combined text, for a merged mark nothing -, page, rotation and writing mode are those of the first
character, font name and size are most frequent ones, and the box contains all characters. -/
theorem c24_word (h : HashOrder) (first : Glyph) (rest : List Glyph)
    (hlen : (first :: rest).length < 2 ^ 32) :
    ∃ w, createWord h (first :: rest) = .ok w ∧
      w.chars = first :: rest ∧
      w.text = ((first :: rest).map fun c =>
        match c.baseOf, c.markOf with
        | some _, _ => c.textWithMark
        | none, some _ => []
        | none, none => c.text).flatten ∧
      w.pos.pageNum = first.pos.pageNum ∧ w.pos.rotation = first.pos.rotation ∧
      w.pos.wMode = first.pos.wMode ∧
      IsMostFrequent ((first :: rest).map (·.fontName)) w.fontName ∧
      IsMostFrequent ((first :: rest).map (·.fontSize)) w.fontSize ∧
      ∀ c ∈ first :: rest, w.pos.leftX ≤ c.pos.leftX ∧ w.pos.upperY ≤ c.pos.upperY ∧
        c.pos.rightX ≤ w.pos.rightX ∧ c.pos.lowerY ≤ w.pos.lowerY := by
  obtain ⟨w, h1, h2, h3, h4, h5, _⟩ := createWord_ok h (first :: rest) (by simp)
  have hpos := h4 first rfl
  obtain ⟨hf, hs⟩ := h5 hlen
  refine ⟨w, h1, h2, ?_, ?_, ?_, ?_, hf, hs, ?_⟩
  · rw [h3]
    congr 1
    apply List.map_congr_left
    intro c _
    unfold glyphText
    cases c.baseOf <;> cases c.markOf <;> simp
  · rw [hpos]; exact (extendAll_rest _ _).1
  · rw [hpos]
  · rw [hpos]
  · intro c hc
    rw [hpos]
    exact extendAll_contains _ _ c.pos (List.mem_map.mpr ⟨c, hc, rfl⟩)

/-- C24 (box): the box of a word is the smallest box around its characters - for characters with
positive right and lower edges (see `c24_negative_coordinates_box`). -/
theorem c24_box_partial (h : HashOrder) (cs : List Glyph) (hne : cs ≠ [])
    (hp : ∀ c ∈ cs, PositiveBox c.pos) (w : Word) (hw : createWord h cs = .ok w) :
    IsHull (cs.map (·.pos)) w.pos := by
  obtain ⟨w', h1, _, _, h4, _⟩ := createWord_ok h cs hne
  rw [hw] at h1
  obtain rfl : w = w' := by simpa using h1
  obtain ⟨f, hf⟩ : ∃ f, cs.head? = some f := by
    cases cs with
    | nil => exact absurd rfl hne
    | cons f _ => exact ⟨f, rfl⟩
  rw [h4 f hf]
  have := extendAll_isHull (b := { pageNum := f.pos.pageNum }) (es := cs.map (·.pos))
    (by simpa using hne) rfl rfl rfl rfl
    (by intro e he; obtain ⟨p, hp', rfl⟩ := List.mem_map.mp he; exact hp p hp')
  exact ⟨this.left, this.upper, this.right, this.lower⟩

/-- C24 (box, refuted part): a word above or left of the origin gets a too large box. -/
theorem c24_negative_coordinates_box (h : HashOrder) (c : Glyph) (hc : c.pos.rightX < 0) (w : Word)
    (hw : createWord h [c] = .ok w) : ¬ IsHull [c.pos] w.pos := by
  obtain ⟨w', h1, _, _, h4, _⟩ := createWord_ok h [c] (by simp)
  rw [hw] at h1
  obtain rfl : w = w' := by simpa using h1
  intro hh
  obtain ⟨⟨e, he, hv⟩, _⟩ := hh.right
  simp only [List.mem_singleton] at he
  subst he
  rw [h4 c rfl] at hv
  have hpos : (0 : ℚ) < dblMin := by unfold dblMin; positivity
  simp only [List.map_cons, List.map_nil, Box.extendAll, List.foldl_cons, List.foldl_nil, Box.extend,
    maximum_eq_max] at hv
  rw [max_eq_left (by linarith)] at hv
  linarith

/-- C24: the words of a page are made by `createWord` from their characters. -/
theorem c24_page_words (h : HashOrder) (a a' : Active) (pn : ℤ) (cs : List Glyph) (ws : List Word)
    (hd : detectWords h a pn cs = .ok (ws, a')) (i : ℕ) (w : Word) (hi : ws[i]? = some w) :
    ∃ w', createWord h w.chars = .ok w' ∧ w = { w' with rank := i } := by
  obtain ⟨ws', a'', h1, h2, _⟩ := detectWords_spec h a pn cs
  rw [hd] at h1
  obtain ⟨rfl, rfl⟩ : ws = ws' ∧ a' = a'' := by simpa using h1
  exact (h2 i w hi).2

/-! ## Non-vacuity of C22 - C24 -/

/-- The iteration order is the insertion order. -/
def idOrder : HashOrder where
  order _ l := l
  perm _ _ := List.Perm.refl _

/-- An ordinary glyph for examples. -/
def sampleGlyph (uid : ℕ) (x : ℚ) (t : Char) : Glyph :=
  { uid := uid, pos := { pageNum := 1, leftX := x, upperY := 10, rightX := x + 5, lowerY := 20 },
    text := [t], fontName := "f".toList, fontSize := 10 }

theorem sampleGlyph_ordinary (uid : ℕ) (x : ℚ) (hx0 : 0 ≤ x) (hx1 : x ≤ 1000) (t : Char) :
    OrdinaryGlyph (sampleGlyph uid x t) := by
  have h1 : (dblMin : ℚ) ≤ 1 := by
    unfold dblMin
    rw [div_le_one (by positivity)]
    exact one_le_pow₀ (by norm_num)
  have h2 : (1000 : ℚ) ≤ dblMax := by
    unfold dblMax
    generalize hP : (2 : ℚ) ^ 971 = P
    have : 1 ≤ P := by rw [← hP]; exact one_le_pow₀ (by norm_num)
    clear hP
    norm_num
    nlinarith
  refine ⟨⟨?_, ?_, ?_, ?_⟩, ?_, ?_, ?_, ?_⟩ <;> simp only [sampleGlyph]
  · linarith
  · linarith
  · linarith
  · linarith
  · linarith
  · norm_num
  · exact ⟨by norm_num, by norm_num⟩
  · norm_num

/-- The words of a page as lists of character numbers, with their texts. -/
def wordsOutline (r : Outcome (List Word × Active)) : List (List ℕ × Verif.Text.Str) :=
  match r with
  | .ok (ws, _) => ws.map fun w => (w.chars.map (·.uid), w.text)
  | _ => []

example : wordsOutline (detectWords idOrder (Active.reset 1) 1
    [sampleGlyph 0 10 'a', sampleGlyph 1 15 'b', sampleGlyph 2 40 'c']) =
      [([0, 1], ['a', 'b']), ([2], ['c'])] := by
  decide +kernel

/-- The hypotheses of `c23_word_boundaries` hold for this page. -/
example : IsGreedy ContinuesWord [sampleGlyph 0 10 'a', sampleGlyph 1 15 'b', sampleGlyph 2 40 'c']
    [[sampleGlyph 0 10 'a', sampleGlyph 1 15 'b'], [sampleGlyph 2 40 'c']] := by
  have hord : ∀ c ∈ [sampleGlyph 0 10 'a', sampleGlyph 1 15 'b', sampleGlyph 2 40 'c'], OrdinaryGlyph c := by
    intro c hc
    simp only [List.mem_cons, List.not_mem_nil, or_false] at hc
    rcases hc with rfl | rfl | rfl <;> exact sampleGlyph_ordinary _ _ (by norm_num) (by norm_num) _
  obtain ⟨ws, a', h1, _⟩ := c22_words_partition idOrder (Active.reset 1) 1
    [sampleGlyph 0 10 'a', sampleGlyph 1 15 'b', sampleGlyph 2 40 'c']
  have h2 := c23_word_boundaries _ _ _ _ _ _ hord h1
  have h3 : ws.map (·.chars) =
      (match detectWords idOrder (Active.reset 1) 1
        [sampleGlyph 0 10 'a', sampleGlyph 1 15 'b', sampleGlyph 2 40 'c'] with
       | .ok (ws, _) => ws.map (·.chars) | _ => []) := by rw [h1]
  have h4 : (match detectWords idOrder (Active.reset 1) 1
        [sampleGlyph 0 10 'a', sampleGlyph 1 15 'b', sampleGlyph 2 40 'c'] with
       | .ok (ws, _) => ws.map (·.chars) | _ => []) =
      [[sampleGlyph 0 10 'a', sampleGlyph 1 15 'b'], [sampleGlyph 2 40 'c']] := by decide +kernel
  rw [h3, h4] at h2
  exact h2

end Verif.Props

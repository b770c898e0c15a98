import Verif.Model.TextBlocks
import Verif.Props.Words

/-!
# C83: block detection reads nothing but the lines it is given and what they refer to
-/

namespace Verif.Props

open Verif.Math Verif.Elements Verif.Counter Verif.Text Verif.Words Verif.TextLines Verif.TextBlocks

/-- The documents agree on the lines in `S` and on everything else that block detection reads. -/
structure AgreeDoc (S : ℕ → Prop) (d d' : Doc) : Prop where
  line : ∀ i, S i → d'.line i = d.line i
  link : ∀ i, S i → d'.link i = d.link i
  seg : ∀ i, S i → d'.seg i = d.seg i
  figures : ∀ i, S i → d'.figures (d.line i).pos.pageNum = d.figures (d.line i).pos.pageNum
  parent : ∀ i, S i → ∀ j, (d.link i).parent = some j → S j
  prevSibling : ∀ i, S i → ∀ j, (d.link i).prevSibling = some j → S j
  nextSibling : ∀ i, S i → ∀ j, (d.link i).nextSibling = some j → S j
  fonts : ∀ f, (f = [] ∨ f = d.mostFreqFontName ∨ ∃ i, S i ∧ (d.line i).fontName = f) → d'.fontInfos f = d.fontInfos f
  perSize : ∀ i, S i → d'.lineDistancePerFontSize (d.line i).fontSize = d.lineDistancePerFontSize (d.line i).fontSize
  scalars : d' = { d with lineDistancePerFontSize := d'.lineDistancePerFontSize, line := d'.line, link := d'.link, seg := d'.seg, figures := d'.figures, fontInfos := d'.fontInfos }

/-- The states agree on the lines in `S`. -/
structure AgreeState (S : ℕ → Prop) (s s' : State) : Prop where
  prevLine : ∀ i, S i → s'.prevLine i = s.prevLine i
  nextLine : ∀ i, S i → s'.nextLine i = s.nextLine i
  leftMargin : ∀ i, S i → s'.leftMargin i = s.leftMargin i
  rightMargin : ∀ i, S i → s'.rightMargin i = s.rightMargin i
  labels : s'.labels = s.labels
  closed : ∀ i, S i → ∀ j, s.prevLine i = some j → S j

section
variable {S : ℕ → Prop} {d d' : Doc} {s s' : State}

theorem ap_width (h : AgreeDoc S d d') : d'.avgCharWidth = d.avgCharWidth := by rw [h.scalars]

theorem ap_centered (h : AgreeDoc S d d') (l1 l2 : Line) : computeIsCentered d' l1 l2 = computeIsCentered d l1 l2 := by rw [h.scalars]; rfl

theorem ap_largeOffset (h : AgreeDoc S d d') (l1 l2 : Line) : largeOffset d' l1 l2 = largeOffset d l1 l2 := by rw [h.scalars]; rfl

theorem ap_centeredLoop (h : AgreeDoc S d d') (ls : List Line) : ∀ p b k, centeredLoop d' p b k ls = centeredLoop d p b k ls := by
  induction ls with
  | nil => intro p b k; rfl
  | cons l ls ih => intro p b k; simp only [centeredLoop, ap_centered h, ap_largeOffset h, ih]

theorem ap_linesCentered (h : AgreeDoc S d d') (ls : List Line) : computeIsTextLinesCentered d' ls = computeIsTextLinesCentered d ls := by
  cases ls with
  | nil => rfl
  | cons l ls => exact ap_centeredLoop h ls _ _ _

theorem ap_emphasized (h : AgreeDoc S d d') {f : Str} (hf : f = [] ∨ f = d.mostFreqFontName ∨ ∃ i, S i ∧ (d.line i).fontName = f) (fs : ℚ) (t : Str) :
    computeIsEmphasized d' f fs t = computeIsEmphasized d f fs t := by
  unfold computeIsEmphasized
  have e1 : d'.mostFreqFontName = d.mostFreqFontName := by rw [h.scalars]
  have e2 : d'.mostFreqFontSize = d.mostFreqFontSize := by rw [h.scalars]
  rw [e1, e2, h.fonts _ (.inr (.inl rfl)), h.fonts f hf]

theorem ap_capacity (h : AgreeDoc S d d') (hs : AgreeState S s s') (p : Option ℕ) (hp : ∀ j, p = some j → S j) {i : ℕ} (hi : S i) :
    computeHasPrevLineCapacity d' s' p i = computeHasPrevLineCapacity d s p i := by
  unfold computeHasPrevLineCapacity
  rw [h.line i hi, ap_width h]
  cases p with
  | none => rfl
  | some p =>
    cases (d.line i).words with
    | nil => rfl
    | cons w ws => simp only [hs.rightMargin p (hp p rfl)]

theorem ap_hangStep (h : AgreeDoc S d d') (hs : AgreeState S s s') (m : ℚ) (c : HangCounts) (k : ℕ) {i : ℕ} (hi : S i) :
    hangStep d' s' m c k i = hangStep d s m c k i := by
  unfold hangStep
  rw [h.line i hi, ap_width h, hs.leftMargin i hi, hs.rightMargin i hi, hs.prevLine i hi, ap_capacity h hs _ (hs.closed i hi) hi]

theorem ap_hangLoop (h : AgreeDoc S d d') (hs : AgreeState S s s') (m : ℚ) (ls : List ℕ) : (∀ i ∈ ls, S i) → ∀ k c,
    hangLoop d' s' m k ls c = hangLoop d s m k ls c := by
  induction ls with
  | nil => intro _ k c; rfl
  | cons i ls ih => intro hS k c; rw [hangLoop, hangLoop, ap_hangStep h hs m c k (hS i (by simp)), ih fun j hj => hS j (by simp [hj])]

theorem ap_hangingIndent (hh : HashOrder) (h : AgreeDoc S d d') (hs : AgreeState S s s') {ls : List ℕ} (hS : ∀ i ∈ ls, S i) :
    computeHangingIndent hh d' s' ls = computeHangingIndent hh d s ls := by
  unfold computeHangingIndent
  have e1 : ls.filter (fun i => 3 ≤ (d'.line i).text.length) = ls.filter fun i => 3 ≤ (d.line i).text.length :=
    List.filter_congr fun i hi => by rw [h.line i (hS i hi)]
  have e2 : ls.filter (fun i => equalOrLarger (s'.leftMargin i) d'.avgCharWidth tol) = ls.filter fun i => equalOrLarger (s.leftMargin i) d.avgCharWidth tol :=
    List.filter_congr fun i hi => by rw [ap_width h, hs.leftMargin i (hS i hi)]
  have e3 : (ls.filter fun i => equalOrLarger (s.leftMargin i) d.avgCharWidth tol).map s'.leftMargin =
      (ls.filter fun i => equalOrLarger (s.leftMargin i) d.avgCharWidth tol).map s.leftMargin :=
    List.map_congr_left fun i hi => hs.leftMargin i (hS i (List.mem_of_mem_filter hi))
  simp only
  rw [e1, e2, e3]
  simp only [ap_hangLoop h hs _ ls hS]

theorem ap_marginRightX (h : AgreeDoc S d d') (g : Seg) (b : Block) (p : Option Block) : marginRightX d' g b p = marginRightX d g b p := by rw [h.scalars]; rfl

theorem ap_itemLabel (h : AgreeDoc S d d') {i : ℕ} (hi : S i) : computeIsPrefixedByItemLabel d' i = computeIsPrefixedByItemLabel d i := by
  unfold computeIsPrefixedByItemLabel
  rw [h.line i hi, show d'.matchesItemRegex = d.matchesItemRegex by rw [h.scalars]]

theorem ap_footnoteLabel (h : AgreeDoc S d d') {i : ℕ} (hi : S i) (ls : Option (List Str)) :
    computeIsPrefixedByFootnoteLabel d' i ls = computeIsPrefixedByFootnoteLabel d i ls := by
  unfold computeIsPrefixedByFootnoteLabel
  rw [h.line i hi]

theorem ap_sibling (h : AgreeDoc S d d') {i : ℕ} (hi : S i) (q : Option ℕ) (hq : ∀ j, q = some j → S j) : siblingIsItem d' i q = siblingIsItem d i q := by
  unfold siblingIsItem
  cases q with
  | none => rfl
  | some j => simp only [h.line i hi, h.line j (hq j rfl), ap_itemLabel h (hq j rfl)]

theorem ap_continues (h : AgreeDoc S d d') (hs : AgreeState S s s') {i : ℕ} (hi : S i) : continuesText d' s' i = continuesText d s i := by
  unfold continuesText
  rw [hs.prevLine i hi]
  cases hp : s.prevLine i with
  | none => rfl
  | some p =>
    have := hs.closed i hi p hp
    simp only [h.line i hi, h.line p this, ap_itemLabel h this, ap_width h]

theorem ap_firstLine (h : AgreeDoc S d d') (hs : AgreeState S s s') {i : ℕ} (hi : S i) (ls : Option (List Str)) :
    computeIsFirstLineOfItem d' s' i ls = computeIsFirstLineOfItem d s i ls := by
  unfold computeIsFirstLineOfItem
  rw [h.line i hi, h.link i hi, ap_itemLabel h hi, ap_footnoteLabel h hi, ap_continues h hs hi, ap_sibling h hi _ (h.prevSibling i hi), ap_sibling h hi _ (h.nextSibling i hi)]

theorem ap_continuationLoop (h : AgreeDoc S d d') (hs : AgreeState S s s') (ls : Option (List Str)) (n : ℕ) : ∀ {i : ℕ}, S i →
    continuationLoop d' s' ls n i = continuationLoop d s ls n i := by
  induction n with
  | zero => intro i _; rfl
  | succ n ih =>
    intro i hi
    rw [continuationLoop, continuationLoop, h.link i hi]
    cases hp : (d.link i).parent with
    | none => rfl
    | some p => simp only [ap_firstLine h hs (h.parent i hi p hp), ih (h.parent i hi p hp)]

theorem ap_continuation (h : AgreeDoc S d d') (hs : AgreeState S s s') (ls : Option (List Str)) {i : ℕ} (hi : S i) :
    computeIsContinuationOfItem d' s' ls i = computeIsContinuationOfItem d s ls i := ap_continuationLoop h hs ls _ hi

/-! ## The rules -/

theorem ap_sameFigure (h : AgreeDoc S d d') (l : Line) {i : ℕ} (hi : S i) : sameFigure d' l (d.line i) = sameFigure d l (d.line i) := by
  unfold sameFigure
  rw [h.figures i hi]

theorem ap_startsPreliminary (h : AgreeDoc S d d') (hs : AgreeState S s s') {i : ℕ} (hi : S i) : startsPreliminaryBlock d' s' i = startsPreliminaryBlock d s i := by
  unfold startsPreliminaryBlock
  rw [hs.prevLine i hi]
  cases hp : s.prevLine i with
  | none => rfl
  | some p =>
    have hp' := hs.closed i hi p hp
    simp only
    rw [h.line i hi, h.line p hp', ap_sameFigure h _ hi, hs.prevLine p hp']
    have e1 : ∀ l1, lineDistanceRule d' l1 (d.line i) = lineDistanceRule d l1 (d.line i) := by
      intro l1
      unfold lineDistanceRule expectedLineDistance
      rw [h.perSize i hi, show d'.mostFreqLineDistance = d.mostFreqLineDistance by rw [h.scalars]]
    have e2 : ∀ l0 l1 l2, increasedLineDistance d' l0 l1 l2 = increasedLineDistance d l0 l1 l2 := by intro l0 l1 l2; rw [h.scalars]; rfl
    have e3 : (s.prevLine p).map d'.line = (s.prevLine p).map d.line := by
      cases hq : s.prevLine p with
      | none => rfl
      | some q => simp only [Option.map_some, h.line q (hs.closed p hp' q hq)]
    rw [e1, e2, e3]

theorem ap_offset (h : AgreeDoc S d d') (l1 l2 : Line) : offsetInTolerance d' l1 l2 = offsetInTolerance d l1 l2 := by rw [h.scalars]; rfl

theorem ap_startsBlock (h : AgreeDoc S d d') (hs : AgreeState S s s') (c : Bool) (hi' : ℚ) {i : ℕ} (hi : S i) : startsBlock d' c hi' s' i = startsBlock d c hi' s i := by
  unfold startsBlock
  rw [hs.prevLine i hi]
  cases hp : s.prevLine i with
  | none => rfl
  | some p =>
    have hp' := hs.closed i hi p hp
    simp only
    have e1 : centeredRule d' s' c i = centeredRule d s c i := by unfold centeredRule; rw [ap_firstLine h hs hi]
    have e2 : itemRule d' s' c p i = itemRule d s c p i := by
      unfold itemRule
      simp only [hs.labels, ap_firstLine h hs hi, ap_firstLine h hs hp', ap_continuation h hs _ hi, ap_continuation h hs _ hp',
        ap_capacity h hs (some p) (fun j e => by cases e; exact hp') hi, h.line i hi, h.line p hp', ap_offset h]
    have e3 : emphasizedRule d' (d'.line p) (d'.line i) = emphasizedRule d (d.line p) (d.line i) := by
      unfold emphasizedRule
      rw [h.line i hi, h.line p hp', ap_emphasized h (.inr (.inr ⟨p, hp', rfl⟩)), ap_emphasized h (.inr (.inr ⟨i, hi, rfl⟩))]
    have e4 : hangingIndentRule d' s' hi' p i = hangingIndentRule d s hi' p i := by
      unfold hangingIndentRule
      simp only [hs.leftMargin i hi, hs.leftMargin p hp', ap_capacity h hs (some p) (fun j e => by cases e; exact hp') hi, h.line i hi, h.line p hp', ap_offset h, ap_width h]
    have e5 : indentRule d' s' p i = indentRule d s p i := by
      unfold indentRule
      simp only [hs.leftMargin i hi, hs.leftMargin p hp', ap_capacity h hs (some p) (fun j e => by cases e; exact hp') hi, h.line i hi, h.line p hp', ap_width h]
    rw [e1, e2, e3, e4, e5]

/-! ## Creating blocks -/

theorem ap_linkBlock (ls : List ℕ) : ∀ {s s' : State} {p : Option ℕ}, AgreeState S s s' → (∀ i ∈ ls, S i) → (∀ j, p = some j → S j) →
    AgreeState S (linkBlock p ls s) (linkBlock p ls s') := by
  induction ls with
  | nil => intro s s' p hs _ _; exact hs
  | cons l ls ih =>
    intro s s' p hs hS hp
    refine ih ?_ (fun i hi => hS i (by simp [hi])) (fun j e => by cases e; exact hS l (by simp))
    refine ⟨?_, ?_, hs.leftMargin, hs.rightMargin, hs.labels, ?_⟩
    · intro i hi
      by_cases e : i = l
      · subst e; simp
      · simp only [Function.update_of_ne e]; exact hs.prevLine i hi
    · intro i hi
      by_cases e : i = l
      · subst e; simp
      · simp only [Function.update_of_ne e]; exact hs.nextLine i hi
    · intro i hi j hj
      by_cases e : i = l
      · subst e; simp only [Function.update_self] at hj; exact hp j hj
      · simp only [Function.update_of_ne e] at hj; exact hs.closed i hi j hj

theorem ap_margins (h : AgreeDoc S d d') (hs : AgreeState S s s') (x y : ℚ) (ls : List ℕ) :
    AgreeState S (computeTextLineMargins d s x y ls) (computeTextLineMargins d' s' x y ls) := by
  refine ⟨hs.prevLine, hs.nextLine, ?_, ?_, hs.labels, hs.closed⟩
  · intro i hi
    simp only [computeTextLineMargins, h.line i hi, hs.leftMargin i hi]
  · intro i hi
    simp only [computeTextLineMargins, h.line i hi, hs.rightMargin i hi]

theorem ap_mostFreqOr_mem {κ : Type} [DecidableEq κ] (hh : HashOrder) {zero dflt k : κ} {xs : List κ} (h : mostFreqOr hh zero dflt xs = .ok k) :
    k = dflt ∨ k ∈ xs := by
  unfold mostFreqOr at h
  simp only at h
  split at h
  · unfold mostFreq at h
    obtain ⟨h1, h2⟩ := c07_most_frequent_element zero xs _ (hh.perm κ (countAll xs))
    cases hm : mostFreqAndCount zero (hh.order κ (countAll xs)) with
    | ok p =>
      rw [hm] at h
      simp only [Outcome.bind, Outcome.ok.injEq] at h
      exact .inr (h ▸ (h2 p.1 p.2 hm).1)
    | throw m => rw [hm] at h; cases h
    | ub m => rw [hm] at h; cases h
  · simp only [Outcome.ok.injEq] at h; exact .inl h.symm

/-- Both end in the same way, with states that agree and with the same blocks. -/
def SameBlocks {β : Type} (S : ℕ → Prop) (o o' : Outcome (State × β)) : Prop :=
  match o with
  | .ok r => ∃ t', o' = .ok (t', r.2) ∧ AgreeState S r.1 t'
  | .throw m => o' = .throw m
  | .ub m => o' = .ub m

theorem ap_create (hh : HashOrder) (h : AgreeDoc S d d') (hs : AgreeState S s s') {ls : List ℕ} (hS : ∀ i ∈ ls, S i) (bs : List Block) :
    SameBlocks S (createTextBlock hh d s ls bs) (createTextBlock hh d' s' ls bs) := by
  unfold createTextBlock
  cases ls with
  | nil => rfl
  | cons first rest =>
    have hf : S first := hS first (by simp)
    have el : (first :: rest).map d'.line = (first :: rest).map d.line := List.map_congr_left fun i hi => h.line i (hS i hi)
    simp only
    rw [el, h.seg first hf, h.line first hf]
    generalize hls : (first :: rest).map d.line = ls
    cases h1 : mostFreqOr hh [] [] (ls.map (·.fontName)) with
    | throw m => rfl
    | ub m => rfl
    | ok fontName =>
      cases h2 : mostFreqOr hh 0 (-1) (ls.map (·.fontSize)) with
      | throw m => rfl
      | ub m => rfl
      | ok fontSize =>
        have hfont : fontName = [] ∨ fontName = d.mostFreqFontName ∨ ∃ i, S i ∧ (d.line i).fontName = fontName := by
          rcases ap_mostFreqOr_mem hh h1 with e | e
          · exact .inl e
          · rw [← hls, List.map_map] at e
            obtain ⟨i, hi, he⟩ := List.mem_map.mp e
            exact .inr (.inr ⟨i, hS i hi, he⟩)
        simp only [Outcome.bind]
        rw [ap_emphasized h hfont, ap_linesCentered h, ap_marginRightX h]
        have hm := ap_margins h (ap_linkBlock (first :: rest) hs hS (p := none) (fun j e => by cases e))
        rw [ap_hangingIndent hh h (hm _ _ _) hS]
        generalize hr : computeHangingIndent hh d _ (first :: rest) = r
        cases r with
        | ok x => exact ⟨_, rfl, hm _ _ _⟩
        | throw m => rfl
        | ub m => rfl

theorem ap_create_lines {hh : HashOrder} {d : Doc} {s : State} {ls : List ℕ} {bs : List Block} {r : State × List Block} (h : createTextBlock hh d s ls bs = .ok r)
    {P : ℕ → Prop} (hls : ∀ i ∈ ls, P i) (hbs : ∀ b ∈ bs, ∀ i ∈ b.lines, P i) : ∀ b ∈ r.2, ∀ i ∈ b.lines, P i := by
  have hset : ∀ (n : ℕ) (bs : List Block), (∀ b ∈ bs, ∀ i ∈ b.lines, P i) → ∀ b ∈ setLastNext n bs, ∀ i ∈ b.lines, P i := by
    intro n bs
    induction bs with
    | nil => intro _ b hb; cases hb
    | cons b bs ih =>
      intro hb c hc
      cases bs with
      | nil => simp only [setLastNext, List.mem_singleton] at hc; subst hc; exact hb b (by simp)
      | cons b' bs =>
        simp only [setLastNext, List.mem_cons] at hc
        rcases hc with rfl | hc
        · exact hb c (by simp)
        · exact ih (fun x hx => hb x (by simp only [List.mem_cons] at hx ⊢; exact .inr hx)) c (by simpa [setLastNext] using hc)
  unfold createTextBlock at h
  cases ls with
  | nil => cases h
  | cons first rest =>
    simp only at h
    cases h1 : mostFreqOr hh [] [] (((first :: rest).map d.line).map (·.fontName)) with
    | throw m => rw [h1] at h; cases h
    | ub m => rw [h1] at h; cases h
    | ok f =>
      rw [h1] at h
      simp only [Outcome.bind] at h
      cases h2 : mostFreqOr hh 0 (-1) (((first :: rest).map d.line).map (·.fontSize)) with
      | throw m => rw [h2] at h; cases h
      | ub m => rw [h2] at h; cases h
      | ok g =>
        rw [h2] at h
        simp only at h
        split at h
        · simp only [Outcome.ok.injEq] at h
          subst h
          intro b hb
          rcases List.mem_append.mp hb with hb | hb
          · exact hset _ _ hbs b hb
          · simp only [List.mem_singleton] at hb; subst hb; exact hls
        · cases h
        · cases h

/-! ## The loops -/

theorem ap_blockLoop (hh : HashOrder) (h : AgreeDoc S d d') {pre pre' : State → ℕ → State} {st st' : State → ℕ → Bool}
    (hpre : ∀ s s' i, S i → AgreeState S s s' → AgreeState S (pre s i) (pre' s' i))
    (hst : ∀ s s' i, S i → AgreeState S s s' → st' s' i = st s i) (ls : List ℕ) : ∀ {cur : List ℕ} {s s' : State} (bs : List Block),
    AgreeState S s s' → (∀ i ∈ ls, S i) → (∀ i ∈ cur, S i) → SameBlocks S (blockLoop hh d pre st ls cur s bs) (blockLoop hh d' pre' st' ls cur s' bs) := by
  induction ls with
  | nil =>
    intro cur s s' bs hs _ hc
    simp only [blockLoop]
    split
    · exact ⟨s', rfl, hs⟩
    · exact ap_create hh h hs hc bs
  | cons l ls ih =>
    intro cur s s' bs hs hS hc
    have hl := hS l (by simp)
    have hp := hpre s s' l hl hs
    simp only [blockLoop]
    rw [hst _ _ l hl hp]
    split
    · have hcr := ap_create hh h hp hc bs
      cases hr : createTextBlock hh d (pre s l) cur bs with
      | throw m => rw [hr] at hcr; rw [show createTextBlock hh d' (pre' s' l) cur bs = .throw m from hcr]; rfl
      | ub m => rw [hr] at hcr; rw [show createTextBlock hh d' (pre' s' l) cur bs = .ub m from hcr]; rfl
      | ok r =>
        rw [hr] at hcr
        obtain ⟨t', e, ht⟩ := hcr
        rw [e]
        simp only [Outcome.bind]
        exact ih r.2 ht (fun i hi => hS i (by simp [hi])) (by simpa using hl)
    · exact ih bs hp (fun i hi => hS i (by simp [hi])) (by intro i hi; rcases List.mem_append.mp hi with hi | hi; exacts [hc i hi, by simp only [List.mem_singleton] at hi; exact hi ▸ hl])

theorem ap_blockLoop_lines {hh : HashOrder} {d : Doc} {pre : State → ℕ → State} {st : State → ℕ → Bool} {P : ℕ → Prop} (ls : List ℕ) :
    ∀ {cur : List ℕ} {s : State} {bs : List Block} {r : State × List Block}, blockLoop hh d pre st ls cur s bs = .ok r →
    (∀ i ∈ ls, P i) → (∀ i ∈ cur, P i) → (∀ b ∈ bs, ∀ i ∈ b.lines, P i) → ∀ b ∈ r.2, ∀ i ∈ b.lines, P i := by
  induction ls with
  | nil =>
    intro cur s bs r h _ hc hb
    simp only [blockLoop] at h
    split at h
    · simp only [Outcome.ok.injEq] at h; subst h; exact hb
    · exact ap_create_lines h hc hb
  | cons l ls ih =>
    intro cur s bs r h hl hc hb
    simp only [blockLoop] at h
    split at h
    · cases hr : createTextBlock hh d (pre s l) cur bs with
      | throw m => rw [hr] at h; cases h
      | ub m => rw [hr] at h; cases h
      | ok q =>
        rw [hr] at h
        exact ih h (fun i hi => hl i (by simp [hi])) (by simpa using hl l (by simp)) (ap_create_lines hr hc hb)
    · exact ih h (fun i hi => hl i (by simp [hi])) (by intro i hi; rcases List.mem_append.mp hi with hi | hi; exacts [hc i hi, by simp only [List.mem_singleton] at hi; exact hi ▸ hl l (by simp)]) hb

/-! ## Lines that do not belong to `S` -/

theorem ap_frame_link (ls : List ℕ) : ∀ {s s' : State} {p : Option ℕ}, AgreeState S s s' → (∀ i ∈ ls, ¬ S i) → AgreeState S s (linkBlock p ls s') := by
  induction ls with
  | nil => intro s s' p hs _; exact hs
  | cons l ls ih =>
    intro s s' p hs hS
    refine ih ⟨?_, ?_, hs.leftMargin, hs.rightMargin, hs.labels, hs.closed⟩ (fun i hi => hS i (by simp [hi]))
    all_goals
      intro i hi
      have e : i ≠ l := fun e => hS l (by simp) (e ▸ hi)
      simp only [Function.update_of_ne e]
    · exact hs.prevLine i hi
    · exact hs.nextLine i hi

theorem ap_frame_create {hh : HashOrder} {e : Doc} (hs : AgreeState S s s') {ls : List ℕ} (hS : ∀ i ∈ ls, ¬ S i) {bs : List Block} {r : State × List Block}
    (h : createTextBlock hh e s' ls bs = .ok r) : AgreeState S s r.1 := by
  unfold createTextBlock at h
  cases ls with
  | nil => cases h
  | cons first rest =>
    simp only at h
    cases h1 : mostFreqOr hh [] [] (((first :: rest).map e.line).map (·.fontName)) with
    | throw m => rw [h1] at h; cases h
    | ub m => rw [h1] at h; cases h
    | ok f =>
      rw [h1] at h
      simp only [Outcome.bind] at h
      cases h2 : mostFreqOr hh 0 (-1) (((first :: rest).map e.line).map (·.fontSize)) with
      | throw m => rw [h2] at h; cases h
      | ub m => rw [h2] at h; cases h
      | ok g =>
        rw [h2] at h
        simp only at h
        split at h
        · simp only [Outcome.ok.injEq] at h
          subst h
          have hl := ap_frame_link (p := none) (first :: rest) hs hS
          refine ⟨hl.prevLine, hl.nextLine, ?_, ?_, hl.labels, hl.closed⟩
          · intro i hi
            have : i ∉ first :: rest := fun hm => hS i hm hi
            simp only [computeTextLineMargins, if_neg this]
            exact hl.leftMargin i hi
          · intro i hi
            have : i ∉ first :: rest := fun hm => hS i hm hi
            simp only [computeTextLineMargins, if_neg this]
            exact hl.rightMargin i hi
        · cases h
        · cases h

theorem ap_frame_loop {hh : HashOrder} {e : Doc} {st : State → ℕ → Bool} (ls : List ℕ) : ∀ {cur : List ℕ} {s' : State} {bs : List Block} {r : State × List Block},
    AgreeState S s s' → (∀ i ∈ ls, ¬ S i) → (∀ i ∈ cur, ¬ S i) → blockLoop hh e (fun s _ => s) st ls cur s' bs = .ok r → AgreeState S s r.1 := by
  induction ls with
  | nil =>
    intro cur s' bs r hs _ hc h
    simp only [blockLoop] at h
    split at h
    · simp only [Outcome.ok.injEq] at h; subst h; exact hs
    · exact ap_frame_create hs hc h
  | cons l ls ih =>
    intro cur s' bs r hs hl hc h
    simp only [blockLoop] at h
    split at h
    · cases hr : createTextBlock hh e s' cur bs with
      | throw m => rw [hr] at h; cases h
      | ub m => rw [hr] at h; cases h
      | ok q =>
        rw [hr] at h
        exact ih (ap_frame_create hs hc hr) (fun i hi => hl i (by simp [hi])) (by simpa using hl l (by simp)) h
    · exact ih hs (fun i hi => hl i (by simp [hi])) (by intro i hi; rcases List.mem_append.mp hi with hi | hi; exacts [hc i hi, by simp only [List.mem_singleton] at hi; exact hi ▸ hl l (by simp)]) h

theorem ap_frame_page {hh : HashOrder} {e : Doc} (segs : List (List ℕ)) : ∀ {s' : State} {r : State × List (List Block)},
    AgreeState S s s' → (∀ g ∈ segs, ∀ i ∈ g, ¬ S i) → pass1Page hh e segs s' = .ok r → AgreeState S s r.1 := by
  induction segs with
  | nil => intro s' r hs _ h; simp only [pass1Page, Outcome.ok.injEq] at h; subst h; exact hs
  | cons g segs ih =>
    intro s' r hs hS h
    simp only [pass1Page] at h
    cases h1 : preliminaryBlocks hh e s' g with
    | throw m => rw [h1] at h; cases h
    | ub m => rw [h1] at h; cases h
    | ok a =>
      rw [h1] at h
      simp only [Outcome.bind] at h
      cases h2 : pass1Page hh e segs a.1 with
      | throw m => rw [h2] at h; cases h
      | ub m => rw [h2] at h; cases h
      | ok b =>
        rw [h2] at h
        simp only [Outcome.ok.injEq] at h
        subst h
        exact ih (r := b) (ap_frame_loop g hs (hS g (by simp)) (by simp) h1) (fun g' hg' => hS g' (by simp [hg'])) h2

theorem ap_frame_pass1 {hh : HashOrder} {e : Doc} (pages : List (List (List ℕ))) : ∀ {s' : State} {r : State × List (List (List Block))},
    AgreeState S s s' → (∀ p ∈ pages, ∀ g ∈ p, ∀ i ∈ g, ¬ S i) → pass1 hh e pages s' = .ok r → AgreeState S s r.1 := by
  induction pages with
  | nil => intro s' r hs _ h; simp only [pass1, Outcome.ok.injEq] at h; subst h; exact hs
  | cons g pages ih =>
    intro s' r hs hS h
    simp only [pass1] at h
    cases h1 : pass1Page hh e g s' with
    | throw m => rw [h1] at h; cases h
    | ub m => rw [h1] at h; cases h
    | ok a =>
      rw [h1] at h
      simp only [Outcome.bind] at h
      cases h2 : pass1 hh e pages a.1 with
      | throw m => rw [h2] at h; cases h
      | ub m => rw [h2] at h; cases h
      | ok b =>
        rw [h2] at h
        simp only [Outcome.ok.injEq] at h
        subst h
        exact ih (r := b) (ap_frame_page g hs (hS g (by simp)) h1) (fun g' hg' => hS g' (by simp [hg'])) h2

/-! ## Both passes -/

theorem ap_preliminary (hh : HashOrder) (h : AgreeDoc S d d') (hs : AgreeState S s s') {ls : List ℕ} (hS : ∀ i ∈ ls, S i) :
    SameBlocks S (preliminaryBlocks hh d s ls) (preliminaryBlocks hh d' s' ls) :=
  ap_blockLoop hh h (pre := fun s _ => s) (pre' := fun s _ => s) (st := startsPreliminaryBlock d) (st' := startsPreliminaryBlock d') (fun _ _ _ _ hs => hs)
    (fun _ _ _ hi hs => ap_startsPreliminary h hs hi) ls (cur := []) [] hs hS (by simp)

theorem ap_pass1Page (hh : HashOrder) (h : AgreeDoc S d d') (segs : List (List ℕ)) : ∀ {s s' : State} {r : State × List (List Block)},
    AgreeState S s s' → (∀ g ∈ segs, ∀ i ∈ g, S i) → pass1Page hh d segs s = .ok r →
    (∃ t', pass1Page hh d' segs s' = .ok (t', r.2) ∧ AgreeState S r.1 t') ∧ ∀ bs ∈ r.2, ∀ b ∈ bs, ∀ i ∈ b.lines, S i := by
  induction segs with
  | nil => intro s s' r hs _ hr; simp only [pass1Page, Outcome.ok.injEq] at hr; subst hr; exact ⟨⟨s', rfl, hs⟩, by simp⟩
  | cons g segs ih =>
    intro s s' r hs hS hr
    simp only [pass1Page] at hr
    have hp := ap_preliminary hh h hs (hS g (by simp))
    cases h1 : preliminaryBlocks hh d s g with
    | throw m => rw [h1] at hr; cases hr
    | ub m => rw [h1] at hr; cases hr
    | ok a =>
      rw [h1] at hr hp
      obtain ⟨t, e, ht⟩ := hp
      simp only [Outcome.bind] at hr
      cases h2 : pass1Page hh d segs a.1 with
      | throw m => rw [h2] at hr; cases hr
      | ub m => rw [h2] at hr; cases hr
      | ok b =>
        rw [h2] at hr
        simp only [Outcome.ok.injEq] at hr
        subst hr
        obtain ⟨⟨t', e', ht'⟩, hb⟩ := ih ht (fun g' hg' => hS g' (by simp [hg'])) h2
        refine ⟨⟨t', ?_, ht'⟩, ?_⟩
        · simp only [pass1Page]; rw [e]; simp only [Outcome.bind]; rw [e']
        · intro bs hbs
          rcases List.mem_cons.mp hbs with rfl | hbs
          · exact ap_blockLoop_lines g h1 (hS g (by simp)) (by simp) (by simp)
          · exact hb bs hbs

/-- The first pass: the pages at the front get the same preliminary blocks. -/
theorem ap_pass1 (hh : HashOrder) (h : AgreeDoc S d d') {more : List (List (List ℕ))} (hm : ∀ p ∈ more, ∀ g ∈ p, ∀ i ∈ g, ¬ S i) (pages : List (List (List ℕ))) :
    ∀ {s s' : State} {r r' : State × List (List (List Block))},
    AgreeState S s s' → (∀ p ∈ pages, ∀ g ∈ p, ∀ i ∈ g, S i) → pass1 hh d pages s = .ok r → pass1 hh d' (pages ++ more) s' = .ok r' →
    (∃ bs, r'.2 = r.2 ++ bs) ∧ AgreeState S r.1 r'.1 ∧ ∀ p ∈ r.2, ∀ bs ∈ p, ∀ b ∈ bs, ∀ i ∈ b.lines, S i := by
  induction pages with
  | nil =>
    intro s s' r r' hs _ hr hr'
    simp only [pass1, Outcome.ok.injEq] at hr
    subst hr
    exact ⟨⟨r'.2, rfl⟩, ap_frame_pass1 more hs hm hr', by simp⟩
  | cons p pages ih =>
    intro s s' r r' hs hS hr hr'
    rw [List.cons_append] at hr'
    simp only [pass1] at hr hr'
    cases h1 : pass1Page hh d p s with
    | throw m => rw [h1] at hr; cases hr
    | ub m => rw [h1] at hr; cases hr
    | ok a =>
      obtain ⟨⟨t', e, ht⟩, hb⟩ := ap_pass1Page hh h p hs (hS p (by simp)) h1
      rw [h1] at hr
      rw [e] at hr'
      simp only [Outcome.bind] at hr hr'
      cases h2 : pass1 hh d pages a.1 with
      | throw m => rw [h2] at hr; cases hr
      | ub m => rw [h2] at hr; cases hr
      | ok b =>
        cases h3 : pass1 hh d' (pages ++ more) t' with
        | throw m => rw [h3] at hr'; cases hr'
        | ub m => rw [h3] at hr'; cases hr'
        | ok c =>
          rw [h2] at hr
          rw [h3] at hr'
          simp only [Outcome.ok.injEq] at hr hr'
          subst hr; subst hr'
          obtain ⟨⟨bs, q1⟩, q2, q3⟩ := ih ht (fun g' hg' => hS g' (by simp [hg'])) h2 h3
          refine ⟨⟨bs, by simp [q1]⟩, q2, ?_⟩
          intro p' hp'
          rcases List.mem_cons.mp hp' with rfl | hp'
          · exact hb
          · exact q3 p' hp'

theorem ap_split (hh : HashOrder) (h : AgreeDoc S d d') (hs : AgreeState S s s') {b : Block} (hS : ∀ i ∈ b.lines, S i) (bs : List Block) :
    SameBlocks S (splitBlock hh d s b bs) (splitBlock hh d' s' b bs) :=
  ap_blockLoop hh h (pre := fun s i => { s with labels := computePotentialFootnoteLabels (d.line i).words s.labels })
    (pre' := fun s i => { s with labels := computePotentialFootnoteLabels (d'.line i).words s.labels })
    (st := startsBlock d b.isLinesCentered b.hangingIndent) (st' := startsBlock d' b.isLinesCentered b.hangingIndent) (fun s s' i hi hs => ⟨hs.prevLine, hs.nextLine, hs.leftMargin, hs.rightMargin, by simp only [h.line i hi, hs.labels], hs.closed⟩)
    (fun _ _ _ hi hs => ap_startsBlock h hs _ _ hi) b.lines (cur := []) bs hs hS (by simp)

theorem ap_pass2Page (hh : HashOrder) (h : AgreeDoc S d d') (pre : List Block) : ∀ {s s' : State} {bs : List Block} {r : State × List Block},
    AgreeState S s s' → (∀ b ∈ pre, ∀ i ∈ b.lines, S i) → pass2Page hh d pre s bs = .ok r → ∃ t', pass2Page hh d' pre s' bs = .ok (t', r.2) ∧ AgreeState S r.1 t' := by
  induction pre with
  | nil => intro s s' bs r hs _ hr; simp only [pass2Page, Outcome.ok.injEq] at hr; subst hr; exact ⟨s', rfl, hs⟩
  | cons b pre ih =>
    intro s s' bs r hs hS hr
    simp only [pass2Page] at hr
    have hp := ap_split hh h hs (hS b (by simp)) bs
    cases h1 : splitBlock hh d s b bs with
    | throw m => rw [h1] at hr; cases hr
    | ub m => rw [h1] at hr; cases hr
    | ok a =>
      rw [h1] at hr hp
      obtain ⟨t, e, ht⟩ := hp
      obtain ⟨t', e', ht'⟩ := ih ht (fun g' hg' => hS g' (by simp [hg'])) hr
      refine ⟨t', ?_, ht'⟩
      simp only [pass2Page]; rw [e]; exact e'

/-- The second pass: the pages at the front get the same blocks. -/
theorem ap_pass2 (hh : HashOrder) (h : AgreeDoc S d d') {more : List (List (List Block))} (pages : List (List (List Block))) :
    ∀ {s s' : State} {r r' : State × List (List Block)},
    AgreeState S s s' → (∀ p ∈ pages, ∀ bs ∈ p, ∀ b ∈ bs, ∀ i ∈ b.lines, S i) → pass2 hh d pages s = .ok r → pass2 hh d' (pages ++ more) s' = .ok r' →
    ∃ bs, r'.2 = r.2 ++ bs := by
  induction pages with
  | nil =>
    intro s s' r r' hs _ hr hr'
    simp only [pass2, Outcome.ok.injEq] at hr
    subst hr
    exact ⟨r'.2, rfl⟩
  | cons p pages ih =>
    intro s s' r r' hs hS hr hr'
    rw [List.cons_append] at hr'
    simp only [pass2] at hr hr'
    cases h1 : pass2Page hh d p.flatten s [] with
    | throw m => rw [h1] at hr; cases hr
    | ub m => rw [h1] at hr; cases hr
    | ok a =>
      obtain ⟨t', e, ht⟩ := ap_pass2Page hh h p.flatten hs (fun b hb => by obtain ⟨bs, q1, q2⟩ := List.mem_flatten.mp hb; exact hS p (by simp) bs q1 b q2) h1
      rw [h1] at hr
      rw [e] at hr'
      simp only [Outcome.bind] at hr hr'
      cases h2 : pass2 hh d pages a.1 with
      | throw m => rw [h2] at hr; cases hr
      | ub m => rw [h2] at hr; cases hr
      | ok b =>
        cases h3 : pass2 hh d' (pages ++ more) t' with
        | throw m => rw [h3] at hr'; cases hr'
        | ub m => rw [h3] at hr'; cases hr'
        | ok c =>
          rw [h2] at hr
          rw [h3] at hr'
          simp only [Outcome.ok.injEq] at hr hr'
          subst hr; subst hr'
          obtain ⟨bs, q1⟩ := ih ht (fun g' hg' => hS g' (by simp [hg'])) h2 h3
          exact ⟨bs, by simp [q1]⟩

/-- Block detection: the pages at the front get the same blocks. -/
theorem ap_process (hh : HashOrder) (h : AgreeDoc S d d') (hs : AgreeState S s s') {pages more : List (List (List ℕ))} (hS : ∀ p ∈ pages, ∀ g ∈ p, ∀ i ∈ g, S i)
    (hm : ∀ p ∈ more, ∀ g ∈ p, ∀ i ∈ g, ¬ S i) {r r' : State × List (List Block)} (hr : process hh d s pages = .ok r) (hr' : process hh d' s' (pages ++ more) = .ok r') :
    ∃ bs, r'.2 = r.2 ++ bs := by
  unfold process at hr hr'
  cases h1 : pass1 hh d pages s with
  | throw m => rw [h1] at hr; cases hr
  | ub m => rw [h1] at hr; cases hr
  | ok a =>
    cases h2 : pass1 hh d' (pages ++ more) s' with
    | throw m => rw [h2] at hr'; cases hr'
    | ub m => rw [h2] at hr'; cases hr'
    | ok b =>
      obtain ⟨⟨bs, q1⟩, q2, q3⟩ := ap_pass1 hh h hm pages hs hS h1 h2
      rw [h1] at hr
      rw [h2] at hr'
      simp only [Outcome.bind] at hr hr'
      rw [q1] at hr'
      exact ap_pass2 hh h a.2 q2 q3 hr hr'

end

end Verif.Props

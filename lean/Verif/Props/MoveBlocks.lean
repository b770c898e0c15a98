import Verif.Props.MovePages
import Verif.Props.TextBlocks

/-!
# C81: moving the contents — the detection of text blocks
-/

namespace Verif.Props

open Verif.Math Verif.Elements Verif.Counter Verif.Spec Verif.Words Verif.TextLines Verif.TextBlocks

/-- What block detection reads of the moved document; there are `N` lines. -/
structure mv_Docs (N : ℕ) (dx dy : ℚ) (D D' : Doc) : Prop where
  line : ∀ i, i < N → D'.line i = moveLine dx dy (D.line i)
  out : ∀ i, ¬ i < N → (D.line i).words = [] ∧ (D'.line i).words = []
  link : D'.link = D.link
  seg : ∀ i, i < N → D'.seg i = moveSeg dx dy (D.seg i)
  figures : ∀ n, D'.figures n = (D.figures n).map (moveBox dx dy)
  avgCharWidth : D'.avgCharWidth = D.avgCharWidth
  mostFreqWordHeight : D'.mostFreqWordHeight = D.mostFreqWordHeight
  mostFreqLineDistance : D'.mostFreqLineDistance = D.mostFreqLineDistance
  lineDistancePerFontSize : D'.lineDistancePerFontSize = D.lineDistancePerFontSize
  fontInfos : D'.fontInfos = D.fontInfos
  mostFreqFontName : D'.mostFreqFontName = D.mostFreqFontName
  mostFreqFontSize : D'.mostFreqFontSize = D.mostFreqFontSize
  matchesItemRegex : D'.matchesItemRegex = D.matchesItemRegex
  movable : ∀ i, i < N → Movable dx dy (D.line i).pos

/-- The line before a line of the document is a line of the document. -/
def mv_Linked (N : ℕ) (s : TextBlocks.State) : Prop := ∀ i, i < N → ∀ p, s.prevLine i = some p → p < N

theorem mv_leftOffset (dx dy : ℚ) (a b : Box) : computeLeftXOffset (moveBox dx dy a) (moveBox dx dy b) = computeLeftXOffset a b := by
  unfold computeLeftXOffset moveBox; simp only; ring

theorem mv_rightOffset (dx dy : ℚ) (a b : Box) : computeRightXOffset (moveBox dx dy a) (moveBox dx dy b) = computeRightXOffset a b := by
  unfold computeRightXOffset moveBox; simp only; ring

section
variable {N : ℕ} {dx dy : ℚ} {D D' : Doc}

theorem mv_isCentered (h : mv_Docs N dx dy D D') (a b : Line) :
    computeIsCentered D' (moveLine dx dy a) (moveLine dx dy b) = computeIsCentered D a b := by
  have ea : (moveLine dx dy a).pos = moveBox dx dy a.pos := rfl
  have eb : (moveLine dx dy b).pos = moveBox dx dy b.pos := rfl
  simp only [computeIsCentered, ea, eb, mv_maxX, mv_leftOffset, mv_rightOffset, h.avgCharWidth]

theorem mv_largeOffset (h : mv_Docs N dx dy D D') (a b : Line) :
    largeOffset D' (moveLine dx dy a) (moveLine dx dy b) = largeOffset D a b := by
  have ea : (moveLine dx dy a).pos = moveBox dx dy a.pos := rfl
  have eb : (moveLine dx dy b).pos = moveBox dx dy b.pos := rfl
  have ta : (moveLine dx dy a).text = a.text := rfl
  have tb : (moveLine dx dy b).text = b.text := rfl
  simp only [largeOffset, ea, eb, ta, tb, mv_leftOffset, mv_rightOffset, h.avgCharWidth]

theorem mv_centeredLoop (h : mv_Docs N dx dy D D') (ls : List Line) : ∀ (a : Line) (x : Bool) (k : ℕ),
    centeredLoop D' (moveLine dx dy a) x k (ls.map (moveLine dx dy)) = centeredLoop D a x k ls := by
  induction ls with
  | nil => intro a x k; rfl
  | cons l ls ih => intro a x k; simp only [List.map_cons, centeredLoop, mv_isCentered h, mv_largeOffset h, ih]

theorem mv_linesCentered (h : mv_Docs N dx dy D D') (ls : List Line) :
    computeIsTextLinesCentered D' (ls.map (moveLine dx dy)) = computeIsTextLinesCentered D ls := by
  cases ls with
  | nil => rfl
  | cons l ls => simp only [List.map_cons, computeIsTextLinesCentered, mv_centeredLoop h]

theorem mv_emphasized (h : mv_Docs N dx dy D D') (f : Text.Str) (z : ℚ) (t : Text.Str) :
    computeIsEmphasized D' f z t = computeIsEmphasized D f z t := by
  simp only [computeIsEmphasized, h.fontInfos, h.mostFreqFontName, h.mostFreqFontSize]

theorem mv_capacity (h : mv_Docs N dx dy D D') (s : TextBlocks.State) (p : Option ℕ) {i : ℕ} (hi : i < N) :
    computeHasPrevLineCapacity D' s p i = computeHasPrevLineCapacity D s p i := by
  have ew : (moveLine dx dy (D.line i)).words = (D.line i).words.map (moveWord dx dy) := rfl
  simp only [computeHasPrevLineCapacity, h.line i hi, ew, h.avgCharWidth]
  cases p with
  | none => rfl
  | some p =>
    cases (D.line i).words with
    | nil => rfl
    | cons w ws =>
      simp only [List.map_cons]
      have : (moveWord dx dy w).pos = moveBox dx dy w.pos := rfl
      rw [this, mv_width]

theorem mv_hangStep (h : mv_Docs N dx dy D D') (s : TextBlocks.State) (m : ℚ) (c : HangCounts) (k : ℕ) {i : ℕ} (hi : i < N) :
    hangStep D' s m c k i = hangStep D s m c k i := by
  have et : (moveLine dx dy (D.line i)).text = (D.line i).text := rfl
  have ew : ((moveLine dx dy (D.line i)).words.head?.map fun w => lastNamePrefixes.contains w.text) =
      ((D.line i).words.head?.map fun w => lastNamePrefixes.contains w.text) := by
    have : (moveLine dx dy (D.line i)).words = (D.line i).words.map (moveWord dx dy) := rfl
    rw [this, List.head?_map, Option.map_map]; rfl
  simp only [hangStep, mv_capacity h s _ hi, h.avgCharWidth, h.line i hi, et, ew]

theorem mv_hangLoop (h : mv_Docs N dx dy D D') (s : TextBlocks.State) (m : ℚ) (is : List ℕ) : (∀ i ∈ is, i < N) → ∀ (k : ℕ) (c : HangCounts),
    hangLoop D' s m k is c = hangLoop D s m k is c := by
  induction is with
  | nil => intro _ k c; rfl
  | cons i is ih =>
    intro hi k c
    rw [hangLoop, hangLoop, mv_hangStep h s m c k (hi i (by simp)), ih fun j hj => hi j (by simp [hj])]

theorem mv_hangingIndent (h : mv_Docs N dx dy D D') (o : HashOrder) (s : TextBlocks.State) (is : List ℕ) (hi : ∀ i ∈ is, i < N) :
    computeHangingIndent o D' s is = computeHangingIndent o D s is := by
  have e : (is.filter fun i => decide (3 ≤ (D'.line i).text.length)) = is.filter fun i => decide (3 ≤ (D.line i).text.length) := by
    apply List.filter_congr
    intro i hm
    rw [h.line i (hi i hm)]; rfl
  simp only [computeHangingIndent, h.avgCharWidth, e, mv_hangLoop h s _ is hi]

theorem mv_marginRightX (h : mv_Docs N dx dy D D') (seg : Seg) (b : Block) (p : Option Block) :
    marginRightX D' (moveSeg dx dy seg) (moveBlock dx dy b) (p.map (moveBlock dx dy)) = marginRightX D seg b p + dx := by
  have e1 : (moveBlock dx dy b).lines = b.lines := rfl
  have e2 : (moveBlock dx dy b).pos = moveBox dx dy b.pos := rfl
  have e3 : (moveBlock dx dy b).trimRightX = b.trimRightX + dx := rfl
  have e4 : (moveSeg dx dy seg).pos = moveBox dx dy seg.pos := rfl
  have e5 : (moveBox dx dy b.pos).leftX - (moveBox dx dy seg.pos).leftX = b.pos.leftX - seg.pos.leftX := by
    simp only [moveBox]; ring
  have e6 : (moveBox dx dy seg.pos).rightX - (moveBox dx dy b.pos).rightX = seg.pos.rightX - b.pos.rightX := by
    simp only [moveBox]; ring
  simp only [marginRightX, e1, e2, e3, e4, e5, e6, h.avgCharWidth]
  split
  · split
    · cases p with
      | none => rfl
      | some p => simp only [Option.map_some]; exact mv_maximum _ _ _
    · rfl
  · rfl

theorem mv_margins (h : mv_Docs N dx dy D D') (s : TextBlocks.State) (l r : ℚ) (is : List ℕ) (hi : ∀ i ∈ is, i < N) :
    computeTextLineMargins D' s (l + dx) (r + dx) is = computeTextLineMargins D s l r is := by
  unfold computeTextLineMargins
  congr 1
  · funext i
    split
    · next hm => rw [h.line i (hi i hm)]; simp only [moveLine, moveBox]; ring
    · rfl
  · funext i
    split
    · next hm => rw [h.line i (hi i hm)]; simp only [moveLine, moveBox]; ring
    · rfl

theorem mv_words_cases (h : mv_Docs N dx dy D D') (i : ℕ) : (D'.line i).words = (D.line i).words.map (moveWord dx dy) := by
  by_cases hi : i < N
  · rw [h.line i hi]; rfl
  · rw [(h.out i hi).1, (h.out i hi).2]; rfl

theorem mv_itemLabel (h : mv_Docs N dx dy D D') (i : ℕ) : computeIsPrefixedByItemLabel D' i = computeIsPrefixedByItemLabel D i := by
  unfold computeIsPrefixedByItemLabel
  rw [mv_words_cases h, h.matchesItemRegex]
  cases hw : (D.line i).words with
  | nil => rfl
  | cons w ws =>
    have hi : i < N := by
      by_contra hn
      rw [(h.out i hn).1] at hw; cases hw
    have ec : (moveWord dx dy w).chars = w.chars.map (moveGlyph dx dy) := rfl
    simp only [List.map_cons, ec]
    cases w.chars with
    | nil => rfl
    | cons c cs =>
      simp only [List.map_cons]
      have et : (D'.line i).text = (D.line i).text := by rw [h.line i hi]; rfl
      rw [et]
      rfl

theorem mv_superPrefix (dx dy : ℚ) (w : Word) : superScriptPrefix (moveWord dx dy w) = superScriptPrefix w := by
  have ec : (moveWord dx dy w).chars = w.chars.map (moveGlyph dx dy) := rfl
  simp only [superScriptPrefix, ec, List.takeWhile_map, List.map_map, Function.comp_def]
  rfl

theorem mv_footnoteLabel (h : mv_Docs N dx dy D D') (i : ℕ) (ls : Option (List Text.Str)) :
    computeIsPrefixedByFootnoteLabel D' i ls = computeIsPrefixedByFootnoteLabel D i ls := by
  unfold computeIsPrefixedByFootnoteLabel
  rw [mv_words_cases h]
  cases (D.line i).words with
  | nil => rfl
  | cons w ws => simp only [List.map_cons, mv_superPrefix]

theorem mv_sibling (h : mv_Docs N dx dy D D') (i : ℕ) (j : Option ℕ) : siblingIsItem D' i j = siblingIsItem D i j := by
  unfold siblingIsItem
  cases j with
  | none => rfl
  | some j =>
    simp only [mv_words_cases h, mv_itemLabel h]
    cases (D.line i).words with
    | nil => rfl
    | cons w ws =>
      cases (D.line j).words with
      | nil => rfl
      | cons w' ws' => rfl

theorem mv_continues (h : mv_Docs N dx dy D D') {s : TextBlocks.State} (hs : mv_Linked N s) {i : ℕ} (hi : i < N) :
    continuesText D' s i = continuesText D s i := by
  unfold continuesText
  cases hp : s.prevLine i with
  | none => rfl
  | some p =>
    have hN := hs i hi p hp
    simp only [mv_itemLabel h, h.line i hi, h.line p hN]
    have ea : (moveLine dx dy (D.line i)).pos = moveBox dx dy (D.line i).pos := rfl
    have eb : (moveLine dx dy (D.line p)).pos = moveBox dx dy (D.line p).pos := rfl
    have ec : computeHasEqualLeftX (moveBox dx dy (D.line p).pos) (moveBox dx dy (D.line i).pos) D'.avgCharWidth =
        computeHasEqualLeftX (D.line p).pos (D.line i).pos D.avgCharWidth := by
      rw [h.avgCharWidth]; simp only [computeHasEqualLeftX, moveBox, mv_equal]
    rw [ea, eb, mv_vgap, ec]
    rfl

theorem mv_firstLine (h : mv_Docs N dx dy D D') {s : TextBlocks.State} (hs : mv_Linked N s) (i : ℕ) (ls : Option (List Text.Str)) :
    computeIsFirstLineOfItem D' s i ls = computeIsFirstLineOfItem D s i ls := by
  unfold computeIsFirstLineOfItem
  by_cases hi : i < N
  · rw [mv_words_cases h, List.isEmpty_map, mv_itemLabel h, mv_footnoteLabel h, mv_continues h hs hi, h.link, mv_sibling h, mv_sibling h]
  · rw [(h.out i hi).1, (h.out i hi).2]; rfl

theorem mv_continuation (h : mv_Docs N dx dy D D') {s : TextBlocks.State} (hs : mv_Linked N s) (ls : Option (List Text.Str)) (k : ℕ) : ∀ i,
    continuationLoop D' s ls k i = continuationLoop D s ls k i := by
  induction k with
  | zero => intro i; rfl
  | succ k ih =>
    intro i
    simp only [continuationLoop, h.link, mv_firstLine h hs, ih]

theorem mv_continuationItem (h : mv_Docs N dx dy D D') {s : TextBlocks.State} (hs : mv_Linked N s) (ls : Option (List Text.Str)) (i : ℕ) :
    computeIsContinuationOfItem D' s ls i = computeIsContinuationOfItem D s ls i := mv_continuation h hs ls _ i

theorem mv_labelLoop (dx dy : ℚ) (cs : List Glyph) : ∀ (b : Bool) (l : Text.Str) (ls : List Text.Str),
    labelLoop b l ls (cs.map (moveGlyph dx dy)) = labelLoop b l ls cs := by
  induction cs with
  | nil => intro b l ls; rfl
  | cons c cs ih =>
    intro b l ls
    have e1 : (moveGlyph dx dy c).isSubscript = c.isSubscript := rfl
    have e2 : (moveGlyph dx dy c).isSuperscript = c.isSuperscript := rfl
    have e3 : (moveGlyph dx dy c).text = c.text := rfl
    simp only [List.map_cons, labelLoop, e1, e2, e3, ih]

theorem mv_labels (dx dy : ℚ) (ws : List Word) : ∀ ls : List Text.Str,
    computePotentialFootnoteLabels (ws.map (moveWord dx dy)) ls = computePotentialFootnoteLabels ws ls := by
  unfold computePotentialFootnoteLabels
  induction ws with
  | nil => intro ls; rfl
  | cons w ws ih =>
    intro ls
    have ec : (moveWord dx dy w).chars = w.chars.map (moveGlyph dx dy) := rfl
    rw [List.map_cons, List.foldl_cons, List.foldl_cons, ec, mv_labelLoop, ih]

theorem mv_overlapsFigure (dx dy : ℚ) (e : Box) (fs : List Box) :
    computeOverlapsFigure (moveBox dx dy e) (fs.map (moveBox dx dy)) = computeOverlapsFigure e fs := by
  unfold computeOverlapsFigure
  rw [List.findIdx?_map]
  simp only [Function.comp_def, mv_xratios, mv_yratios]

theorem mv_sameFigure (h : mv_Docs N dx dy D D') (a b : Line) :
    sameFigure D' (moveLine dx dy a) (moveLine dx dy b) = sameFigure D a b := by
  have ea : (moveLine dx dy a).pos = moveBox dx dy a.pos := rfl
  have eb : (moveLine dx dy b).pos = moveBox dx dy b.pos := rfl
  have en : (moveBox dx dy b.pos).pageNum = b.pos.pageNum := rfl
  simp only [sameFigure, ea, eb, en, h.figures, mv_overlapsFigure]

theorem mv_lineDistance (h : mv_Docs N dx dy D D') (a b : Line) :
    lineDistanceRule D' (moveLine dx dy a) (moveLine dx dy b) = lineDistanceRule D a b := by
  have ea : (moveLine dx dy a).pos = moveBox dx dy a.pos := rfl
  have eb : (moveLine dx dy b).pos = moveBox dx dy b.pos := rfl
  have ef : (moveLine dx dy b).fontSize = b.fontSize := rfl
  simp only [lineDistanceRule, expectedLineDistance, ea, eb, ef, mv_vgap, h.lineDistancePerFontSize, h.mostFreqLineDistance]
  rfl

theorem mv_increased (h : mv_Docs N dx dy D D') (p : Option Line) (a b : Line) :
    increasedLineDistance D' (p.map (moveLine dx dy)) (moveLine dx dy a) (moveLine dx dy b) = increasedLineDistance D p a b := by
  have ea : (moveLine dx dy a).pos = moveBox dx dy a.pos := rfl
  have eb : (moveLine dx dy b).pos = moveBox dx dy b.pos := rfl
  unfold increasedLineDistance
  cases p with
  | none => rfl
  | some p =>
    have ep : (moveLine dx dy p).pos = moveBox dx dy p.pos := rfl
    simp only [Option.map_some, ea, eb, ep, mv_vgap, h.mostFreqWordHeight]

theorem mv_startsPreliminary (h : mv_Docs N dx dy D D') {s : TextBlocks.State} (hs : mv_Linked N s) {i : ℕ} (hi : i < N) :
    startsPreliminaryBlock D' s i = startsPreliminaryBlock D s i := by
  unfold startsPreliminaryBlock
  cases hp : s.prevLine i with
  | none => rfl
  | some p =>
    have hN := hs i hi p hp
    have epp : (s.prevLine p).map D'.line = ((s.prevLine p).map D.line).map (moveLine dx dy) := by
      cases hq : s.prevLine p with
      | none => rfl
      | some q => simp only [Option.map_some, h.line q (hs p hN q hq)]
    simp only [h.line i hi, h.line p hN, epp, mv_sameFigure h, mv_lineDistance h, mv_increased h]
    rfl

theorem mv_offsetIn (h : mv_Docs N dx dy D D') (a b : Line) :
    offsetInTolerance D' (moveLine dx dy a) (moveLine dx dy b) = offsetInTolerance D a b := by
  have ea : (moveLine dx dy a).pos = moveBox dx dy a.pos := rfl
  have eb : (moveLine dx dy b).pos = moveBox dx dy b.pos := rfl
  simp only [offsetInTolerance, ea, eb, mv_leftOffset, h.avgCharWidth]

theorem mv_startsBlock (h : mv_Docs N dx dy D D') (c : Bool) (hi0 : ℚ) {s : TextBlocks.State} (hs : mv_Linked N s) {i : ℕ} (hi : i < N) :
    startsBlock D' c hi0 s i = startsBlock D c hi0 s i := by
  unfold startsBlock
  cases hp : s.prevLine i with
  | none => rfl
  | some p =>
    have hN := hs i hi p hp
    have ti : (D'.line i).text = (D.line i).text := by rw [h.line i hi]; rfl
    have tp : (D'.line p).text = (D.line p).text := by rw [h.line p hN]; rfl
    have ho : offsetInTolerance D' (D'.line p) (D'.line i) = offsetInTolerance D (D.line p) (D.line i) := by
      rw [h.line i hi, h.line p hN, mv_offsetIn h]
    have e1 : centeredRule D' s c i = centeredRule D s c i := by simp only [centeredRule, mv_firstLine h hs]
    have e2 : itemRule D' s c p i = itemRule D s c p i := by
      simp only [itemRule, mv_firstLine h hs, mv_continuationItem h hs, mv_capacity h s _ hi, ho, ti, tp]
    have e3 : emphasizedRule D' (D'.line p) (D'.line i) = emphasizedRule D (D.line p) (D.line i) := by
      rw [h.line i hi, h.line p hN]
      simp only [emphasizedRule, mv_emphasized h]
      rfl
    have e4 : hangingIndentRule D' s hi0 p i = hangingIndentRule D s hi0 p i := by
      simp only [hangingIndentRule, ho, mv_capacity h s _ hi, h.avgCharWidth]
    have e5 : indentRule D' s p i = indentRule D s p i := by
      have : computeLeftXOffset (D'.line p).pos (D'.line i).pos = computeLeftXOffset (D.line p).pos (D.line i).pos := by
        rw [h.line i hi, h.line p hN]; exact mv_leftOffset dx dy _ _
      simp only [indentRule, this, mv_capacity h s _ hi, h.avgCharWidth]
    simp only [e1, e2, e3, e4, e5]

/-! ## Creating blocks -/

theorem mv_linked_link (ls : List ℕ) : (∀ i ∈ ls, i < N) → ∀ (p : Option ℕ) (s : TextBlocks.State), (∀ x, p = some x → x < N) → mv_Linked N s →
    mv_Linked N (linkBlock p ls s) := by
  induction ls with
  | nil => intro _ p s _ hs; exact hs
  | cons l ls ih =>
    intro hl p s hp hs
    rw [linkBlock]
    refine ih (fun i hi => hl i (by simp [hi])) _ _ (fun x hx => by cases hx; exact hl _ (by simp)) ?_
    intro i hi q hq
    simp only [Function.update_apply] at hq
    split at hq
    · exact hp q hq
    · exact hs i hi q hq

theorem mv_lineText (dx dy : ℚ) (ws : List Word) : blockText.lineText (ws.map (moveWord dx dy)) = blockText.lineText ws := by
  induction ws with
  | nil => rfl
  | cons w ws ih =>
    cases ws with
    | nil => rfl
    | cons w' ws =>
      simp only [List.map_cons, blockText.lineText] at ih ⊢
      rw [ih]; rfl

theorem mv_blockText (dx dy : ℚ) (ls : List Line) : blockText (ls.map (moveLine dx dy)) = blockText ls := by
  induction ls with
  | nil => rfl
  | cons l ls ih =>
    have e : (moveLine dx dy l).words = l.words.map (moveWord dx dy) := rfl
    cases ls with
    | nil => simp only [List.map_cons, List.map_nil, blockText, e, mv_lineText]
    | cons l' ls => simp only [List.map_cons, blockText, e, mv_lineText] at ih ⊢; rw [ih]

theorem mv_setLastNext (dx dy : ℚ) (n : ℕ) (bs : List Block) :
    setLastNext n (bs.map (moveBlock dx dy)) = (setLastNext n bs).map (moveBlock dx dy) := by
  induction bs with
  | nil => rfl
  | cons b bs ih =>
    cases bs with
    | nil => rfl
    | cons c bs => simp only [List.map_cons, setLastNext] at ih ⊢; rw [ih]

theorem mv_setLastNext_mem {P : Block → Prop} (hP : ∀ b n, P b → P { b with nextBlock := n }) (n : ℕ) (bs : List Block) :
    (∀ b ∈ bs, P b) → ∀ b ∈ setLastNext n bs, P b := by
  induction bs with
  | nil => intro h; exact h
  | cons b bs ih =>
    intro h
    cases bs with
    | nil =>
      intro x hx
      simp only [setLastNext, List.mem_singleton] at hx
      subst hx
      exact hP b _ (h b (by simp))
    | cons c bs =>
      intro x hx
      rw [setLastNext] at hx
      rcases List.mem_cons.mp hx with rfl | hx
      · exact h _ (by simp)
      · exact ih (fun y hy => h y (by simp [hy])) x hx
      · intro hn; cases hn

/-- A block that can be moved. -/
def mv_BlockOk (N : ℕ) (dx dy : ℚ) (b : Block) : Prop := Movable dx dy b.pos ∧ ∀ i ∈ b.lines, i < N

theorem mv_createTextBlock (h : mv_Docs N dx dy D D') (o : HashOrder) {s : TextBlocks.State} (hs : mv_Linked N s) {is : List ℕ} (hi : ∀ i ∈ is, i < N)
    {bs : List Block} (hbs : ∀ b ∈ bs, mv_BlockOk N dx dy b) :
    createTextBlock o D' s is (bs.map (moveBlock dx dy)) = mapOk (fun r => (r.1, r.2.map (moveBlock dx dy))) (createTextBlock o D s is bs) ∧
    ∀ r, createTextBlock o D s is bs = .ok r → mv_Linked N r.1 ∧ ∀ b ∈ r.2, mv_BlockOk N dx dy b := by
  cases is with
  | nil => exact ⟨rfl, fun r hr => by cases hr⟩
  | cons i is =>
    have hfirst := hi i (by simp)
    have el : (i :: is).map D'.line = ((i :: is).map D.line).map (moveLine dx dy) := by
      rw [List.map_map]
      exact List.map_congr_left fun j hj => h.line j (hi j hj)
    have hm : ∀ e ∈ ((i :: is).map D.line).map (fun l => normBox l.pos), Movable dx dy e := by
      intro e he
      obtain ⟨l, hl, rfl⟩ := List.mem_map.mp he
      obtain ⟨j, hj, rfl⟩ := List.mem_map.mp hl
      exact mv_movable_norm (h.movable j (hi j hj))
    have hne : ((i :: is).map D.line).map (fun l => normBox l.pos) ≠ [] := by simp
    have ebox : (((i :: is).map D.line).map (moveLine dx dy)).map (fun l => normBox l.pos) =
        (((i :: is).map D.line).map (fun l => normBox l.pos)).map (moveBox dx dy) := by
      simp only [List.map_map]
      apply List.map_congr_left
      intro l _
      exact mv_normBox dx dy _
    have efresh : mv_Fresh { pageNum := (D.line i).pos.pageNum, wMode := (D.line i).pos.wMode, rotation := (D.line i).pos.rotation } :=
      ⟨rfl, rfl, rfl, rfl⟩
    have epos := mv_extendAll efresh hne hm
    have hpos := mv_movable_extendAll efresh hne hm
    have e1 : (D'.line i).pos.pageNum = (D.line i).pos.pageNum := by rw [h.line i hfirst]; rfl
    have e2 : (D'.line i).pos.wMode = (D.line i).pos.wMode := by rw [h.line i hfirst]; rfl
    have e3 : (D'.line i).pos.rotation = (D.line i).pos.rotation := by rw [h.line i hfirst]; rfl
    have en : (((i :: is).map D.line).map (moveLine dx dy)).map (fun x => x.fontName) = ((i :: is).map D.line).map (fun x => x.fontName) := by
      rw [List.map_map]; rfl
    have ez : (((i :: is).map D.line).map (moveLine dx dy)).map (fun x => x.fontSize) = ((i :: is).map D.line).map (fun x => x.fontSize) := by
      rw [List.map_map]; rfl
    unfold createTextBlock
    simp only
    rw [el, ebox, e1, e2, e3, epos, en, ez, h.seg i hfirst, mv_blockText, mv_linesCentered h]
    simp only [mv_emphasized h, List.length_map]
    generalize hP : Box.extendAll { pageNum := (D.line i).pos.pageNum, wMode := (D.line i).pos.wMode, rotation := (D.line i).pos.rotation }
      (((i :: is).map D.line).map (fun l => normBox l.pos)) = P at hpos ⊢
    have t1 : maximum (moveBox dx dy P).leftX (moveSeg dx dy (D.seg i)).trimLeftX = maximum P.leftX (D.seg i).trimLeftX + dx := mv_maximum _ _ _
    have t2 : maximum (moveBox dx dy P).upperY (moveSeg dx dy (D.seg i)).trimUpperY = maximum P.upperY (D.seg i).trimUpperY + dy := mv_maximum _ _ _
    have t3 : minimum (moveBox dx dy P).rightX (moveSeg dx dy (D.seg i)).trimRightX = minimum P.rightX (D.seg i).trimRightX + dx := mv_minimum _ _ _
    have t4 : minimum (moveBox dx dy P).lowerY (moveSeg dx dy (D.seg i)).trimLowerY = minimum P.lowerY (D.seg i).trimLowerY + dy := mv_minimum _ _ _
    rw [t1, t2, t3, t4]
    cases mostFreqOr o [] [] (((i :: is).map D.line).map (fun x => x.fontName)) with
    | throw m => exact ⟨rfl, fun r hr => by cases hr⟩
    | ub m => exact ⟨rfl, fun r hr => by cases hr⟩
    | ok fn =>
    cases mostFreqOr o 0 (-1) (((i :: is).map D.line).map (fun x => x.fontSize)) with
    | throw m => exact ⟨rfl, fun r hr => by cases hr⟩
    | ub m => exact ⟨rfl, fun r hr => by cases hr⟩
    | ok fz =>
    simp only [Outcome.bind]
    generalize hB : ({ lines := i :: is, pos := P, rank := bs.length, fontName := fn, fontSize := fz, text := blockText ((i :: is).map D.line), trimLeftX := maximum P.leftX (D.seg i).trimLeftX, trimUpperY := maximum P.upperY (D.seg i).trimUpperY, trimRightX := minimum P.rightX (D.seg i).trimRightX, trimLowerY := minimum P.lowerY (D.seg i).trimLowerY, prevBlock := if bs.length > 0 then some (bs.length - 1) else none, isEmphasized := computeIsEmphasized D fn fz (blockText ((i :: is).map D.line)), isLinesCentered := computeIsTextLinesCentered D ((i :: is).map D.line) } : Block) = B
    have hB' : ({ lines := i :: is, pos := moveBox dx dy P, rank := bs.length, fontName := fn, fontSize := fz, text := blockText ((i :: is).map D.line), trimLeftX := maximum P.leftX (D.seg i).trimLeftX + dx, trimUpperY := maximum P.upperY (D.seg i).trimUpperY + dy, trimRightX := minimum P.rightX (D.seg i).trimRightX + dx, trimLowerY := minimum P.lowerY (D.seg i).trimLowerY + dy, prevBlock := if bs.length > 0 then some (bs.length - 1) else none, isEmphasized := computeIsEmphasized D fn fz (blockText ((i :: is).map D.line)), isLinesCentered := computeIsTextLinesCentered D ((i :: is).map D.line) } : Block) = moveBlock dx dy B := by
      rw [← hB]; rfl
    rw [hB']
    have hBpos : B.pos = P := by rw [← hB]
    have hBlines : B.lines = i :: is := by rw [← hB]
    have hBt : maximum P.leftX (D.seg i).trimLeftX = B.trimLeftX := by rw [← hB]
    rw [hBt, List.getLast?_map, mv_marginRightX h, mv_margins h _ _ _ _ hi, mv_hangingIndent h o _ _ hi]
    have hlink := mv_linked_link (i :: is) hi none s (fun _ hx => by cases hx) hs
    cases hh : computeHangingIndent o D (computeTextLineMargins D (linkBlock none (i :: is) s) B.trimLeftX (marginRightX D (D.seg i) B bs.getLast?) (i :: is)) (i :: is) with
    | throw m => exact ⟨rfl, fun r hr => by cases hr⟩
    | ub m => exact ⟨rfl, fun r hr => by cases hr⟩
    | ok hi' =>
      refine ⟨?_, ?_⟩
      · simp only [mapOk, Outcome.bind, mv_setLastNext, List.map_append, List.map_cons, List.map_nil]
        rfl
      · intro r hr
        simp only [Outcome.bind, Outcome.ok.injEq] at hr
        subst hr
        refine ⟨hlink, ?_⟩
        intro b hb
        rcases List.mem_append.mp hb with hb | hb
        · exact mv_setLastNext_mem (P := mv_BlockOk N dx dy) (fun b n hb => ⟨hb.1, hb.2⟩) _ bs hbs b hb
        · simp only [List.mem_singleton] at hb
          subst hb
          refine ⟨?_, ?_⟩
          · simp only [hBpos]; exact hpos
          · simp only [hBlines]; exact hi

theorem mv_blockLoop (h : mv_Docs N dx dy D D') (o : HashOrder) {pre pre' : TextBlocks.State → ℕ → TextBlocks.State} {st st' : TextBlocks.State → ℕ → Bool}
    (hpre : ∀ s i, i < N → pre' s i = pre s i ∧ (pre s i).prevLine = s.prevLine)
    (hst : ∀ s i, i < N → mv_Linked N s → st' s i = st s i) (ls : List ℕ) : (∀ i ∈ ls, i < N) →
    ∀ (cur : List ℕ) (s : TextBlocks.State) (bs : List Block), (∀ i ∈ cur, i < N) → mv_Linked N s → (∀ b ∈ bs, mv_BlockOk N dx dy b) →
    blockLoop o D' pre' st' ls cur s (bs.map (moveBlock dx dy)) = mapOk (fun r => (r.1, r.2.map (moveBlock dx dy))) (blockLoop o D pre st ls cur s bs) ∧
    ∀ r, blockLoop o D pre st ls cur s bs = .ok r → mv_Linked N r.1 ∧ ∀ b ∈ r.2, mv_BlockOk N dx dy b := by
  induction ls with
  | nil =>
    intro _ cur s bs hc hs hbs
    simp only [blockLoop]
    by_cases he : cur.isEmpty = true
    · rw [if_pos he, if_pos he]
      refine ⟨rfl, ?_⟩
      intro r hr
      simp only [Outcome.ok.injEq] at hr
      subst hr
      exact ⟨hs, hbs⟩
    · rw [if_neg he, if_neg he]
      exact mv_createTextBlock h o hs hc hbs
  | cons l ls ih =>
    intro hl cur s bs hc hs hbs
    have hlN := hl l (by simp)
    obtain ⟨p1, p2⟩ := hpre s l hlN
    have hs' : mv_Linked N (pre s l) := by unfold mv_Linked; rw [p2]; exact hs
    rw [blockLoop, blockLoop, p1, hst _ _ hlN hs']
    by_cases hx : (st (pre s l) l && !cur.isEmpty) = true
    · rw [if_pos hx, if_pos hx]
      obtain ⟨c1, c2⟩ := mv_createTextBlock h o hs' hc hbs
      rw [c1]
      cases hr : createTextBlock o D (pre s l) cur bs with
      | throw m => exact ⟨rfl, fun r hr => by cases hr⟩
      | ub m => exact ⟨rfl, fun r hr => by cases hr⟩
      | ok r =>
        simp only [mapOk, Outcome.bind]
        obtain ⟨k1, k2⟩ := c2 r hr
        exact ih (fun i hi => hl i (by simp [hi])) [l] r.1 r.2 (fun i hi => by simp only [List.mem_singleton] at hi; subst hi; exact hlN) k1 k2
    · rw [if_neg hx, if_neg hx]
      refine ih (fun i hi => hl i (by simp [hi])) (cur ++ [l]) (pre s l) bs ?_ hs' hbs
      intro i hi
      rcases List.mem_append.mp hi with hi | hi
      · exact hc i hi
      · simp only [List.mem_singleton] at hi; subst hi; exact hlN

theorem mv_preliminary (h : mv_Docs N dx dy D D') (o : HashOrder) {s : TextBlocks.State} (hs : mv_Linked N s) {ls : List ℕ} (hl : ∀ i ∈ ls, i < N) :
    preliminaryBlocks o D' s ls = mapOk (fun r => (r.1, r.2.map (moveBlock dx dy))) (preliminaryBlocks o D s ls) ∧
    ∀ r, preliminaryBlocks o D s ls = .ok r → mv_Linked N r.1 ∧ ∀ b ∈ r.2, mv_BlockOk N dx dy b :=
  mv_blockLoop h o (fun _ _ _ => ⟨rfl, rfl⟩) (fun _ _ hi hs => mv_startsPreliminary h hs hi) ls hl [] s [] (by simp) hs (by simp)

theorem mv_splitBlock (h : mv_Docs N dx dy D D') (o : HashOrder) {s : TextBlocks.State} (hs : mv_Linked N s) {b : Block} (hb : mv_BlockOk N dx dy b)
    {bs : List Block} (hbs : ∀ b ∈ bs, mv_BlockOk N dx dy b) :
    splitBlock o D' s (moveBlock dx dy b) (bs.map (moveBlock dx dy)) = mapOk (fun r => (r.1, r.2.map (moveBlock dx dy))) (splitBlock o D s b bs) ∧
    ∀ r, splitBlock o D s b bs = .ok r → mv_Linked N r.1 ∧ ∀ b ∈ r.2, mv_BlockOk N dx dy b := by
  refine mv_blockLoop h o (pre := fun s i => { s with labels := computePotentialFootnoteLabels (D.line i).words s.labels })
    (pre' := fun s i => { s with labels := computePotentialFootnoteLabels (D'.line i).words s.labels }) (fun s i _ => ⟨?_, rfl⟩)
    (fun _ _ hi hs => mv_startsBlock h b.isLinesCentered b.hangingIndent hs hi) b.lines hb.2 [] s bs (by simp) hs hbs
  simp only [mv_words_cases h, mv_labels]

theorem mv_pass1Page (h : mv_Docs N dx dy D D') (o : HashOrder) (segs : List (List ℕ)) : (∀ g ∈ segs, ∀ i ∈ g, i < N) → ∀ s : TextBlocks.State, mv_Linked N s →
    pass1Page o D' segs s = mapOk (fun r => (r.1, r.2.map (List.map (moveBlock dx dy)))) (pass1Page o D segs s) ∧
    ∀ r, pass1Page o D segs s = .ok r → mv_Linked N r.1 ∧ ∀ g ∈ r.2, ∀ b ∈ g, mv_BlockOk N dx dy b := by
  induction segs with
  | nil =>
    intro _ s hs
    refine ⟨rfl, ?_⟩
    intro r hr
    simp only [pass1Page, Outcome.ok.injEq] at hr
    subst hr
    exact ⟨hs, by simp⟩
  | cons g gs ih =>
    intro hg s hs
    obtain ⟨p1, p2⟩ := mv_preliminary h o hs (hg g (by simp))
    rw [pass1Page, pass1Page, p1]
    cases hr : preliminaryBlocks o D s g with
    | throw m => exact ⟨rfl, fun r hr => by cases hr⟩
    | ub m => exact ⟨rfl, fun r hr => by cases hr⟩
    | ok r =>
      obtain ⟨k1, k2⟩ := p2 r hr
      obtain ⟨i1, i2⟩ := ih (fun x hx => hg x (by simp [hx])) r.1 k1
      simp only [mapOk, Outcome.bind]
      rw [i1]
      cases hr' : pass1Page o D gs r.1 with
      | throw m => exact ⟨rfl, fun r hr => by cases hr⟩
      | ub m => exact ⟨rfl, fun r hr => by cases hr⟩
      | ok r' =>
        obtain ⟨j1, j2⟩ := i2 r' hr'
        refine ⟨rfl, ?_⟩
        intro x hx
        simp only [Outcome.ok.injEq] at hx
        subst hx
        refine ⟨j1, ?_⟩
        intro y hy
        rcases List.mem_cons.mp hy with rfl | hy
        · exact k2
        · exact j2 y hy

theorem mv_pass1 (h : mv_Docs N dx dy D D') (o : HashOrder) (ps : List (List (List ℕ))) : (∀ p ∈ ps, ∀ g ∈ p, ∀ i ∈ g, i < N) →
    ∀ s : TextBlocks.State, mv_Linked N s →
    pass1 o D' ps s = mapOk (fun r => (r.1, r.2.map (List.map (List.map (moveBlock dx dy))))) (pass1 o D ps s) ∧
    ∀ r, pass1 o D ps s = .ok r → mv_Linked N r.1 ∧ ∀ p ∈ r.2, ∀ g ∈ p, ∀ b ∈ g, mv_BlockOk N dx dy b := by
  induction ps with
  | nil =>
    intro _ s hs
    refine ⟨rfl, ?_⟩
    intro r hr
    simp only [pass1, Outcome.ok.injEq] at hr
    subst hr
    exact ⟨hs, by simp⟩
  | cons p ps ih =>
    intro hg s hs
    obtain ⟨p1, p2⟩ := mv_pass1Page h o p (hg p (by simp)) s hs
    rw [pass1, pass1, p1]
    cases hr : pass1Page o D p s with
    | throw m => exact ⟨rfl, fun r hr => by cases hr⟩
    | ub m => exact ⟨rfl, fun r hr => by cases hr⟩
    | ok r =>
      obtain ⟨k1, k2⟩ := p2 r hr
      obtain ⟨i1, i2⟩ := ih (fun x hx => hg x (by simp [hx])) r.1 k1
      simp only [mapOk, Outcome.bind]
      rw [i1]
      cases hr' : pass1 o D ps r.1 with
      | throw m => exact ⟨rfl, fun r hr => by cases hr⟩
      | ub m => exact ⟨rfl, fun r hr => by cases hr⟩
      | ok r' =>
        obtain ⟨j1, j2⟩ := i2 r' hr'
        refine ⟨rfl, ?_⟩
        intro x hx
        simp only [Outcome.ok.injEq] at hx
        subst hx
        refine ⟨j1, ?_⟩
        intro y hy
        rcases List.mem_cons.mp hy with rfl | hy
        · exact k2
        · exact j2 y hy

theorem mv_pass2Page (h : mv_Docs N dx dy D D') (o : HashOrder) (bs : List Block) : (∀ b ∈ bs, mv_BlockOk N dx dy b) → ∀ (s : TextBlocks.State) (acc : List Block),
    mv_Linked N s → (∀ b ∈ acc, mv_BlockOk N dx dy b) →
    pass2Page o D' (bs.map (moveBlock dx dy)) s (acc.map (moveBlock dx dy)) = mapOk (fun r => (r.1, r.2.map (moveBlock dx dy))) (pass2Page o D bs s acc) ∧
    ∀ r, pass2Page o D bs s acc = .ok r → mv_Linked N r.1 ∧ ∀ b ∈ r.2, mv_BlockOk N dx dy b := by
  induction bs with
  | nil =>
    intro _ s acc hs ha
    refine ⟨rfl, ?_⟩
    intro r hr
    simp only [pass2Page, Outcome.ok.injEq] at hr
    subst hr
    exact ⟨hs, ha⟩
  | cons b bs ih =>
    intro hb s acc hs ha
    obtain ⟨p1, p2⟩ := mv_splitBlock h o hs (hb b (by simp)) ha
    rw [List.map_cons, pass2Page, pass2Page, p1]
    cases hr : splitBlock o D s b acc with
    | throw m => exact ⟨rfl, fun r hr => by cases hr⟩
    | ub m => exact ⟨rfl, fun r hr => by cases hr⟩
    | ok r =>
      obtain ⟨k1, k2⟩ := p2 r hr
      simp only [mapOk, Outcome.bind]
      exact ih (fun x hx => hb x (by simp [hx])) r.1 r.2 k1 k2

theorem mv_pass2 (h : mv_Docs N dx dy D D') (o : HashOrder) (ps : List (List (List Block))) : (∀ p ∈ ps, ∀ g ∈ p, ∀ b ∈ g, mv_BlockOk N dx dy b) →
    ∀ s : TextBlocks.State, mv_Linked N s →
    pass2 o D' (ps.map (List.map (List.map (moveBlock dx dy)))) s = mapOk (fun r => (r.1, r.2.map (List.map (moveBlock dx dy)))) (pass2 o D ps s) ∧
    ∀ r, pass2 o D ps s = .ok r → ∀ p ∈ r.2, ∀ b ∈ p, mv_BlockOk N dx dy b := by
  induction ps with
  | nil =>
    intro _ s hs
    refine ⟨rfl, ?_⟩
    intro r hr
    simp only [pass2, Outcome.ok.injEq] at hr
    subst hr
    simp
  | cons p ps ih =>
    intro hb s hs
    obtain ⟨p1, p2⟩ := mv_pass2Page h o p.flatten (by
      intro b hbm
      obtain ⟨g, hg, hbg⟩ := List.mem_flatten.mp hbm
      exact hb p (by simp) g hg b hbg) s [] hs (by simp)
    rw [List.map_cons, pass2, pass2, ← List.map_flatten]
    rw [List.map_nil] at p1
    rw [p1]
    cases hr : pass2Page o D p.flatten s [] with
    | throw m => exact ⟨rfl, fun r hr => by cases hr⟩
    | ub m => exact ⟨rfl, fun r hr => by cases hr⟩
    | ok r =>
      obtain ⟨k1, k2⟩ := p2 r hr
      obtain ⟨i1, i2⟩ := ih (fun x hx => hb x (by simp [hx])) r.1 k1
      simp only [mapOk, Outcome.bind]
      rw [i1]
      cases hr' : pass2 o D ps r.1 with
      | throw m => exact ⟨rfl, fun r hr => by cases hr⟩
      | ub m => exact ⟨rfl, fun r hr => by cases hr⟩
      | ok r' =>
        have j2 := i2 r' hr'
        refine ⟨rfl, ?_⟩
        intro x hx
        simp only [Outcome.ok.injEq] at hx
        subst hx
        intro y hy
        rcases List.mem_cons.mp hy with rfl | hy
        · exact k2
        · exact j2 y hy

theorem mv_process (h : mv_Docs N dx dy D D') (o : HashOrder) {ps : List (List (List ℕ))} (hp : ∀ p ∈ ps, ∀ g ∈ p, ∀ i ∈ g, i < N)
    {s : TextBlocks.State} (hs : mv_Linked N s) :
    TextBlocks.process o D' s ps = mapOk (fun r => (r.1, r.2.map (List.map (moveBlock dx dy)))) (TextBlocks.process o D s ps) ∧
    ∀ r, TextBlocks.process o D s ps = .ok r → ∀ p ∈ r.2, ∀ b ∈ p, mv_BlockOk N dx dy b := by
  obtain ⟨p1, p2⟩ := mv_pass1 h o ps hp s hs
  unfold TextBlocks.process
  rw [p1]
  cases hr : pass1 o D ps s with
  | throw m => exact ⟨rfl, fun r hr => by cases hr⟩
  | ub m => exact ⟨rfl, fun r hr => by cases hr⟩
  | ok r =>
    obtain ⟨k1, k2⟩ := p2 r hr
    simp only [mapOk, Outcome.bind]
    exact mv_pass2 h o r.2 k2 r.1 k1

end

end Verif.Props

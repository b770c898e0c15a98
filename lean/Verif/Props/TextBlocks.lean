import Verif.Model.TextBlocks
import Verif.Props.LineHierarchy
import Verif.Props.TextLines
import Verif.Props.BlockShape

/-!
# Text block detection: C30, C31, C32
-/

namespace Verif.Props

open Verif.Math Verif.Elements Verif.Spec Verif.Words Verif.TextLines Verif.TextBlocks Verif.Counter

/-! ## createTextBlock -/

/-- The two states agree on all lines outside of `t`. -/
structure AgreeOff (t : List ℕ) (s s' : State) : Prop where
  prev : ∀ i, i ∉ t → s'.prevLine i = s.prevLine i
  next : ∀ i, i ∉ t → s'.nextLine i = s.nextLine i
  left : ∀ i, i ∉ t → s'.leftMargin i = s.leftMargin i
  right : ∀ i, i ∉ t → s'.rightMargin i = s.rightMargin i

theorem AgreeOff.refl (t : List ℕ) (s : State) : AgreeOff t s s :=
  ⟨fun _ _ => rfl, fun _ _ => rfl, fun _ _ => rfl, fun _ _ => rfl⟩

theorem AgreeOff.trans {t t' u : List ℕ} {s s' s'' : State} (h : AgreeOff t s s')
    (h' : AgreeOff t' s' s'') (hu : ∀ i, i ∉ u → i ∉ t ∧ i ∉ t') : AgreeOff u s s'' where
  prev i hi := by rw [h'.prev i (hu i hi).2, h.prev i (hu i hi).1]
  next i hi := by rw [h'.next i (hu i hi).2, h.next i (hu i hi).1]
  left i hi := by rw [h'.left i (hu i hi).2, h.left i (hu i hi).1]
  right i hi := by rw [h'.right i (hu i hi).2, h.right i (hu i hi).1]

theorem AgreeOff.mono {t u : List ℕ} {s s' : State} (h : AgreeOff t s s') (hu : ∀ i ∈ t, i ∈ u) :
    AgreeOff u s s' :=
  h.trans (AgreeOff.refl t s') fun i hi => ⟨fun h => hi (hu i h), fun h => hi (hu i h)⟩

/-- Inside the list `g` the lines are linked with their neighbours. -/
def LinkedIn (s : State) (g : List ℕ) : Prop :=
  ∀ a c b, g = a ++ c :: b → s.prevLine c = a.getLast? ∧ s.nextLine c = b.head?

theorem LinkedIn.of_agree {t : List ℕ} {s s' : State} {g : List ℕ} (h : LinkedIn s g)
    (ha : AgreeOff t s s') (hd : ∀ i ∈ g, i ∉ t) : LinkedIn s' g := by
  intro a c b hg
  have hc : c ∈ g := by rw [hg]; simp
  rw [ha.prev c (hd c hc), ha.next c (hd c hc)]
  exact h a c b hg

theorem linkBlock_agree (g : List ℕ) : ∀ (prev : Option ℕ) (s : State),
    AgreeOff g s (linkBlock prev g s) ∧ (linkBlock prev g s).labels = s.labels ∧
    (linkBlock prev g s).leftMargin = s.leftMargin ∧
    (linkBlock prev g s).rightMargin = s.rightMargin := by
  induction g with
  | nil => intro prev s; exact ⟨AgreeOff.refl _ _, rfl, rfl, rfl⟩
  | cons l ls ih =>
    intro prev s
    obtain ⟨h1, h2, h3, h4⟩ := ih (some l)
      { s with prevLine := Function.update s.prevLine l prev
               nextLine := Function.update s.nextLine l ls.head? }
    refine ⟨?_, h2, h3, h4⟩
    refine AgreeOff.trans (t := [l]) (t' := ls) ?_ h1 ?_
    · constructor <;> intro i hi <;> simp at hi <;> simp [hi]
    · intro i hi; simpa using hi

theorem linkBlock_links (g : List ℕ) : ∀ (prev : Option ℕ) (s : State), g.Nodup →
    ∀ a c b, g = a ++ c :: b →
      (linkBlock prev g s).prevLine c = (a.getLast?).or prev ∧
      (linkBlock prev g s).nextLine c = b.head? := by
  induction g with
  | nil => intro prev s _ a c b h; simp at h
  | cons l ls ih =>
    intro prev s hn a c b hg
    rw [linkBlock]
    have hl : l ∉ ls := (List.nodup_cons.mp hn).1
    cases a with
    | nil =>
      simp only [List.nil_append, List.cons.injEq] at hg
      obtain ⟨rfl, rfl⟩ := hg
      obtain ⟨h1, _⟩ := linkBlock_agree ls (some l)
        { s with prevLine := Function.update s.prevLine l prev
                 nextLine := Function.update s.nextLine l ls.head? }
      rw [h1.prev l hl, h1.next l hl]
      simp
    | cons x a =>
      simp only [List.cons_append, List.cons.injEq] at hg
      obtain ⟨rfl, hg⟩ := hg
      obtain ⟨h1, h2⟩ := ih (some l)
        { s with prevLine := Function.update s.prevLine l prev
                 nextLine := Function.update s.nextLine l ls.head? } (List.nodup_cons.mp hn).2 a c b hg
      rw [h1, h2]
      refine ⟨?_, rfl⟩
      cases a with
      | nil => rfl
      | cons y a =>
        rw [List.getLast?_cons_cons]
        rcases hh : (y :: a).getLast? with _ | z
        · simp at hh
        · rfl

theorem setLastNext_length (n : ℕ) (bs : List Block) : (setLastNext n bs).length = bs.length := by
  induction bs with
  | nil => rfl
  | cons b bs ih => cases bs with
    | nil => rfl
    | cons b' bs => simpa [setLastNext] using ih

theorem setLastNext_getElem (n : ℕ) (bs : List Block) (k : ℕ) : (setLastNext n bs)[k]? =
    bs[k]?.map fun b => if k + 1 = bs.length then { b with nextBlock := some n } else b := by
  induction bs generalizing k with
  | nil => simp [setLastNext]
  | cons b bs ih => cases bs with
    | nil => cases k <;> simp [setLastNext]
    | cons b' bs =>
      cases k with
      | zero => simp [setLastNext]
      | succ k => simpa [setLastNext] using ih k

theorem setLastNext_map {α : Type} (f : Block → α) (hf : ∀ b n, f { b with nextBlock := n } = f b)
    (n : ℕ) (bs : List Block) : (setLastNext n bs).map f = bs.map f := by
  apply List.ext_getElem?
  intro k
  rw [List.getElem?_map, setLastNext_getElem, List.getElem?_map]
  cases bs[k]? with
  | none => rfl
  | some b =>
    simp only [Option.map_some, Option.some.injEq]
    split
    · exact hf _ _
    · rfl

/-- The blocks are numbered from 0 on and each is linked with its predecessor and successor. -/
def BlocksLinked (bs : List Block) : Prop :=
  ∀ k b, bs[k]? = some b → b.rank = k ∧
    b.prevBlock = (if k = 0 then none else some (k - 1)) ∧
    b.nextBlock = (if k + 1 < bs.length then some (k + 1) else none)

/-- What is true of every created block, whatever the other blocks are: its text, box and flags. -/
structure Made (d : Doc) (b : Block) : Prop where
  nonempty : b.lines ≠ []
  text : b.text = blockText (b.lines.map d.line)
  box : ∀ f, b.lines.head? = some f → b.pos = Box.extendAll
      { pageNum := (d.line f).pos.pageNum, wMode := (d.line f).pos.wMode,
        rotation := (d.line f).pos.rotation } ((b.lines.map d.line).map fun l => normBox l.pos)
  font : b.lines.length < 2 ^ 32 →
      IsMostFrequent ((b.lines.map d.line).map (·.fontName)) b.fontName ∧
      IsMostFrequent ((b.lines.map d.line).map (·.fontSize)) b.fontSize
  trim : ∀ f, b.lines.head? = some f →
      b.trimLeftX = max b.pos.leftX (d.seg f).trimLeftX ∧
      b.trimUpperY = max b.pos.upperY (d.seg f).trimUpperY ∧
      b.trimRightX = min b.pos.rightX (d.seg f).trimRightX ∧
      b.trimLowerY = min b.pos.lowerY (d.seg f).trimLowerY
  centered : b.isLinesCentered = computeIsTextLinesCentered d (b.lines.map d.line)
  emphasized : b.isEmphasized = computeIsEmphasized d b.fontName b.fontSize b.text

theorem Made.setNext {d : Doc} {b : Block} (h : Made d b) (n : Option ℕ) :
    Made d { b with nextBlock := n } :=
  ⟨h.nonempty, h.text, h.box, h.font, h.trim, h.centered, h.emphasized⟩

open Classical in
theorem rightEdge_keeps {d : Doc} {bs bs' : List Block} {b : Block} (n : Option ℕ)
    (hk : ∀ k x, b.prevBlock = some k → bs[k]? = some x → ∃ y, bs'[k]? = some y ∧ y.trimRightX = x.trimRightX)
    (hb : ∀ k, b.prevBlock = some k → k < bs.length) :
    rightEdge d bs' { b with nextBlock := n } = rightEdge d bs b := by
  unfold rightEdge
  show (if b.lines.length = 2 ∧ ¬ MidSegment d b then
    ((b.prevBlock.bind (bs'[·]?)).map fun p => max b.trimRightX p.trimRightX).getD b.trimRightX
    else b.trimRightX) = _
  by_cases hc : b.lines.length = 2 ∧ ¬ MidSegment d b
  · rw [if_pos hc, if_pos hc]
    cases hp : b.prevBlock with
    | none => rfl
    | some k =>
      have hlt := hb k hp
      obtain ⟨y, hy, hyt⟩ := hk k bs[k] hp (List.getElem?_eq_getElem hlt)
      simp only [Option.bind_some, hy, List.getElem?_eq_getElem hlt, Option.map_some, hyt]
  · rw [if_neg hc, if_neg hc]

/-- What block detection knows about the margins of block `b` of the list `bs`: the left margins of
its lines are measured from the left edge of its trim box, the right margins from `rightEdge`, and
its hanging indent is the one that these margins determine. -/
structure Margins (d : Doc) (s : State) (bs : List Block) (b : Block) : Prop where
  left : ∀ i ∈ b.lines, s.leftMargin i = (d.line i).pos.leftX - b.trimLeftX
  right : ∀ i ∈ b.lines, s.rightMargin i = rightEdge d bs b - (d.line i).pos.rightX
  hanging : b.lines.length < 2 ^ 32 → HangingIndentIs d (fun i => (d.line i).pos.leftX - b.trimLeftX)
    (fun i => rightEdge d bs b - (d.line i).pos.rightX) b.lines b.hangingIndent

theorem Margins.of_agree {d : Doc} {s s' : State} {bs : List Block} {b : Block} {t : List ℕ}
    (h : Margins d s bs b)
    (ha : AgreeOff t s s') (hd : ∀ i ∈ b.lines, i ∉ t) : Margins d s' bs b where
  left i hi := by rw [ha.left i (hd i hi)]; exact h.left i hi
  right i hi := by rw [ha.right i (hd i hi)]; exact h.right i hi
  hanging := h.hanging

theorem Margins.of_edge {d : Doc} {s : State} {bs bs' : List Block} {b b' : Block}
    (h : Margins d s bs b) (he : rightEdge d bs' b' = rightEdge d bs b) (hl : b'.lines = b.lines)
    (ht : b'.trimLeftX = b.trimLeftX) (hh : b'.hangingIndent = b.hangingIndent) :
    Margins d s bs' b' where
  left i hi := by rw [ht]; exact h.left i (by rw [← hl]; exact hi)
  right i hi := by rw [he]; exact h.right i (by rw [← hl]; exact hi)
  hanging := by rw [hl, ht, he, hh]; exact h.hanging

/-- Everything about `createTextBlock`. -/
theorem createTextBlock_spec (h : HashOrder) (d : Doc) (s : State) (lines : List ℕ)
    (bs : List Block) (hne : lines ≠ []) (hl : BlocksLinked bs) :
    ∃ s' b, createTextBlock h d s lines bs = .ok (s', setLastNext bs.length bs ++ [b]) ∧
      b.lines = lines ∧ Made d b ∧ BlocksLinked (setLastNext bs.length bs ++ [b]) ∧
      AgreeOff lines s s' ∧ s'.labels = s.labels ∧ (lines.Nodup → LinkedIn s' lines) ∧
      (lines.Nodup → Margins d s' (setLastNext bs.length bs ++ [b]) b) := by
  cases lines with
  | nil => exact absurd rfl hne
  | cons f rest =>
    obtain ⟨fn, hfn, hfn'⟩ := mostFreqOr_spec h ([] : Verif.Text.Str) []
      (((f :: rest).map d.line).map (·.fontName))
    obtain ⟨fs, hfs, hfs'⟩ := mostFreqOr_spec h (0 : ℚ) (-1)
      (((f :: rest).map d.line).map (·.fontSize))
    unfold createTextBlock
    simp only
    rw [hfn]
    simp only [Outcome.bind]
    rw [hfs]
    simp only []
    generalize hb : ({
      lines := f :: rest, pos := _, rank := bs.length, fontName := fn, fontSize := fs,
      text := _, trimLeftX := _, trimUpperY := _, trimRightX := _, trimLowerY := _,
      prevBlock := _, isEmphasized := _, isLinesCentered := _ } : Block) = b
    obtain ⟨hi, hhi⟩ := bs_hanging_ok h d (computeTextLineMargins d
      (linkBlock none (f :: rest) s) b.trimLeftX
      (marginRightX d (d.seg f) b bs.getLast?) (f :: rest)) (f :: rest)
    have hbt : b.trimLeftX = maximum (Box.extendAll
      { pageNum := (d.line f).pos.pageNum, wMode := (d.line f).pos.wMode,
        rotation := (d.line f).pos.rotation } (((f :: rest).map d.line).map fun l => normBox l.pos)).leftX
        (d.seg f).trimLeftX := by rw [← hb]
    rw [← hbt, hhi]
    obtain ⟨a1, a2, a3, a4⟩ := linkBlock_agree (f :: rest) none s
    refine ⟨computeTextLineMargins d (linkBlock none (f :: rest) s) b.trimLeftX
      (marginRightX d (d.seg f) b bs.getLast?) (f :: rest),
      { b with hangingIndent := hi }, by subst hb; rfl, ?_, ?_, ?_, ?_, ?_, ?_, ?_⟩
    · rw [← hb]
    · subst hb
      refine ⟨by simp, rfl, ?_, ?_, ?_, rfl, rfl⟩
      · intro g hg
        simp only [List.head?_cons, Option.some.injEq] at hg
        subst hg; rfl
      · intro hlt
        simp only [List.length_cons] at hlt
        exact ⟨hfn' (by simp) (by simpa using hlt), hfs' (by simp) (by simpa using hlt)⟩
      · intro g hg
        simp only [List.head?_cons, Option.some.injEq] at hg
        subst hg
        simp only [maximum_eq_max, minimum_eq_min, and_self]
    · intro k x hx
      rw [List.getElem?_append] at hx
      rw [List.length_append, setLastNext_length, List.length_singleton]
      split at hx
      · next hk =>
        rw [setLastNext_length] at hk
        rw [setLastNext_getElem] at hx
        cases hbk : bs[k]? with
        | none => rw [hbk] at hx; cases hx
        | some y =>
          rw [hbk] at hx
          simp only [Option.map_some, Option.some.injEq] at hx
          obtain ⟨g1, g2, g3⟩ := hl k y hbk
          split at hx
          · next hlast =>
            subst hx
            refine ⟨g1, g2, ?_⟩
            simp only
            rw [if_pos (by omega), hlast]
          · next hlast =>
            subst hx
            refine ⟨g1, g2, ?_⟩
            rw [g3, if_pos (by omega), if_pos (by omega)]
      · next hk =>
        rw [setLastNext_length] at hk hx
        have hk0 : k - bs.length = 0 := by
          by_contra hc
          rw [List.getElem?_eq_none (by simp; omega)] at hx
          cases hx
        rw [hk0] at hx
        simp only [List.getElem?_cons_zero, Option.some.injEq] at hx
        subst hx
        have hkk : k = bs.length := by omega
        subst hb
        subst hkk
        refine ⟨rfl, ?_, ?_⟩
        · simp only
          by_cases h0 : bs.length = 0
          · simp [h0]
          · rw [if_pos (by omega), if_neg h0]
        · simp
    · refine AgreeOff.trans a1 (t' := f :: rest) ?_ fun i hi => ⟨hi, hi⟩
      constructor <;> intro i hi <;> simp [computeTextLineMargins]
      · intro hh; rcases hh with rfl | hh <;> simp_all
      · intro hh; rcases hh with rfl | hh <;> simp_all
    · exact a2
    · intro hnd a c e hg
      have := linkBlock_links (f :: rest) none s hnd a c e hg
      simpa [computeTextLineMargins] using this
    · intro hnd
      have hedge : rightEdge d (setLastNext bs.length bs ++ [{ b with hangingIndent := hi }])
          { b with hangingIndent := hi } = marginRightX d (d.seg f) b bs.getLast? := by
        have hbl : b.lines = f :: rest := by rw [← hb]
        have hbp : b.prevBlock = if bs.length > 0 then some (bs.length - 1) else none := by rw [← hb]
        have hmid : MidSegment d { b with hangingIndent := hi } ↔
            equal (b.pos.leftX - (d.seg f).pos.leftX) ((d.seg f).pos.rightX - b.pos.rightX)
              d.avgCharWidth = true := by
          unfold MidSegment
          rw [equal_iff]
          simp only [hbl, List.head?_cons, Option.some.injEq, forall_eq']
        unfold rightEdge marginRightX
        simp only [hmid]
        by_cases h2 : b.lines.length = 2
        · rw [if_pos h2]
          cases he : equal (b.pos.leftX - (d.seg f).pos.leftX) ((d.seg f).pos.rightX - b.pos.rightX)
              d.avgCharWidth
          · rw [if_pos ⟨h2, by simp⟩, if_pos (by simp), hbp]
            cases hlast : bs.getLast? with
            | none =>
              rw [List.getLast?_eq_none_iff] at hlast
              subst hlast
              simp
            | some x =>
              have hpos : bs.length > 0 := by
                cases bs with
                | nil => simp at hlast
                | cons _ _ => simp
              rw [if_pos hpos, Option.bind_some, List.getElem?_append_left (by rw [setLastNext_length]; omega),
                setLastNext_getElem]
              rw [List.getLast?_eq_getElem?] at hlast
              rw [hlast]
              simp only [Option.map_some, Option.getD_some, maximum_eq_max]
              split <;> rfl
          · rw [if_neg (by simp), if_neg (by simp)]
        · rw [if_neg (by simp [h2]), if_neg h2]
      have hbl : b.lines = f :: rest := by rw [← hb]
      refine ⟨?_, ?_, ?_⟩
      · intro i hi'
        simp only [computeTextLineMargins]
        have hi'' : i ∈ b.lines := hi'
        rw [hbl] at hi''
        exact if_pos hi''
      · intro i hi'
        rw [hedge]
        simp only [computeTextLineMargins]
        have hi'' : i ∈ b.lines := hi'
        rw [hbl] at hi''
        exact if_pos hi''
      · intro hlt
        rw [hedge]
        simp only [hbl] at hlt ⊢
        obtain ⟨hi2, hhi2, hspec⟩ := c66_hanging_indent h d (computeTextLineMargins d
          (linkBlock none (f :: rest) s) b.trimLeftX
          (marginRightX d (d.seg f) b bs.getLast?) (f :: rest))
          (fun i => (d.line i).pos.leftX - b.trimLeftX)
          (fun i => marginRightX d (d.seg f) b bs.getLast? - (d.line i).pos.rightX) (f :: rest)
          ⟨fun i hi' => by simp only [computeTextLineMargins]; rw [if_pos hi'],
            fun i hi' => by simp only [computeTextLineMargins]; rw [if_pos hi']⟩ hlt (by
            intro i j h0 h1
            simp only [List.getElem?_cons_zero, List.getElem?_cons_succ, Option.some.injEq] at h0 h1
            subst h0
            cases rest with
            | nil => simp at h1
            | cons j' rest =>
              simp only [List.getElem?_cons_zero, Option.some.injEq] at h1
              subst h1
              have := (linkBlock_links (f :: j' :: rest) none s hnd [f] j' rest rfl).1
              simpa [computeTextLineMargins] using this)
        rw [hhi] at hhi2
        simp only [Outcome.ok.injEq] at hhi2
        rw [hhi2]
        exact hspec

/-! ## The loop over the lines -/

theorem setLastNext_made {d : Doc} {bs : List Block} {n : ℕ} (hm : ∀ b ∈ bs, Made d b) :
    ∀ x ∈ setLastNext n bs, Made d x := by
  intro x hx
  obtain ⟨k, hk, rfl⟩ := List.mem_iff_getElem.mp hx
  have := setLastNext_getElem n bs k
  rw [List.getElem?_eq_getElem hk, List.getElem?_eq_getElem (by rwa [setLastNext_length] at hk)] at this
  simp only [Option.map_some, Option.some.injEq] at this
  rw [this]
  split
  · exact (hm _ (List.getElem_mem _)).setNext _
  · exact hm _ (List.getElem_mem _)

theorem stateAt_trans {cur F ls : List ℕ} {s s1 s' : State} {L : List Verif.Text.Str}
    (h : AgreeOff cur s s1) (h' : AgreeOff ls s1 s') (hd : ∀ i ∈ cur, i ∉ ls) :
    stateAt F s1 s' L = stateAt (cur ++ F) s s' L := by
  unfold stateAt
  congr 1 <;> funext x <;> simp only [List.mem_append] <;> by_cases hF : x ∈ F <;> by_cases hc : x ∈ cur <;>
    simp only [hF, hc, or_true, true_or, or_self, if_true, if_false]
  · rw [h'.prev x (hd x hc)]
  · rw [h.prev x hc]
  · rw [h'.next x (hd x hc)]
  · rw [h.next x hc]
  · rw [h'.left x (hd x hc)]
  · rw [h.left x hc]
  · rw [h'.right x (hd x hc)]
  · rw [h.right x hc]

/-- The blocks of `bs` are still there in `bs'`; only the reference to the next block may have
changed. -/
def Keeps (bs bs' : List Block) : Prop :=
  ∀ (k : ℕ) (x : Block), bs[k]? = some x → ∃ n, bs'[k]? = some { x with nextBlock := n }

theorem Keeps.trans {a b c : List Block} (h : Keeps a b) (h' : Keeps b c) : Keeps a c := by
  intro k x hx
  obtain ⟨n, hn⟩ := h k x hx
  obtain ⟨m, hm⟩ := h' k _ hn
  exact ⟨m, hm⟩

theorem keeps_push (bs : List Block) (b : Block) (n : ℕ) : Keeps bs (setLastNext n bs ++ [b]) := by
  intro k x hx
  have hk : k < bs.length := by
    by_contra hc
    rw [List.getElem?_eq_none (by omega)] at hx; cases hx
  rw [List.getElem?_append_left (by rw [setLastNext_length]; exact hk), setLastNext_getElem, hx]
  simp only [Option.map_some]
  split
  · exact ⟨_, rfl⟩
  · exact ⟨x.nextBlock, rfl⟩

theorem blockLoop_spec (h : HashOrder) (d : Doc) (pre : State → ℕ → State)
    (starts : State → ℕ → Bool) (f : List Verif.Text.Str → ℕ → List Verif.Text.Str)
    (hpre : ∀ s l, pre s l = { s with labels := f s.labels l }) (ls : List ℕ) :
    ∀ (cur : List ℕ) (s : State) (bs : List Block), cur ≠ [] → (cur ++ ls).Nodup →
      BlocksLinked bs → (∀ b ∈ bs, Made d b) →
    ∃ s' bs' g0 rest, ∃ dec : ℕ → Bool,
      blockLoop h d pre starts ls cur s bs = .ok (s', bs') ∧
      bs'.map (·.lines) = bs.map (·.lines) ++ (cur ++ g0) :: rest ∧
      g0 ++ rest.flatten = ls ∧ BlocksLinked bs' ∧ (∀ b ∈ bs', Made d b) ∧ Keeps bs bs' ∧
      AgreeOff (cur ++ ls) s s' ∧ s'.labels = ls.foldl f s.labels ∧
      (∀ g ∈ (cur ++ g0) :: rest, LinkedIn s' g) ∧
      (∀ b ∈ bs'.drop bs.length, Margins d s' bs' b) ∧
      (∀ c ∈ g0, dec c = false) ∧
      (∀ g ∈ rest, ∃ c t, g = c :: t ∧ dec c = true ∧ ∀ x ∈ t, dec x = false) ∧
      (∀ a c b, ls = a ++ c :: b → ∃ sc, dec c = starts sc c ∧
        AgreeOff (cur ++ a).dropLast s sc ∧ sc.labels = (a ++ [c]).foldl f s.labels ∧
        ∃ G1 g G2, (cur ++ g0) :: rest = G1 ++ g :: G2 ∧ (∀ p, (cur ++ a).getLast? = some p → p ∈ g) ∧
          sc = stateAt G1.flatten s s' ((a ++ [c]).foldl f s.labels)) := by
  induction ls with
  | nil =>
    intro cur s bs hne hnd hl hm
    obtain ⟨s', b, h1, h2, h3, h4, h5, h6, h7, h8⟩ := createTextBlock_spec h d s cur bs hne hl
    have hlines : (setLastNext bs.length bs ++ [b]).map (·.lines) = bs.map (·.lines) ++ [cur] := by
      rw [List.map_append, setLastNext_map (·.lines) (fun _ _ => rfl), List.map_singleton, h2]
    refine ⟨s', _, [], [], fun _ => false, ?_, ?_, rfl, h4, ?_, keeps_push _ _ _, ?_, h6, ?_, ?_, ?_, ?_, ?_⟩
    · rw [blockLoop, if_neg (by simpa using hne)]; exact h1
    · rw [hlines]; simp
    · intro x hx
      rw [List.mem_append, List.mem_singleton] at hx
      rcases hx with hx | rfl
      · exact setLastNext_made hm x hx
      · exact h3
    · simpa using h5
    · intro g hg
      simp only [List.append_nil, List.mem_singleton] at hg
      subst hg
      exact h7 (by simpa using hnd)
    · intro x hx
      rw [List.drop_append_of_le_length (by rw [setLastNext_length]),
        List.drop_of_length_le (by rw [setLastNext_length])] at hx
      simp only [List.nil_append, List.mem_singleton] at hx
      subst hx
      exact h8 (by simpa using hnd)
    · simp
    · simp
    · intro a c b hg; simp at hg
  | cons l ls ih =>
    intro cur s bs hne hnd hl hm
    have hlls : l ∉ ls := by
      rw [List.nodup_append, List.nodup_cons] at hnd
      exact hnd.2.1.1
    have hagree0 : AgreeOff [] s (pre s l) := by
      rw [hpre]; exact ⟨fun _ _ => rfl, fun _ _ => rfl, fun _ _ => rfl, fun _ _ => rfl⟩
    rw [blockLoop]
    by_cases hst : starts (pre s l) l = true
    · rw [if_pos (by simp [hst, hne])]
      obtain ⟨s1, b, h1, h2, h3, h4, h5, h6, h7, h8⟩ :=
        createTextBlock_spec h d (pre s l) cur bs hne hl
      have hlines : (setLastNext bs.length bs ++ [b]).map (·.lines) = bs.map (·.lines) ++ [cur] := by
        rw [List.map_append, setLastNext_map (·.lines) (fun _ _ => rfl), List.map_singleton, h2]
      have hmade : ∀ x ∈ setLastNext bs.length bs ++ [b], Made d x := by
        intro x hx
        rw [List.mem_append, List.mem_singleton] at hx
        rcases hx with hx | rfl
        · exact setLastNext_made hm x hx
        · exact h3
      have hnd' : ([l] ++ ls).Nodup := by
        rw [List.nodup_append] at hnd; simpa using hnd.2.1
      obtain ⟨s', bs', g0, rest, dec, k1, k2, k3, k4, k5, kk, k6, k7, k8, k9, k10, k11, k12⟩ :=
        ih [l] s1 _ (by simp) hnd' h4 hmade
      have hagree1 : AgreeOff cur s s1 := hagree0.trans h5 fun i hi => ⟨by simp, hi⟩
      have hcurdisj : ∀ i ∈ cur, i ∉ [l] ++ ls := by
        intro i hi hc
        rw [List.nodup_append] at hnd
        exact hnd.2.2 i hi i (by simpa using hc) rfl
      refine ⟨s', bs', [], ([l] ++ g0) :: rest, fun c => if c = l then true else dec c,
        ?_, ?_, ?_, k4, k5, (keeps_push _ _ _).trans kk, ?_, ?_, ?_, ?_, ?_, ?_, ?_⟩
      · rw [h1]; exact k1
      · rw [k2, hlines]; simp
      · simp only [List.flatten_cons, List.nil_append, List.append_assoc]
        rw [k3]; rfl
      · refine hagree1.trans k6 fun i hi => ?_
        simp at hi ⊢
        tauto
      · rw [k7, h6, hpre]; rfl
      · intro g hg
        rw [List.mem_cons] at hg
        rcases hg with rfl | hg
        · rw [List.append_nil]
          refine (h7 ?_).of_agree k6 hcurdisj
          rw [List.nodup_append] at hnd; exact hnd.1
        · exact k8 g hg
      · intro x hx
        obtain ⟨n, hn⟩ := kk bs.length b (by
          rw [List.getElem?_append_right (by rw [setLastNext_length]), setLastNext_length]; simp)
        have hlt : bs.length < bs'.length := by
          by_contra hc
          rw [List.getElem?_eq_none (by omega)] at hn; cases hn
        rw [List.drop_eq_getElem_cons hlt, List.mem_cons] at hx
        rcases hx with rfl | hx
        · rw [List.getElem?_eq_getElem hlt, Option.some.injEq] at hn
          rw [hn]
          have hbl : ({ b with nextBlock := n } : Block).lines = cur := h2
          refine Margins.of_agree (s := s1) ?_ k6 (by rw [hbl]; exact hcurdisj)
          have hm1 := h8 (by rw [List.nodup_append] at hnd; exact hnd.1)
          refine hm1.of_edge (rightEdge_keeps n ?_ ?_) rfl rfl rfl
          · intro k x _ hx
            obtain ⟨m, hm'⟩ := kk k x hx
            exact ⟨_, hm', rfl⟩
          · intro k hk
            have := (h4 bs.length b (by
              rw [List.getElem?_append_right (by rw [setLastNext_length]), setLastNext_length]; simp)).2.1
            rw [hk] at this
            rw [List.length_append, setLastNext_length, List.length_singleton]
            split at this
            · cases this
            · simp only [Option.some.injEq] at this; omega
        · apply k9
          rwa [List.length_append, setLastNext_length, List.length_singleton]
      · simp
      · intro g hg
        rw [List.mem_cons] at hg
        rcases hg with rfl | hg
        · refine ⟨l, g0, rfl, by simp, fun x hx => ?_⟩
          have : x ≠ l := by
            rintro rfl
            apply hlls; rw [← k3]; simp [hx]
          simp only [this, if_false]
          exact k10 x hx
        · obtain ⟨c, t, rfl, hc, ht⟩ := k11 g hg
          have hin : ∀ x ∈ c :: t, x ≠ l := by
            rintro x hx rfl
            apply hlls; rw [← k3, List.mem_append]
            exact Or.inr (List.mem_flatten.mpr ⟨_, hg, hx⟩)
          refine ⟨c, t, rfl, ?_, fun x hx => ?_⟩
          · simp only [hin c (by simp), if_false]; exact hc
          · simp only [hin x (by simp [hx]), if_false]; exact ht x hx
      · intro a c b hg
        cases a with
        | nil =>
          simp only [List.nil_append, List.cons.injEq] at hg
          obtain ⟨rfl, rfl⟩ := hg
          refine ⟨pre s l, by simp [hst], hagree0.mono (by simp), by rw [hpre]; rfl, [], cur ++ [], _,
            rfl, ?_, ?_⟩
          · intro p hp
            rw [List.append_nil] at hp ⊢
            exact List.mem_of_getLast? hp
          · rw [hpre]; simp [stateAt]
        | cons y a =>
          simp only [List.cons_append, List.cons.injEq] at hg
          obtain ⟨rfl, hg⟩ := hg
          obtain ⟨sc, q1, q2, q3, G1, g, G2, q4, q5, q6⟩ := k12 a c b hg
          have hcl : c ≠ l := by rintro rfl; apply hlls; rw [hg]; simp
          refine ⟨sc, by simp only [hcl, if_false]; exact q1, ?_, ?_, (cur ++ []) :: G1, g, G2, ?_, ?_, ?_⟩
          rotate_left 2
          · rw [q4]; rfl
          · intro p hp
            apply q5
            rw [List.getLast?_append_of_ne_nil cur (by simp)] at hp
            exact hp
          · rw [q6, h6, hpre]
            rw [List.append_nil, List.flatten_cons]
            exact stateAt_trans hagree1 k6 (fun i hi => hcurdisj i hi)
          · refine hagree1.trans q2 fun i hi => ?_
            rw [List.dropLast_append_of_ne_nil (by simp)] at hi
            simp only [List.mem_append, not_or] at hi
            exact ⟨hi.1, by simpa using hi.2⟩
          · rw [q3, h6, hpre]; rfl
    · rw [if_neg (by simp [hst])]
      obtain ⟨s', bs', g0, rest, dec, k1, k2, k3, k4, k5, kk, k6, k7, k8, k9, k10, k11, k12⟩ :=
        ih (cur ++ [l]) (pre s l) bs (by simp) (by simpa using hnd) hl hm
      refine ⟨s', bs', l :: g0, rest, fun c => if c = l then false else dec c,
        k1, ?_, ?_, k4, k5, kk, ?_, ?_, ?_, k9, ?_, ?_, ?_⟩
      · rw [k2]; simp
      · rw [← k3]; rfl
      · refine hagree0.trans k6 fun i hi => ?_
        simp at hi ⊢
        tauto
      · rw [k7, hpre]; rfl
      · simpa using k8
      · intro c hc
        rw [List.mem_cons] at hc
        rcases hc with rfl | hc
        · simp
        · simp only
          split
          · rfl
          · exact k10 c hc
      · intro g hg
        obtain ⟨c, t, rfl, hc, ht⟩ := k11 g hg
        have hin : ∀ x ∈ c :: t, x ≠ l := by
          rintro x hx rfl
          apply hlls; rw [← k3, List.mem_append]
          exact Or.inr (List.mem_flatten.mpr ⟨_, hg, hx⟩)
        refine ⟨c, t, rfl, ?_, fun x hx => ?_⟩
        · simp only [hin c (by simp), if_false]; exact hc
        · simp only [hin x (by simp [hx]), if_false]; exact ht x hx
      · intro a c b hg
        cases a with
        | nil =>
          simp only [List.nil_append, List.cons.injEq] at hg
          obtain ⟨rfl, rfl⟩ := hg
          refine ⟨pre s l, by simp [hst], hagree0.mono (by simp), by rw [hpre]; rfl, [], _, _, rfl, ?_, ?_⟩
          · intro p hp
            rw [List.append_nil] at hp
            exact List.mem_append_left _ (List.mem_of_getLast? hp)
          · rw [hpre]; simp [stateAt]
        | cons y a =>
          simp only [List.cons_append, List.cons.injEq] at hg
          obtain ⟨rfl, hg⟩ := hg
          obtain ⟨sc, q1, q2, q3, G1, g, G2, q4, q5, q6⟩ := k12 a c b hg
          have hcl : c ≠ l := by rintro rfl; apply hlls; rw [hg]; simp
          refine ⟨sc, by simp only [hcl, if_false]; exact q1, ?_, ?_, G1, g, G2, by simpa using q4,
            by simpa using q5, ?_⟩
          rotate_left 2
          · rw [q6, hpre]; rfl
          · refine hagree0.trans q2 fun i hi => ⟨by simp, ?_⟩
            simpa using hi
          · rw [q3, hpre]; rfl

/-- The lines of one segment or preliminary block. -/
theorem blockLoop_all (h : HashOrder) (d : Doc) (pre : State → ℕ → State)
    (starts : State → ℕ → Bool) (f : List Verif.Text.Str → ℕ → List Verif.Text.Str)
    (hpre : ∀ s l, pre s l = { s with labels := f s.labels l }) (ls : List ℕ)
    (s : State) (bs : List Block) (hnd : ls.Nodup) (hl : BlocksLinked bs)
    (hm : ∀ b ∈ bs, Made d b) :
    ∃ s' bs' gs, ∃ dec : ℕ → Bool,
      blockLoop h d pre starts ls [] s bs = .ok (s', bs') ∧
      bs'.map (·.lines) = bs.map (·.lines) ++ gs ∧ IsSplitAt (fun c => dec c = true) ls gs ∧
      BlocksLinked bs' ∧ (∀ b ∈ bs', Made d b) ∧ Keeps bs bs' ∧
      AgreeOff ls s s' ∧ s'.labels = ls.foldl f s.labels ∧
      (∀ g ∈ gs, LinkedIn s' g) ∧ (∀ b ∈ bs'.drop bs.length, Margins d s' bs' b) ∧
      (∀ a c b, ls = a ++ c :: b → a ≠ [] → ∃ sc, dec c = starts sc c ∧
        AgreeOff a.dropLast s sc ∧ sc.labels = (a ++ [c]).foldl f s.labels ∧
        ∃ G1 g G2, gs = G1 ++ g :: G2 ∧ (∀ p, a.getLast? = some p → p ∈ g) ∧
          sc = stateAt G1.flatten s s' ((a ++ [c]).foldl f s.labels)) := by
  cases ls with
  | nil =>
    refine ⟨s, bs, [], fun _ => false, rfl, by simp, ⟨rfl, by simp, by simp, by simp⟩, hl, hm, ?_,
      AgreeOff.refl _ _, rfl, by simp, ?_, ?_⟩
    · intro k x hx; exact ⟨x.nextBlock, hx⟩
    · rw [List.drop_of_length_le (le_refl _)]; simp
    · intro a c b hg; simp at hg
  | cons l ls =>
    have hagree0 : AgreeOff [] s (pre s l) := by
      rw [hpre]; exact ⟨fun _ _ => rfl, fun _ _ => rfl, fun _ _ => rfl, fun _ _ => rfl⟩
    obtain ⟨s', bs', g0, rest, dec, k1, k2, k3, k4, k5, kk, k6, k7, k8, k9, k10, k11, k12⟩ :=
      blockLoop_spec h d pre starts f hpre ls [l] (pre s l) bs (by simp) hnd hl hm
    refine ⟨s', bs', ([l] ++ g0) :: rest, dec, ?_, k2, ?_, k4, k5, kk, ?_, ?_, k8, k9, ?_⟩
    · rw [blockLoop, if_neg (by simp)]; exact k1
    · constructor
      · simp only [List.flatten_cons, List.append_assoc]; rw [k3]; rfl
      · intro g hg
        rw [List.mem_cons] at hg
        rcases hg with rfl | hg
        · simp
        · obtain ⟨c, t, rfl, _⟩ := k11 g hg; simp
      · intro g hg c hc
        rw [List.mem_cons] at hg
        rcases hg with rfl | hg
        · simp only [List.cons_append, List.nil_append, List.tail_cons] at hc
          simp [k10 c hc]
        · obtain ⟨c', t, rfl, _, ht⟩ := k11 g hg
          simp [ht c hc]
      · intro g hg c hc
        obtain ⟨c', t, rfl, h1, _⟩ := k11 g hg
        simp only [List.head?_cons, Option.some.injEq] at hc
        rw [← hc]; exact h1
    · exact hagree0.trans k6 fun i hi => ⟨by simp, by simpa using hi⟩
    · rw [k7, hpre]; rfl
    · intro a c b hg ha
      cases a with
      | nil => exact absurd rfl ha
      | cons y a =>
        simp only [List.cons_append, List.cons.injEq] at hg
        obtain ⟨rfl, hg⟩ := hg
        obtain ⟨sc, q1, q2, q3, G1, g, G2, q4, q5, q6⟩ := k12 a c b hg
        refine ⟨sc, q1, ?_, ?_, G1, g, G2, q4, by simpa using q5, by rw [q6, hpre]; rfl⟩
        · exact hagree0.trans q2 fun i hi => ⟨by simp, by simpa using hi⟩
        · rw [q3, hpre]; rfl

/-! ## The two passes -/

/-- The lines of a segment are linked the way text line detection does (C26): a line has no previous
line, or the one before it. -/
def InputLinked (s : State) (seg : List ℕ) : Prop :=
  ∀ a c b, seg = a ++ c :: b → s.prevLine c = none ∨ s.prevLine c = a.getLast?

theorem InputLinked.of_agree {t : List ℕ} {s s' : State} {g : List ℕ} (h : InputLinked s g)
    (ha : AgreeOff t s s') (hd : ∀ i ∈ g, i ∉ t) : InputLinked s' g := by
  intro a c b hg
  rw [ha.prev c (hd c (by rw [hg]; simp))]
  exact h a c b hg

/-- The result of the first pass for one segment: `s0` is the state before text block detection, `s`
the state after the pass, `bs` are the preliminary blocks of the segment `seg`. -/
structure PrelimOf (d : Doc) (s0 s : State) (seg : List ℕ) (bs : List Block) : Prop where
  split : InputLinked s0 seg → IsSplitAt (fun c => startsPreliminaryBlock d s0 c = true) seg (bs.map (·.lines))
  cover : (bs.map (·.lines)).flatten = seg
  made : ∀ b ∈ bs, Made d b
  linked : ∀ b ∈ bs, LinkedIn s b.lines
  margins : ∀ b ∈ bs, Margins d s bs b
  numbered : BlocksLinked bs

theorem PrelimOf.of_agree {d : Doc} {s0 s s' : State} {seg : List ℕ} {bs : List Block} {t : List ℕ}
    (h : PrelimOf d s0 s seg bs) (ha : AgreeOff t s s') (hd : ∀ i ∈ seg, i ∉ t) :
    PrelimOf d s0 s' seg bs := by
  have hin : ∀ b ∈ bs, ∀ i ∈ b.lines, i ∉ t := by
    intro b hb i hi
    apply hd
    rw [← h.cover, List.mem_flatten]
    exact ⟨_, List.mem_map_of_mem hb, hi⟩
  exact ⟨h.split, h.cover, h.made, fun b hb => (h.linked b hb).of_agree ha (hin b hb),
    fun b hb => (h.margins b hb).of_agree ha (hin b hb), h.numbered⟩

theorem last_not_mem_dropLast {a : List ℕ} {p : ℕ} (hn : a.Nodup) (hp : a.getLast? = some p) :
    p ∉ a.dropLast := by
  obtain ⟨ys, rfl⟩ := List.getLast?_eq_some_iff.mp hp
  rw [List.dropLast_concat]
  rw [List.nodup_append] at hn
  intro hc
  exact hn.2.2 p hc p (by simp) rfl

theorem startsPreliminaryBlock_agree {d : Doc} {s sc : State} {a b : List ℕ} {c : ℕ}
    (hn : (a ++ c :: b).Nodup) (hs : s.prevLine c = none ∨ s.prevLine c = a.getLast?)
    (ha : AgreeOff a.dropLast s sc) :
    startsPreliminaryBlock d sc c = startsPreliminaryBlock d s c := by
  have hc : c ∉ a.dropLast := by
    intro hc
    rw [List.nodup_append] at hn
    exact hn.2.2 c (List.dropLast_subset a hc) c (by simp) rfl
  unfold startsPreliminaryBlock
  rw [ha.prev c hc]
  cases hp : s.prevLine c with
  | none => rfl
  | some p =>
    have hpl : a.getLast? = some p := by
      rcases hs with h | h
      · rw [hp] at h; cases h
      · rw [← h, hp]
    have : sc.prevLine p = s.prevLine p := ha.prev p (last_not_mem_dropLast (by
      rw [List.nodup_append] at hn; exact hn.1) hpl)
    simp only [this]

theorem preliminaryBlocks_spec (h : HashOrder) (d : Doc) (s0 s : State) (seg : List ℕ)
    (hn : seg.Nodup) (t : List ℕ) (ha : AgreeOff t s0 s) (hd : ∀ i ∈ seg, i ∉ t) :
    ∃ s' bs, preliminaryBlocks h d s seg = .ok (s', bs) ∧ PrelimOf d s0 s' seg bs ∧
      AgreeOff seg s s' ∧ s'.labels = s.labels := by
  obtain ⟨s', bs, gs, dec, k1, k2, k3, k4, k5, _, k6, k7, k8, k9, k10⟩ :=
    blockLoop_all h d (fun s _ => s) (startsPreliminaryBlock d) (fun l _ => l) (fun _ _ => rfl) seg s []
      hn (by intro k b hb; simp at hb) (by simp)
  rw [List.map_nil, List.nil_append] at k2
  refine ⟨s', bs, k1, ⟨?_, by rw [k2]; exact k3.flatten, k5, ?_, k9, k4⟩, k6, ?_⟩
  · intro hin
    rw [k2]
    have hdec : ∀ a c b, seg = a ++ c :: b → a ≠ [] → dec c = startsPreliminaryBlock d s0 c := by
      intro a c b hg hane
      obtain ⟨sc, q1, q2, _⟩ := k10 a c b hg hane
      rw [q1]
      have hin' : InputLinked s seg := hin.of_agree ha hd
      rw [startsPreliminaryBlock_agree (by rw [← hg]; exact hn) (hin' a c b hg) q2]
      unfold startsPreliminaryBlock
      have hcs : c ∈ seg := by rw [hg]; simp
      rw [ha.prev c (hd c hcs)]
      cases hp : s0.prevLine c with
      | none => rfl
      | some p =>
        have hps : p ∈ seg := by
          rcases hin a c b hg with hc | hc
          · rw [hp] at hc; cases hc
          · rw [hp] at hc
            rw [hg, List.mem_append]
            exact Or.inl (List.mem_of_getLast? hc.symm)
        simp only [ha.prev p (hd p hps)]
    have hpos : ∀ g ∈ gs, ∀ c ∈ g.tail, ∃ a b, seg = a ++ c :: b ∧ a ≠ [] := by
      intro g hg c hc
      cases g with
      | nil => simp at hc
      | cons x g =>
        rw [List.tail_cons] at hc
        obtain ⟨u, v, rfl⟩ := List.append_of_mem hc
        obtain ⟨p, q, rfl⟩ := List.append_of_mem hg
        refine ⟨p.flatten ++ x :: u, v ++ q.flatten, ?_, by simp⟩
        rw [← k3.flatten]; simp
    have hpos' : ∀ g ∈ gs.tail, ∀ c, g.head? = some c → ∃ a b, seg = a ++ c :: b ∧ a ≠ [] := by
      intro g hg c hc
      cases gs with
      | nil => simp at hg
      | cons g1 gs =>
        rw [List.tail_cons] at hg
        cases g with
        | nil => simp at hc
        | cons x g =>
          simp only [List.head?_cons, Option.some.injEq] at hc
          subst hc
          obtain ⟨p, q, rfl⟩ := List.append_of_mem hg
          refine ⟨g1 ++ p.flatten, g ++ q.flatten, ?_, ?_⟩
          · rw [← k3.flatten]; simp
          · have := k3.nonempty g1 (by simp)
            simp [this]
    refine ⟨k3.flatten, k3.nonempty, ?_, ?_⟩
    · intro g hg c hc
      obtain ⟨a, b, hab, hane⟩ := hpos g hg c hc
      rw [← hdec a c b hab hane]
      exact k3.inside g hg c hc
    · intro g hg c hc
      obtain ⟨a, b, hab, hane⟩ := hpos' g hg c hc
      rw [← hdec a c b hab hane]
      exact k3.heads g hg c hc
  · intro b hb
    apply k8
    rw [← k2]; exact List.mem_map_of_mem hb
  · rw [k7]
    generalize s.labels = x
    induction seg generalizing x with
    | nil => rfl
    | cons y ys _ => simp

theorem pass1Page_spec (h : HashOrder) (d : Doc) (s0 : State) (segs : List (List ℕ)) :
    ∀ (s : State) (t : List ℕ), segs.flatten.Nodup → AgreeOff t s0 s → (∀ i ∈ segs.flatten, i ∉ t) →
    ∃ s' bss, pass1Page h d segs s = .ok (s', bss) ∧ List.Forall₂ (PrelimOf d s0 s') segs bss ∧
      AgreeOff segs.flatten s s' ∧ s'.labels = s.labels := by
  induction segs with
  | nil => intro s t _ _ _; exact ⟨s, [], rfl, .nil, AgreeOff.refl _ _, rfl⟩
  | cons seg segs ih =>
    intro s t hn ha hd
    rw [List.flatten_cons] at hn
    rw [List.nodup_append] at hn
    obtain ⟨s1, bs, h1, h2, h3, h4⟩ := preliminaryBlocks_spec h d s0 s seg hn.1 t ha
      (fun i hi => hd i (by simp [hi]))
    obtain ⟨s2, bss, k1, k2, k3, k4⟩ := ih s1 (t ++ seg) hn.2.1
      (ha.trans h3 fun i hi => by simpa using hi) (by
        intro i hi hc
        rw [List.mem_append] at hc
        rcases hc with hc | hc
        · exact hd i (by rw [List.flatten_cons, List.mem_append]; exact Or.inr hi) hc
        · exact hn.2.2 i hc i hi rfl)
    refine ⟨s2, bs :: bss, ?_, .cons ?_ k2, ?_, by rw [k4, h4]⟩
    · rw [pass1Page, h1]; simp only [Outcome.bind]; rw [k1]
    · exact h2.of_agree k3 fun i hi hc => hn.2.2 i hi i hc rfl
    · exact h3.trans k3 fun i hi => by simpa using hi

theorem forall₂_mem {α β : Type} {R S : α → β → Prop} {l : List α} {l' : List β}
    (h : List.Forall₂ R l l') (hi : ∀ a b, a ∈ l → R a b → S a b) : List.Forall₂ S l l' := by
  induction h with
  | nil => exact .nil
  | cons hab _ ih => exact .cons (hi _ _ (by simp) hab) (ih fun a b ha => hi a b (by simp [ha]))

theorem pass1_spec (h : HashOrder) (d : Doc) (s0 : State) (pages : List (List (List ℕ))) :
    ∀ (s : State) (t : List ℕ), pages.flatten.flatten.Nodup → AgreeOff t s0 s →
      (∀ i ∈ pages.flatten.flatten, i ∉ t) →
    ∃ s' bsss, pass1 h d pages s = .ok (s', bsss) ∧
      List.Forall₂ (List.Forall₂ (PrelimOf d s0 s')) pages bsss ∧
      AgreeOff pages.flatten.flatten s s' ∧ s'.labels = s.labels := by
  induction pages with
  | nil => intro s t _ _ _; exact ⟨s, [], rfl, .nil, AgreeOff.refl _ _, rfl⟩
  | cons page pages ih =>
    intro s t hn ha hd
    rw [List.flatten_cons, List.flatten_append] at hn
    rw [List.nodup_append] at hn
    obtain ⟨s1, bs, h1, h2, h3, h4⟩ := pass1Page_spec h d s0 page s t hn.1 ha
      (fun i hi => hd i (by rw [List.flatten_cons, List.flatten_append, List.mem_append]; exact Or.inl hi))
    obtain ⟨s2, bss, k1, k2, k3, k4⟩ := ih s1 (t ++ page.flatten) hn.2.1
      (ha.trans h3 fun i hi => by simpa using hi) (by
        intro i hi hc
        rw [List.mem_append] at hc
        rcases hc with hc | hc
        · exact hd i (by rw [List.flatten_cons, List.flatten_append, List.mem_append]; exact Or.inr hi) hc
        · exact hn.2.2 i hc i hi rfl)
    refine ⟨s2, bs :: bss, ?_, .cons ?_ k2, ?_, by rw [k4, h4]⟩
    · rw [pass1, h1]; simp only [Outcome.bind]; rw [k1]
    · refine forall₂_mem h2 fun seg bs hseg hp => hp.of_agree k3 fun i hi hc => ?_
      exact hn.2.2 i (List.mem_flatten.mpr ⟨seg, hseg, hi⟩) i hc rfl
    · refine h3.trans k3 fun i hi => ?_
      rw [List.flatten_cons, List.flatten_append, List.mem_append, not_or] at hi
      exact hi

theorem append_cons_inj_nodup {α : Type} {c : α} : ∀ {x x' y y' : List α}, (x ++ c :: y).Nodup →
    x ++ c :: y = x' ++ c :: y' → x = x' ∧ y = y'
  | [], [], _, _, _, h => ⟨rfl, by simpa using h⟩
  | [], z :: x', y, y', hn, h => by
    simp only [List.nil_append, List.cons_append, List.cons.injEq] at h
    obtain ⟨rfl, rfl⟩ := h
    simp at hn
  | z :: x, [], y, y', hn, h => by
    simp only [List.nil_append, List.cons_append, List.cons.injEq] at h
    obtain ⟨rfl, rfl⟩ := h
    simp at hn
  | z :: x, z' :: x', y, y', hn, h => by
    simp only [List.cons_append, List.cons.injEq] at h
    obtain ⟨rfl, h⟩ := h
    rw [List.cons_append, List.nodup_cons] at hn
    obtain ⟨h1, h2⟩ := append_cons_inj_nodup hn.2 h
    exact ⟨by rw [h1], h2⟩

/-- What the second pass adds to the known footnote labels for a line. -/
def addLabels (d : Doc) (labels : List Verif.Text.Str) (i : ℕ) : List Verif.Text.Str :=
  computePotentialFootnoteLabels (d.line i).words labels

/-- The result of the second pass for the preliminary block `b`: its lines are divided into the
groups `gs`.  A line `c` with predecessor `p` starts a group when the rules of the second pass say
so, evaluated in the following state: the lines before the group of `p` are in their final blocks
(as in `s'`), the others in the preliminary ones (as in `s1`), and the known footnote labels are
`labels` and those of the lines up to `c` (`all` are the lines of the document in their order). -/
def FinalOf (d : Doc) (s1 s' : State) (labels : List Verif.Text.Str) (all : List ℕ) (b : Block)
    (gs : List (List ℕ)) : Prop :=
  ∃ (dec : ℕ → Bool) (before after : List ℕ), IsSplitAt (fun c => dec c = true) b.lines gs ∧
    all = before ++ b.lines ++ after ∧
    ∀ a p c e, b.lines = a ++ p :: c :: e → ∃ G1 g G2, gs = G1 ++ g :: G2 ∧ p ∈ g ∧
      dec c = startsBlock d b.isLinesCentered b.hangingIndent
        (stateAt (before ++ G1.flatten) s1 s' ((before ++ a ++ [p, c]).foldl (addLabels d) labels)) c

theorem stateAt_congr {F : List ℕ} {s1 s' s'' : State} {L : List Verif.Text.Str} {t : List ℕ}
    (h : AgreeOff t s' s'') (hd : ∀ i ∈ F, i ∉ t) : stateAt F s1 s'' L = stateAt F s1 s' L := by
  unfold stateAt
  congr 1 <;> funext x <;> by_cases hF : x ∈ F <;> simp only [hF, if_true, if_false]
  · exact h.prev x (hd x hF)
  · exact h.next x (hd x hF)
  · exact h.left x (hd x hF)
  · exact h.right x (hd x hF)

/-- Later changes of other lines do not matter. -/
theorem FinalOf.of_agree {d : Doc} {s1 s' s'' : State} {labels : List Verif.Text.Str} {all : List ℕ}
    {b : Block} {gs : List (List ℕ)} {t u v : List ℕ} (h : FinalOf d s1 s' labels all b gs)
    (ha : AgreeOff t s' s'') (hn : all.Nodup) (hall : all = u ++ v) (hv : ∀ i ∈ u, i ∉ t)
    (hb : ∀ i ∈ b.lines, i ∈ u) : FinalOf d s1 s'' labels all b gs := by
  obtain ⟨dec, before, after, h1, h2, h3⟩ := h
  refine ⟨dec, before, after, h1, h2, ?_⟩
  intro a p c e hg
  obtain ⟨G1, g, G2, q1, q2, q3⟩ := h3 a p c e hg
  refine ⟨G1, g, G2, q1, q2, ?_⟩
  rw [q3, stateAt_congr ha]
  intro i hi
  apply hv
  rw [List.mem_append] at hi
  have hpu : p ∈ u := hb p (by rw [hg]; simp)
  rcases hi with hi | hi
  · -- `i` comes before `p`
    obtain ⟨u1, u2, rfl⟩ := List.append_of_mem hpu
    have heq : (before ++ a) ++ p :: (c :: e ++ after) = u1 ++ p :: (u2 ++ v) := by
      have h2' := h2
      rw [hg] at h2'
      rw [h2'] at hall
      simpa using hall
    have : before ++ a = u1 := by
      refine (append_cons_inj_nodup ?_ heq).1
      rw [heq]
      rw [hall] at hn
      simpa using hn
    rw [← this]
    simp [hi]
  · apply hb
    rw [← h1.flatten, q1, List.flatten_append]
    exact List.mem_append_left _ hi

theorem pass2Page_spec (h : HashOrder) (d : Doc) (s1 : State) (labels : List Verif.Text.Str)
    (pbs : List Block) : ∀ (s : State) (bs : List Block) (before after : List ℕ),
      (before ++ pbs.flatMap (·.lines) ++ after).Nodup →
      BlocksLinked bs → (∀ b ∈ bs, Made d b) → (∀ b ∈ bs, ∀ i ∈ b.lines, i ∈ before) →
      AgreeOff before s1 s → s.labels = before.foldl (addLabels d) labels →
    ∃ s' bs' gss, pass2Page h d pbs s bs = .ok (s', bs') ∧
      bs'.map (·.lines) = bs.map (·.lines) ++ gss.flatten ∧
      List.Forall₂ (FinalOf d s1 s' labels (before ++ pbs.flatMap (·.lines) ++ after)) pbs gss ∧
      BlocksLinked bs' ∧ (∀ b ∈ bs', Made d b) ∧ Keeps bs bs' ∧
      AgreeOff (pbs.flatMap (·.lines)) s s' ∧
      s'.labels = (before ++ pbs.flatMap (·.lines)).foldl (addLabels d) labels ∧
      (∀ g ∈ gss.flatten, LinkedIn s' g) ∧ (∀ b ∈ bs'.drop bs.length, Margins d s' bs' b) := by
  induction pbs with
  | nil =>
    intro s bs before after _ hl hm _ _ hlab
    refine ⟨s, bs, [], rfl, by simp, .nil, hl, hm, fun k x hx => ⟨x.nextBlock, hx⟩,
      AgreeOff.refl _ _, by simpa using hlab, by simp, ?_⟩
    rw [List.drop_of_length_le (le_refl _)]; simp
  | cons b pbs ih =>
    intro s bs before after hnall hl hm hbs hag hlab
    have hn : (b.lines ++ pbs.flatMap (·.lines)).Nodup := by
      rw [List.flatMap_cons, List.append_assoc, List.nodup_append] at hnall
      rw [List.nodup_append] at hnall
      exact hnall.2.1.1
    rw [List.nodup_append] at hn
    have hbefore : ∀ i ∈ before, i ∉ b.lines ∧ i ∉ pbs.flatMap (·.lines) := by
      intro i hi
      rw [List.flatMap_cons, List.append_assoc, List.nodup_append] at hnall
      exact ⟨fun hc => hnall.2.2 i hi i (by simp [hc]) rfl,
        fun hc => hnall.2.2 i hi i (by simp only [List.mem_append]; exact Or.inl (Or.inr hc)) rfl⟩
    obtain ⟨t1, bs1, gs, dec, k1, k2, k3, k4, k5, kk, k6, k7, k8, k9, k10⟩ :=
      blockLoop_all h d
        (fun s i => { s with labels := computePotentialFootnoteLabels (d.line i).words s.labels })
        (startsBlock d b.isLinesCentered b.hangingIndent) (addLabels d) (fun _ _ => rfl) b.lines s bs
        hn.1 hl hm
    have hdisj : ∀ i ∈ pbs.flatMap (·.lines), i ∉ b.lines := fun i hi hc => hn.2.2 i hc i hi rfl
    have hdisj' : ∀ i ∈ b.lines, i ∉ pbs.flatMap (·.lines) := fun i hi hc => hn.2.2 i hi i hc rfl
    have hlen1 : bs1.length = bs.length + gs.length := by
      have := congrArg List.length k2
      simpa using this
    have hbs1 : ∀ x ∈ bs1, ∀ i ∈ x.lines, i ∈ before ++ b.lines := by
      intro x hx i hi
      have hmem : x.lines ∈ bs1.map (·.lines) := List.mem_map_of_mem hx
      rw [k2, List.mem_append] at hmem
      rw [List.mem_append]
      rcases hmem with hmem | hmem
      · obtain ⟨y, hy, hyl⟩ := List.mem_map.mp hmem
        exact Or.inl (hbs y hy i (by rw [hyl]; exact hi))
      · right
        rw [← k3.flatten, List.mem_flatten]
        exact ⟨_, hmem, hi⟩
    have hall : before ++ b.lines ++ pbs.flatMap (·.lines) ++ after =
        before ++ (b :: pbs).flatMap (·.lines) ++ after := by
      rw [List.flatMap_cons]; simp
    obtain ⟨t2, bs2, gss, m1, m2, m3, m4, m5, mk, m6, m7, m8, m9⟩ := ih t1 bs1 (before ++ b.lines) after
      (by rw [hall]; exact hnall) k4 k5 hbs1
      (hag.trans k6 fun i hi => by simpa using hi)
      (by rw [k7, hlab, List.foldl_append])
    rw [hall] at m3
    refine ⟨t2, bs2, gs :: gss, ?_, ?_, .cons ?_ m3, m4, m5, kk.trans mk, ?_, ?_, ?_, ?_⟩
    · rw [pass2Page, splitBlock, k1]; exact m1
    · rw [m2, k2]; simp
    · refine ⟨dec, before, pbs.flatMap (·.lines) ++ after, k3, by rw [← hall]; simp, ?_⟩
      intro a p c e hg
      obtain ⟨sc, r1, _, _, G1, g, G2, r4, r5, r6⟩ := k10 (a ++ [p]) c e (by rw [hg]; simp) (by simp)
      refine ⟨G1, g, G2, r4, r5 p (by simp), ?_⟩
      rw [r1, r6]
      have hG : ∀ i ∈ G1.flatten, i ∈ b.lines := by
        intro i hi
        rw [← k3.flatten, r4, List.flatten_append]
        exact List.mem_append_left _ hi
      have hlabels : (a ++ [p] ++ [c]).foldl (addLabels d) s.labels =
          (before ++ a ++ [p, c]).foldl (addLabels d) labels := by
        rw [hlab, ← List.foldl_append]; simp
      rw [hlabels]
      have e1 : stateAt G1.flatten s t1 ((before ++ a ++ [p, c]).foldl (addLabels d) labels) =
          stateAt (before ++ G1.flatten) s1 t1 ((before ++ a ++ [p, c]).foldl (addLabels d) labels) :=
        stateAt_trans hag k6 (fun i hi => (hbefore i hi).1)
      rw [e1, stateAt_congr m6]
      intro i hi
      rw [List.mem_append] at hi
      rcases hi with hi | hi
      · exact (hbefore i hi).2
      · exact hdisj' i (hG i hi)
    · exact k6.trans m6 fun i hi => by simpa using hi
    · rw [m7, List.flatMap_cons, List.append_assoc]
    · intro g hg
      rw [List.flatten_cons, List.mem_append] at hg
      rcases hg with hg | hg
      · refine (k8 g hg).of_agree m6 fun i hi => hdisj' i ?_
        rw [← k3.flatten, List.mem_flatten]; exact ⟨g, hg, hi⟩
      · exact m8 g hg
    · intro x hx
      obtain ⟨k, hk, rfl⟩ := List.mem_iff_getElem.mp hx
      rw [List.getElem_drop]
      rw [List.length_drop] at hk
      by_cases hlt : bs.length + k < bs1.length
      · obtain ⟨n, hn'⟩ := mk (bs.length + k) bs1[bs.length + k] (List.getElem?_eq_getElem hlt)
        rw [List.getElem?_eq_getElem (by omega), Option.some.injEq] at hn'
        rw [hn']
        have hmem : bs1[bs.length + k] ∈ bs1.drop bs.length := by
          rw [List.mem_iff_getElem]
          exact ⟨k, by rw [List.length_drop]; omega, by rw [List.getElem_drop]⟩
        have hmg := k9 _ hmem
        have hsub : ∀ i ∈ (bs1[bs.length + k]).lines, i ∈ b.lines := by
          intro i hi
          have hg : (bs1[bs.length + k]).lines ∈ gs := by
            have h0 : (bs1.map (·.lines))[bs.length + k]? = some (bs1[bs.length + k]).lines := by
              rw [List.getElem?_map, List.getElem?_eq_getElem hlt]; rfl
            rw [k2, List.getElem?_append_right (by simp)] at h0
            exact List.mem_of_getElem? h0
          rw [← k3.flatten, List.mem_flatten]
          exact ⟨_, hg, hi⟩
        have := Margins.of_agree hmg m6 (fun i hi => hdisj' i (hsub i hi))
        refine this.of_edge (rightEdge_keeps n ?_ ?_) rfl rfl rfl
        · intro j x _ hx
          obtain ⟨m, hm'⟩ := mk j x hx
          exact ⟨_, hm', rfl⟩
        · intro j hj
          have := (k4 (bs.length + k) _ (List.getElem?_eq_getElem hlt)).2.1
          rw [hj] at this
          split at this
          · cases this
          · simp only [Option.some.injEq] at this; omega
      · apply m9
        rw [List.mem_iff_getElem]
        refine ⟨bs.length + k - bs1.length, by rw [List.length_drop]; omega, ?_⟩
        rw [List.getElem_drop]
        congr 1
        omega

theorem flatMap_lines (bs : List Block) : bs.flatMap (·.lines) = (bs.map (·.lines)).flatten :=
  List.flatMap_def ..

theorem forall₂_append_split {α β : Type} {R : α → β → Prop} {xs ys : List α} {l' : List β}
    (h : List.Forall₂ R (xs ++ ys) l') : ∃ a b, List.Forall₂ R xs a ∧ List.Forall₂ R ys b ∧ l' = a ++ b := by
  induction xs generalizing l' with
  | nil => exact ⟨[], l', .nil, h, rfl⟩
  | cons x xs ih =>
    cases h with
    | cons hab ht =>
      obtain ⟨a, b, h1, h2, rfl⟩ := ih ht
      exact ⟨_ :: a, b, .cons hab h1, h2, rfl⟩

theorem forall₂_flatten_split {α β : Type} {R : α → β → Prop} {ls : List (List α)} {l' : List β}
    (h : List.Forall₂ R ls.flatten l') : ∃ ls', ls'.flatten = l' ∧ List.Forall₂ (List.Forall₂ R) ls ls' := by
  induction ls generalizing l' with
  | nil =>
    rw [List.flatten_nil] at h
    cases h
    exact ⟨[], rfl, .nil⟩
  | cons x xs ih =>
    rw [List.flatten_cons] at h
    obtain ⟨a, b, h1, h2, rfl⟩ := forall₂_append_split h
    obtain ⟨ls', h3, h4⟩ := ih h2
    exact ⟨a :: ls', by rw [List.flatten_cons, h3], .cons h1 h4⟩

/-- The blocks of a page after the second pass; `pbs` are the preliminary blocks of its segments. -/
structure PageFinal (d : Doc) (s1 s' : State) (labels : List Verif.Text.Str) (all : List ℕ)
    (pbs : List (List Block)) (bs : List Block) : Prop where
  linked : BlocksLinked bs
  made : ∀ b ∈ bs, Made d b
  lines : ∀ b ∈ bs, LinkedIn s' b.lines
  margins : ∀ b ∈ bs, Margins d s' bs b
  /-- the final groups of each preliminary block -/
  split : ∃ gss : List (List (List (List ℕ))), bs.map (·.lines) = gss.flatten.flatten ∧
    List.Forall₂ (List.Forall₂ (FinalOf d s1 s' labels all)) pbs gss

theorem FinalOf.flatten {d : Doc} {s1 s' : State} {labels : List Verif.Text.Str} {all : List ℕ}
    {pbs : List Block} {gss : List (List (List ℕ))}
    (h : List.Forall₂ (FinalOf d s1 s' labels all) pbs gss) :
    gss.flatten.flatten = pbs.flatMap (·.lines) := by
  induction h with
  | nil => rfl
  | cons hab _ ih =>
    obtain ⟨dec, _, _, hs, _⟩ := hab
    rw [List.flatten_cons, List.flatten_append, ih, hs.flatten, List.flatMap_cons]

theorem PageFinal.cover {d : Doc} {s1 s' : State} {labels : List Verif.Text.Str} {all : List ℕ}
    {pbs : List (List Block)} {bs : List Block}
    (h : PageFinal d s1 s' labels all pbs bs) : bs.flatMap (·.lines) = pbs.flatten.flatMap (·.lines) := by
  obtain ⟨gss, h1, h2⟩ := h.split
  rw [flatMap_lines, h1]
  clear h1 h
  induction h2 with
  | nil => rfl
  | cons hab _ ih =>
    rw [List.flatten_cons, List.flatten_append, List.flatten_append, ih, FinalOf.flatten hab,
      List.flatten_cons, List.flatMap_append]

theorem PageFinal.of_agree {d : Doc} {s1 s s' : State} {labels : List Verif.Text.Str} {all : List ℕ}
    {pbs : List (List Block)} {bs : List Block} {t u v : List ℕ}
    (h : PageFinal d s1 s labels all pbs bs) (ha : AgreeOff t s s') (hn : all.Nodup)
    (hall : all = u ++ v) (hv : ∀ i ∈ u, i ∉ t)
    (hu : ∀ i ∈ pbs.flatten.flatMap (·.lines), i ∈ u) : PageFinal d s1 s' labels all pbs bs := by
  have hin : ∀ b ∈ bs, ∀ i ∈ b.lines, i ∉ t := by
    intro b hb i hi
    apply hv
    apply hu
    rw [← h.cover, List.mem_flatMap]
    exact ⟨b, hb, hi⟩
  obtain ⟨gss, g1, g2⟩ := h.split
  refine ⟨h.linked, h.made, fun b hb => (h.lines b hb).of_agree ha (hin b hb),
    fun b hb => (h.margins b hb).of_agree ha (hin b hb), gss, g1, ?_⟩
  refine forall₂_mem g2 fun pl gl hpl hx => forall₂_mem hx fun b gs hb hf => ?_
  refine hf.of_agree ha hn hall hv fun i hi => hu i ?_
  rw [List.mem_flatMap]
  exact ⟨b, List.mem_flatten.mpr ⟨pl, hpl, hb⟩, hi⟩

theorem pass2_spec (h : HashOrder) (d : Doc) (s1 : State) (labels : List Verif.Text.Str)
    (pages : List (List (List Block))) :
    ∀ (s : State) (before : List ℕ), (before ++ pages.flatten.flatten.flatMap (·.lines)).Nodup →
      AgreeOff before s1 s → s.labels = before.foldl (addLabels d) labels →
    ∃ s' bss, pass2 h d pages s = .ok (s', bss) ∧
      List.Forall₂ (PageFinal d s1 s' labels (before ++ pages.flatten.flatten.flatMap (·.lines))) pages bss ∧
      AgreeOff (pages.flatten.flatten.flatMap (·.lines)) s s' ∧
      s'.labels = (before ++ pages.flatten.flatten.flatMap (·.lines)).foldl (addLabels d) labels := by
  induction pages with
  | nil =>
    intro s before _ _ hlab
    exact ⟨s, [], rfl, .nil, AgreeOff.refl _ _, by simpa using hlab⟩
  | cons page pages ih =>
    intro s before hnall hag hlab
    have hall : before ++ (page :: pages).flatten.flatten.flatMap (·.lines) =
        before ++ page.flatten.flatMap (·.lines) ++ pages.flatten.flatten.flatMap (·.lines) := by
      rw [List.flatten_cons, List.flatten_append, List.flatMap_append]; simp
    rw [hall] at hnall ⊢
    have hn2 := hnall
    rw [List.nodup_append] at hn2
    obtain ⟨t1, bs, gss, m1, m2, m3, m4, m5, _, m6, m7, m8, m9⟩ :=
      pass2Page_spec h d s1 labels page.flatten s [] before (pages.flatten.flatten.flatMap (·.lines)) hnall
        (by intro k b hb'; simp at hb') (by simp) (by simp) hag hlab
    rw [List.map_nil, List.nil_append] at m2
    rw [List.length_nil, List.drop_zero] at m9
    obtain ⟨t2, bss, k1, k2, k3, k4⟩ := ih t1 (before ++ page.flatten.flatMap (·.lines)) hnall
      (hag.trans m6 fun i hi => by simpa using hi) m7
    refine ⟨t2, bs :: bss, ?_, .cons ?_ k2, ?_, k4⟩
    · rw [pass2, m1]; simp only [Outcome.bind]; rw [k1]
    · refine PageFinal.of_agree (s := t1) (t := pages.flatten.flatten.flatMap (·.lines)) ?_ k3 hnall rfl
        ?_ ?_
      · obtain ⟨gsss, g1, g2⟩ := forall₂_flatten_split m3
        refine ⟨m4, m5, fun b hb' => m8 _ ?_, m9, gsss, by rw [m2, ← g1], g2⟩
        rw [← m2]; exact List.mem_map_of_mem hb'
      · exact fun i hi hc => hn2.2.2 i hi i hc rfl
      · exact fun i hi => List.mem_append_right _ hi
    · refine m6.trans k3 fun i hi => ?_
      rw [List.flatten_cons, List.flatten_append, List.flatMap_append, List.mem_append, not_or] at hi
      exact hi

theorem prelim_cover {d : Doc} {s0 s1 : State} {page : List (List ℕ)} {pbs : List (List Block)}
    (h : List.Forall₂ (PrelimOf d s0 s1) page pbs) :
    pbs.flatten.flatMap (·.lines) = page.flatten := by
  induction h with
  | nil => rfl
  | cons hab _ ih =>
    rw [List.flatten_cons, List.flatMap_append, ih, List.flatten_cons, flatMap_lines, hab.cover]

/-- The blocks of a page after both passes; `s0` is the state before, `s1` the state between the passes,
`s'` the state after text block detection; `all` are the lines of the document in their order. -/
def PageOf (d : Doc) (all : List ℕ) (s0 s1 s' : State) (page : List (List ℕ)) (bs : List Block) : Prop :=
  ∃ pbs : List (List Block), List.Forall₂ (PrelimOf d s0 s1) page pbs ∧
    PageFinal d s1 s' s0.labels all pbs bs

theorem process_spec (h : HashOrder) (d : Doc) (s : State) (pages : List (List (List ℕ)))
    (hn : pages.flatten.flatten.Nodup) :
    ∃ s1 s' bss, process h d s pages = .ok (s', bss) ∧
      List.Forall₂ (PageOf d pages.flatten.flatten s s1 s') pages bss ∧
      s'.labels = pages.flatten.flatten.foldl (addLabels d) s.labels := by
  obtain ⟨s1, pbsss, h1, h2, h3, h4⟩ := pass1_spec h d s pages s [] hn (AgreeOff.refl _ _) (by simp)
  have hcov : pbsss.flatten.flatten.flatMap (·.lines) = pages.flatten.flatten := by
    clear hn h1 h3
    induction h2 with
    | nil => rfl
    | cons hab _ ih =>
      rw [List.flatten_cons, List.flatten_append, List.flatMap_append, ih, prelim_cover hab,
        List.flatten_cons, List.flatten_append]
  obtain ⟨s2, bss, k1, k2, k3, k4⟩ := pass2_spec h d s1 s.labels pbsss s1 []
    (by rw [List.nil_append, hcov]; exact hn) (AgreeOff.refl _ _) (by simpa using h4)
  rw [List.nil_append, hcov] at k2 k4
  refine ⟨s1, s2, bss, ?_, ?_, k4⟩
  · rw [process, h1]; exact k1
  · generalize pages.flatten.flatten = all at k2
    clear hcov h1 h3 hn k1 k4 k3
    induction h2 generalizing bss with
    | nil => cases k2; exact .nil
    | cons hab _ ih =>
      cases k2 with
      | cons hx hy => exact .cons ⟨_, hab, hx⟩ (ih _ hy)

/-! ## C30 -/

/-- C30: for every document (with any rule outcomes), text block detection succeeds, and on each page
* the blocks can be divided into consecutive runs, one per segment, such that the lines of the run
  are the lines of the segment in their order (so every line is in exactly one block, the order is
  kept and every segment starts a new block);
* no block is empty;
* the blocks are numbered 0, 1, 2, …, and each refers to its predecessor and successor;
* each line refers to its neighbours in the block. -/
theorem c30_blocks_partition (h : HashOrder) (d : Doc) (s : State) (pages : List (List (List ℕ)))
    (hn : pages.flatten.flatten.Nodup) :
    ∃ s' bss, process h d s pages = .ok (s', bss) ∧
      List.Forall₂ (fun page bs =>
        (∃ parts : List (List Block), parts.flatten = bs ∧
          List.Forall₂ (fun seg part => (part.map (·.lines)).flatten = seg) page parts) ∧
        (∀ b ∈ bs, b.lines ≠ []) ∧
        (∀ k (b : Block), bs[k]? = some b → b.rank = k ∧
          b.prevBlock = (if k = 0 then none else some (k - 1)) ∧
          b.nextBlock = (if k + 1 < bs.length then some (k + 1) else none)) ∧
        (∀ b ∈ bs, ∀ a c e, b.lines = a ++ c :: e →
          s'.prevLine c = a.getLast? ∧ s'.nextLine c = e.head?)) pages bss := by
  obtain ⟨s1, s', bss, h1, h2, _⟩ := process_spec h d s pages hn
  refine ⟨s', bss, h1, forall₂_mem h2 ?_⟩
  rintro page bs _ ⟨pbs, hp, hf⟩
  refine ⟨?_, fun b hb => (hf.made b hb).nonempty, hf.linked, hf.lines⟩
  obtain ⟨gss, g1, g2⟩ := hf.split
  -- divide the blocks of the page according to the segments
  have key : ∀ (pg : List (List ℕ)) (pb : List (List Block)) (gs : List (List (List (List ℕ)))) (bl : List Block),
      List.Forall₂ (PrelimOf d s s1) pg pb →
      List.Forall₂ (List.Forall₂ (FinalOf d s1 s' s.labels pages.flatten.flatten)) pb gs →
      bl.map (·.lines) = gs.flatten.flatten →
      ∃ parts : List (List Block), parts.flatten = bl ∧
        List.Forall₂ (fun seg part => (part.map (·.lines)).flatten = seg) pg parts := by
    intro pg pb gs bl hpg
    induction hpg generalizing gs bl with
    | nil =>
      intro hg hb
      cases hg
      simp only [List.flatten_nil, List.map_eq_nil_iff] at hb
      exact ⟨[], by rw [hb]; rfl, .nil⟩
    | @cons seg pb0 pg pb hab _ ih =>
      intro hg hb
      cases hg with
      | @cons _ gs0 _ gs hg0 hg1 =>
        rw [List.flatten_cons, List.flatten_append] at hb
        have hlen : (bl.take gs0.flatten.length).map (·.lines) = gs0.flatten ∧
            (bl.drop gs0.flatten.length).map (·.lines) = gs.flatten.flatten := by
          rw [List.map_take, List.map_drop, hb]
          simp
        obtain ⟨parts, q1, q2⟩ := ih gs (bl.drop gs0.flatten.length) hg1 hlen.2
        refine ⟨bl.take gs0.flatten.length :: parts, ?_, .cons ?_ q2⟩
        · rw [List.flatten_cons, q1, List.take_append_drop]
        · rw [hlen.1, FinalOf.flatten hg0, flatMap_lines, hab.cover]
  exact key page pbs gss bs hp g2 g1

end Verif.Props

import Verif.Model.Parsing
import Verif.Spec.Parsing
import Verif.Props.FontInfo
import Verif.Props.Diacritics
import Mathlib.Tactic.Linarith
import Mathlib.Data.List.Perm.Basic

/-! # C50–C52: the parser -/

namespace Verif.Props

open Verif Verif.Math Verif.Parsing Verif.Spec Verif.Spec.Parsing
open Verif.Text (Str)

/-! ## Routing -/

theorem pa_same (c d : Clip) : c.same d = decide (SameClip c d) := by
  rw [Bool.eq_iff_iff, decide_eq_true_iff]
  unfold Clip.same SameClip coordsTol
  simp only [Bool.and_eq_true, equal_iff, and_assoc]

theorem pa_same_refl (c : Clip) : SameClip c c := by
  unfold SameClip; simp

theorem pa_contentOf_push (es : List Elem) (e : Elem) :
    contentOf (es ++ [e]) = (contentOf es).push e := by
  cases e <;> simp [contentOf, Content.push]

theorem pa_figures_add (n : ℤ) (c : Clip) (e : Elem) : ∀ (fs : List Figure)
    (items : List (Clip × Elem)), Figures fs items →
    Figures (addToFigures n c e fs) (items ++ [(c, e)])
  | [], items, h => by
    have h : items = [] := h
    subst h
    have hm : (([] : List (Clip × Elem)) ++ [(c, e)]).filter
        (fun i => decide (SameClip i.1 (Figure.create n c e).clip)) = [(c, e)] := by
      simp [Figure.create, pa_same_refl]
    have ho : (([] : List (Clip × Elem)) ++ [(c, e)]).filter
        (fun i => decide (¬ SameClip i.1 (Figure.create n c e).clip)) = [] := by
      simp [Figure.create, pa_same_refl]
    refine ⟨⟨e, [], rfl⟩, ?_, ?_, ?_⟩
    · rw [hm]
      cases e <;> rfl
    · rw [hm]
      refine ⟨⟨⟨e.pos, by simp, rfl⟩, ?_⟩, ⟨⟨e.pos, by simp, rfl⟩, ?_⟩,
        ⟨⟨e.pos, by simp, rfl⟩, ?_⟩, ⟨⟨e.pos, by simp, rfl⟩, ?_⟩⟩ <;>
      · intro x hx
        have : x = e.pos := by simpa using hx
        subst this
        exact le_refl _
    · rw [ho]; rfl
  | f :: fs, items, h => by
    obtain ⟨⟨e0, rest, h0⟩, hc, hb, hr⟩ := h
    unfold addToFigures
    rw [pa_same]
    by_cases hs : SameClip c f.clip
    · rw [if_pos (by simpa using hs)]
      have hm : (items ++ [(c, e)]).filter (fun i => decide (SameClip i.1 f.clip)) =
          items.filter (fun i => decide (SameClip i.1 f.clip)) ++ [(c, e)] := by
        rw [List.filter_append]; simp [hs]
      have ho : (items ++ [(c, e)]).filter (fun i => decide (¬ SameClip i.1 f.clip)) =
          items.filter (fun i => decide (¬ SameClip i.1 f.clip)) := by
        rw [List.filter_append]; simp [hs]
      refine ⟨⟨e0, rest ++ [(c, e)], by rw [h0]; rfl⟩, ?_, ?_, ?_⟩
      · simp only
        rw [hm, List.map_append, hc]
        exact (pa_contentOf_push _ _).symm
      · simp only
        rw [hm, List.map_append]
        exact isHull_extend hb
      · simp only
        rw [ho]; exact hr
    · rw [if_neg (by simpa using hs)]
      have hm : (items ++ [(c, e)]).filter (fun i => decide (SameClip i.1 f.clip)) =
          items.filter (fun i => decide (SameClip i.1 f.clip)) := by
        rw [List.filter_append]; simp [hs]
      have ho : (items ++ [(c, e)]).filter (fun i => decide (¬ SameClip i.1 f.clip)) =
          items.filter (fun i => decide (¬ SameClip i.1 f.clip)) ++ [(c, e)] := by
        rw [List.filter_append]; simp [hs]
      refine ⟨⟨e0, rest ++ [(c, e)], by rw [h0]; rfl⟩, ?_, ?_, ?_⟩
      · rw [hm]; exact hc
      · rw [hm]; exact hb
      · rw [ho]; exact pa_figures_add n c e fs _ hr

theorem pa_route (c : Clip) (e : Elem) (p : Page) (items : List (Clip × Elem))
    (h : Routed p items) : Routed (route c e p) (items ++ [(c, e)]) := by
  obtain ⟨hc, hf⟩ := h
  unfold route
  rw [pa_same]
  by_cases hs : SameClip c p.clip
  · rw [if_pos (by simpa using hs)]
    constructor
    · simp only
      rw [List.filter_append, hc]
      have : ([(c, e)] : List (Clip × Elem)).filter (fun i => decide (SameClip i.1 p.clip)) =
          [(c, e)] := by simp [hs]
      rw [this, List.map_append]
      exact (pa_contentOf_push _ _).symm
    · simp only
      rw [List.filter_append]
      have : ([(c, e)] : List (Clip × Elem)).filter (fun i => decide (¬ SameClip i.1 p.clip)) =
          [] := by simp [hs]
      rw [this, List.append_nil]
      exact hf
  · rw [if_neg (by simpa using hs)]
    constructor
    · simp only
      rw [List.filter_append, hc]
      have : ([(c, e)] : List (Clip × Elem)).filter (fun i => decide (SameClip i.1 p.clip)) =
          [] := by simp [hs]
      rw [this, List.append_nil]
    · simp only
      rw [List.filter_append]
      have : ([(c, e)] : List (Clip × Elem)).filter (fun i => decide (¬ SameClip i.1 p.clip)) =
          [(c, e)] := by simp [hs]
      rw [this]
      exact pa_figures_add _ _ _ _ _ hf

/-- The items of one page. -/
def onPage (items : List Item) (k : ℕ) : List (Clip × Elem) :=
  (items.filter fun i => decide (i.page = k)).map fun i => (i.clip, i.elem)

/-- The invariant of the event loop. -/
structure PInv (s : State) (items : List Item) : Prop where
  ranks : items.map (fun i => i.elem.rank) = List.range s.numElements
  routed : ∀ k p, s.docPages[k]? = some p → Routed p (onPage items k)
  pages : ∀ i ∈ items, i.page < s.docPages.length

theorem pa_onPage_append (a b : List Item) (k : ℕ) :
    onPage (a ++ b) k = onPage a k ++ onPage b k := by
  simp [onPage]

theorem pa_place (clip : Clip) (make : ℤ → ℕ → Elem) (s s' : State) (items : List Item)
    (hr : ∀ n r, (make n r).rank = r) (h : PInv s items) (hs : place clip make s = .ok s') :
    PInv s' (items ++ [⟨s.pages.length, clip.round,
      make ((s.page.map Page.pageNum).getD 0) s.numElements⟩]) := by
  unfold place at hs
  cases hp : s.page with
  | none => rw [hp] at hs; cases hs
  | some p =>
    rw [hp] at hs
    have e := Outcome.ok.inj hs
    subst e
    have hd : s.docPages = s.pages ++ [p] := by simp [State.docPages, hp]
    refine ⟨?_, ?_, ?_⟩
    · rw [List.map_append, h.ranks, List.range_succ]
      simp [hr]
    · intro k q hq
      simp only [State.docPages, Option.toList_some] at hq
      rw [pa_onPage_append]
      rcases Nat.lt_trichotomy k s.pages.length with hk | hk | hk
      · have hq' : s.docPages[k]? = some q := by
          rw [List.getElem?_append_left hk] at hq
          rw [hd, List.getElem?_append_left hk]; exact hq
        have : onPage [⟨s.pages.length, clip.round,
            make ((some p).map Page.pageNum |>.getD 0) s.numElements⟩] k = [] := by
          unfold onPage
          rw [List.filter_cons_of_neg (by simpa using (by omega : s.pages.length ≠ k))]
          rfl
        rw [this, List.append_nil]
        exact h.routed k q hq'
      · subst hk
        have hq' : q = route clip.round (make p.pageNum s.numElements) p := by
          rw [List.getElem?_append_right (le_refl _)] at hq
          simpa using hq.symm
        have hp' : s.docPages[s.pages.length]? = some p := by rw [hd]; simp
        have : onPage [⟨s.pages.length, clip.round,
            make ((some p).map Page.pageNum |>.getD 0) s.numElements⟩] s.pages.length =
            [(clip.round, make p.pageNum s.numElements)] := by
          simp [onPage]
        rw [this, hq']
        exact pa_route _ _ _ _ (h.routed _ _ hp')
      · rw [List.getElem?_eq_none (by simp; omega)] at hq
        cases hq
    · intro i hi
      have hl : (s.pages ++ [route clip.round (make p.pageNum s.numElements) p]).length =
          s.docPages.length := by
        rw [hd]; simp
      show i.page < (s.pages ++ [route clip.round (make p.pageNum s.numElements) p]).length
      rw [hl]
      rcases List.mem_append.mp hi with hi | hi
      · exact h.pages i hi
      · have : i.page = s.pages.length := by
          have := List.mem_singleton.mp hi
          rw [this]
        rw [this, hd]; simp

theorem pa_step (t : Tables) (s s' : State) (e : Event) (items : List Item) (h : PInv s items)
    (hs : step t s e = .ok s') : PInv s' (items ++ (drawnBy t s e).toList) := by
  cases e with
  | startPage n clip =>
    have e := Outcome.ok.inj hs
    subst e
    simp only [drawnBy, Option.toList_none, List.append_nil]
    refine ⟨h.ranks, ?_, ?_⟩
    · intro k q hq
      simp only [State.docPages, Option.toList_some] at hq
      rcases Nat.lt_or_ge k (s.pages ++ s.page.toList).length with hk | hk
      · rw [List.getElem?_append_left hk] at hq
        exact h.routed k q hq
      · have hno : onPage items k = [] := by
          unfold onPage
          rw [List.filter_eq_nil_iff.mpr]
          · rfl
          · intro i hi
            have := h.pages i hi
            simp only [State.docPages] at this
            simp only [decide_eq_true_iff]
            omega
        rw [hno]
        rw [List.getElem?_append_right hk] at hq
        have hq' := List.mem_of_getElem? hq
        have hq'' := List.mem_singleton.mp hq'
        subst hq''
        exact ⟨rfl, rfl⟩
    · intro i hi
      have := h.pages i hi
      simp only [State.docPages, List.length_append, Option.toList_some, List.length_cons,
        List.length_nil] at this ⊢
      omega
  | endPage =>
    have e := Outcome.ok.inj hs
    subst e
    simpa [drawnBy] using h
  | updateFont f =>
    simp only [drawnBy, Option.toList_none, List.append_nil]
    have : s'.pages = s.pages ∧ s'.page = s.page ∧ s'.numElements = s.numElements := by
      simp only [step, updateFont] at hs
      split at hs
      · have e := Outcome.ok.inj hs; subst e; exact ⟨rfl, rfl, rfl⟩
      · split at hs
        · have e := Outcome.ok.inj hs; subst e; exact ⟨rfl, rfl, rfl⟩
        · rename_i f' _ _
          cases hf : parseFont t f' with
          | ok v => rw [hf] at hs; have e := Outcome.ok.inj hs; subst e; exact ⟨rfl, rfl, rfl⟩
          | throw m => rw [hf] at hs; cases hs
          | ub m => rw [hf] at hs; cases hs
    obtain ⟨h1, h2, h3⟩ := this
    have hd : s'.docPages = s.docPages := by simp [State.docPages, h1, h2]
    exact ⟨by rw [h3]; exact h.ranks, by rw [hd]; exact h.routed, by rw [hd]; exact h.pages⟩
  | drawChar ev =>
    simp only [step] at hs
    simp only [drawnBy]
    cases hf : s.font with
    | none =>
      rw [hf] at hs
      have e := Outcome.ok.inj hs; subst e
      simpa using h
    | some font =>
      rw [hf] at hs
      simp only at hs
      by_cases hw : isWhitespace (charText t.charMap ev) = true
      · rw [if_pos hw] at hs
        have e := Outcome.ok.inj hs; subst e
        cases hev : ev.font with
        | none => simpa using h
        | some f => simpa [hw] using h
      · rw [if_neg hw] at hs
        cases hev : ev.font with
        | none => rw [hev] at hs; cases hs
        | some f =>
          rw [hev] at hs
          simp only [if_neg hw, Option.toList_some]
          exact pa_place _ _ _ _ _ (fun _ _ => rfl) h hs
  | stroke points clip =>
    simp only [step] at hs
    simp only [drawnBy, Option.toList_some]
    exact pa_place clip (fun n r => .shape (shapeBox clip.round points n) r) _ _ _ (fun _ _ => rfl)
      h hs
  | drawGraphic ctm clip =>
    simp only [step] at hs
    simp only [drawnBy]
    cases hg : graphicBox clip.round ctm with
    | none =>
      rw [hg] at hs
      have e := Outcome.ok.inj hs; subst e
      simpa using h
    | some b =>
      rw [hg] at hs
      simp only [Option.map_some, Option.toList_some]
      exact pa_place clip (fun n r => .graphic { b with pageNum := n } r) _ _ _ (fun _ _ => rfl)
        h hs

theorem pa_run (t : Tables) : ∀ (es : List Event) (s s' : State) (items : List Item),
    PInv s items → run t s es = .ok s' → PInv s' (items ++ history t s es)
  | [], s, s', items, h, hr => by
    have e := Outcome.ok.inj hr
    subst e
    simpa [history] using h
  | e :: es, s, s', items, h, hr => by
    unfold run at hr
    cases hs : step t s e with
    | ok s1 =>
      rw [hs] at hr
      have h1 := pa_step t s s1 e items h hs
      have h2 := pa_run t es s1 s' _ h1 hr
      unfold history
      rw [hs, ← List.append_assoc]
      exact h2
    | throw m => rw [hs] at hr; cases hr
    | ub m => rw [hs] at hr; cases hr

theorem pa_init : PInv {} [] := by
  refine ⟨rfl, ?_, ?_⟩
  · intro k p h
    simp [State.docPages] at h
  · intro i hi; cases hi

/-- **C50.** After any sequence of events, everything that was drawn lies on the page it was drawn
on: directly on the page if its clip box equals that of the page, and else in the figure of its clip
box, in the order of drawing; a figure is created for the first element of a clip box and its box is
the smallest around its elements.  The ranks number the drawn elements in their order. -/
theorem c50_routing (t : Tables) (es : List Event) (s : State) (h : run t {} es = .ok s) :
    (∀ k p, s.docPages[k]? = some p → Routed p (onPage (history t {} es) k)) ∧
    (∀ i ∈ history t {} es, i.page < s.docPages.length) ∧
    (history t {} es).map (fun i => i.elem.rank) = List.range (history t {} es).length := by
  have hi := pa_run t es {} s [] pa_init h
  rw [List.nil_append] at hi
  refine ⟨hi.routed, hi.pages, ?_⟩
  rw [hi.ranks]
  have := congrArg List.length hi.ranks
  rw [List.length_map, List.length_range] at this
  rw [this]

theorem pa_contentOf_ranks (es : List Elem) :
    (Content.ranks (contentOf es)).Perm (es.map Elem.rank) := by
  induction es with
  | nil => simp [contentOf, Content.ranks]
  | cons e es ih =>
    unfold Content.ranks contentOf at ih ⊢
    cases e with
    | char c =>
      simp only [List.filterMap_cons_some, List.filterMap_cons_none, List.map_cons,
        List.cons_append]
      exact List.Perm.cons _ ih
    | shape p r =>
      simp only [List.filterMap_cons, List.map_cons]
      refine List.Perm.trans ?_ (List.Perm.cons _ ih)
      rw [List.append_assoc, List.append_assoc, List.cons_append]
      exact List.perm_middle
    | graphic p r =>
      simp only [List.filterMap_cons, List.map_cons]
      refine List.Perm.trans ?_ (List.Perm.cons _ ih)
      exact List.perm_middle

theorem pa_filter_perm {α : Type} (p : α → Prop) [DecidablePred p] (l : List α) :
    (l.filter (fun x => decide (p x)) ++ l.filter (fun x => decide (¬ p x))).Perm l := by
  have := List.filter_append_perm (fun x => decide (p x)) l
  simpa using this

theorem pa_figures_ranks : ∀ (fs : List Figure) (items : List (Clip × Elem)), Figures fs items →
    (fs.flatMap fun f => Content.ranks f.content).Perm (items.map fun i => i.2.rank)
  | [], items, h => by
    have h : items = [] := h
    subst h; simp
  | f :: fs, items, ⟨_, hc, _, hr⟩ => by
    rw [List.flatMap_cons, hc]
    have h1 := pa_contentOf_ranks
      ((items.filter fun i => decide (SameClip i.1 f.clip)).map (·.2))
    have h2 := pa_figures_ranks fs _ hr
    refine (h1.append h2).trans ?_
    rw [List.map_map]
    refine List.Perm.trans (List.Perm.of_eq (List.map_append
      (f := fun i : Clip × Elem => i.2.rank)).symm) ?_
    exact (pa_filter_perm (fun i : Clip × Elem => SameClip i.1 f.clip) items).map _

theorem pa_routed_ranks (p : Page) (items : List (Clip × Elem)) (h : Routed p items) :
    (Page.ranks p).Perm (items.map fun i => i.2.rank) := by
  obtain ⟨hc, hf⟩ := h
  unfold Page.ranks
  rw [hc]
  have h1 := pa_contentOf_ranks
    ((items.filter fun i => decide (SameClip i.1 p.clip)).map (·.2))
  refine (h1.append (pa_figures_ranks _ _ hf)).trans ?_
  rw [List.map_map]
  refine List.Perm.trans (List.Perm.of_eq (List.map_append
    (f := fun i : Clip × Elem => i.2.rank)).symm) ?_
  exact (pa_filter_perm (fun i : Clip × Elem => SameClip i.1 p.clip) items).map _

/-! ### Everything is recorded exactly once -/

theorem pa_pages_ranks (items : List Item) (ps : List Page)
    (h : ∀ k p, ps[k]? = some p → Routed p (onPage items k)) : ∀ n, n ≤ ps.length →
    ((ps.take n).flatMap Page.ranks).Perm
      ((items.filter fun i => decide (i.page < n)).map fun i => i.elem.rank)
  | 0, _ => by simp
  | n + 1, hn => by
    have ih := pa_pages_ranks items ps h n (by omega)
    have hlt : n < ps.length := by omega
    have hget : ps[n]? = some ps[n] := List.getElem?_eq_getElem hlt
    rw [List.take_add_one, hget, List.flatMap_append]
    have h1 := pa_routed_ranks _ _ (h n _ hget)
    have h2 : ((items.filter fun i => decide (i.page < n)) ++
        items.filter fun i => decide (i.page = n)).Perm
        (items.filter fun i => decide (i.page < n + 1)) := by
      have := pa_filter_perm (fun i : Item => i.page < n)
        (items.filter fun i => decide (i.page < n + 1))
      rw [List.filter_filter, List.filter_filter] at this
      refine List.Perm.trans (List.Perm.of_eq ?_) this
      congr 1
      · apply List.filter_congr
        intro i _
        rw [← Bool.decide_and]
        apply decide_eq_decide.mpr
        omega
      · apply List.filter_congr
        intro i _
        rw [← Bool.decide_and]
        apply decide_eq_decide.mpr
        omega
    refine (ih.append ?_).trans ((List.Perm.of_eq List.map_append.symm).trans (h2.map _))
    simp only [Option.toList_some, List.flatMap_cons, List.flatMap_nil, List.append_nil]
    refine h1.trans (List.Perm.of_eq ?_)
    simp [onPage]

/-- **C50.** Nothing is recorded twice and nothing that was drawn is lost: the ranks found on the
pages and in their figures are exactly 0, 1, ..., n-1, each once, where n is the number of drawn
elements. -/
theorem c50_exactly_once (t : Tables) (es : List Event) (s : State) (h : run t {} es = .ok s) :
    (s.docPages.flatMap Page.ranks).Perm (List.range (history t {} es).length) := by
  obtain ⟨h1, h2, h3⟩ := c50_routing t es s h
  have := pa_pages_ranks (history t {} es) s.docPages h1 s.docPages.length (le_refl _)
  rw [List.take_length] at this
  rw [← h3]
  refine this.trans (List.Perm.of_eq ?_)
  rw [List.filter_eq_self.mpr]
  intro i hi
  simpa using h2 i hi

theorem pa_contentOf_sub (es : List Elem) :
    List.Sublist ((contentOf es).characters.map PChar.rank) (es.map Elem.rank) ∧
    List.Sublist ((contentOf es).shapes.map (·.2)) (es.map Elem.rank) ∧
    List.Sublist ((contentOf es).graphics.map (·.2)) (es.map Elem.rank) := by
  induction es with
  | nil => simp [contentOf]
  | cons e es ih =>
    obtain ⟨h1, h2, h3⟩ := ih
    unfold contentOf at h1 h2 h3 ⊢
    cases e with
    | char c =>
      simp only [List.filterMap_cons, List.map_cons]
      exact ⟨List.Sublist.cons_cons _ h1, List.Sublist.cons _ h2, List.Sublist.cons _ h3⟩
    | shape p r =>
      simp only [List.filterMap_cons, List.map_cons]
      exact ⟨List.Sublist.cons _ h1, List.Sublist.cons_cons _ h2, List.Sublist.cons _ h3⟩
    | graphic p r =>
      simp only [List.filterMap_cons, List.map_cons]
      exact ⟨List.Sublist.cons _ h1, List.Sublist.cons _ h2, List.Sublist.cons_cons _ h3⟩

/-- The ranks of each kind of element are strictly increasing. -/
def IncreasingRanks (c : Content) : Prop :=
  (c.characters.map PChar.rank).Pairwise (· < ·) ∧ (c.shapes.map (·.2)).Pairwise (· < ·) ∧
    (c.graphics.map (·.2)).Pairwise (· < ·)

theorem pa_contentOf_incr (es : List Elem) (h : (es.map Elem.rank).Pairwise (· < ·)) :
    IncreasingRanks (contentOf es) := by
  obtain ⟨h1, h2, h3⟩ := pa_contentOf_sub es
  exact ⟨h.sublist h1, h.sublist h2, h.sublist h3⟩

theorem pa_contentOf_boxes (es : List Elem) :
    ∀ b, b ∈ Content.boxes (contentOf es) ↔ b ∈ es.map Elem.pos := by
  intro b
  unfold Content.boxes contentOf
  simp only [List.mem_append, List.mem_map, List.mem_filterMap]
  constructor
  · rintro ((⟨c, ⟨e, he, hc⟩, hb⟩ | ⟨c, ⟨e, he, hc⟩, hb⟩) | ⟨c, ⟨e, he, hc⟩, hb⟩) <;>
    · cases e <;> simp only [Option.some.injEq, reduceCtorEq] at hc
      subst hc
      exact ⟨_, he, hb⟩
  · rintro ⟨e, he, hb⟩
    cases e with
    | char c => exact Or.inl (Or.inl ⟨c, ⟨_, he, rfl⟩, hb⟩)
    | shape p r => exact Or.inl (Or.inr ⟨(p, r), ⟨_, he, rfl⟩, hb⟩)
    | graphic p r => exact Or.inr ⟨(p, r), ⟨_, he, rfl⟩, hb⟩

theorem pa_same_symm {c d : Clip} (h : SameClip c d) : SameClip d c := by
  obtain ⟨h1, h2, h3, h4⟩ := h
  refine ⟨?_, ?_, ?_, ?_⟩ <;> rw [abs_sub_comm] <;> assumption

theorem pa_figures_facts : ∀ (fs : List Figure) (items : List (Clip × Elem)), Figures fs items →
    (items.map fun i => i.2.rank).Pairwise (· < ·) →
    fs.Pairwise (fun f g => ¬ SameClip f.clip g.clip) ∧
    ∀ f ∈ fs, (∃ i ∈ items, i.1 = f.clip) ∧ Content.boxes f.content ≠ [] ∧
      IsHull (Content.boxes f.content) f.pos ∧ IncreasingRanks f.content
  | [], _, _, _ => ⟨List.Pairwise.nil, by simp⟩
  | f :: fs, items, ⟨⟨e, rest, he⟩, hc, hb, hr⟩, hi => by
    have hsub : (items.filter fun i => decide (¬ SameClip i.1 f.clip)).Sublist items :=
      List.filter_sublist
    have hsub' : (items.filter fun i => decide (SameClip i.1 f.clip)).Sublist items :=
      List.filter_sublist
    obtain ⟨h1, h2⟩ := pa_figures_facts fs _ hr (hi.sublist (hsub.map _))
    have hmap : ((items.filter fun i => decide (SameClip i.1 f.clip)).map (·.2)).map Elem.pos =
        (items.filter fun i => decide (SameClip i.1 f.clip)).map (·.2.pos) := by
      rw [List.map_map]; rfl
    have hmem : ∀ b, b ∈ Content.boxes f.content ↔
        b ∈ (items.filter fun i => decide (SameClip i.1 f.clip)).map (·.2.pos) := by
      intro b
      rw [hc, pa_contentOf_boxes, hmap]
    constructor
    · refine List.Pairwise.cons ?_ h1
      intro g hg hs
      obtain ⟨⟨i, hi', e'⟩, _⟩ := h2 g hg
      have := (List.mem_filter.mp hi').2
      rw [decide_eq_true_iff, e'] at this
      exact this (pa_same_symm hs)
    · intro g hg
      rcases List.mem_cons.mp hg with rfl | hg
      · have hin : e.pos ∈ Content.boxes g.content := by
          rw [hmem]
          refine List.mem_map.mpr ⟨(g.clip, e), List.mem_filter.mpr ⟨by rw [he]; simp, ?_⟩, rfl⟩
          simpa using pa_same_refl g.clip
        refine ⟨⟨(g.clip, e), by rw [he]; simp, rfl⟩, List.ne_nil_of_mem hin, ?_, ?_⟩
        · have hl : ∀ (k : Box → ℚ) v, IsLeastOf ((items.filter fun i =>
              decide (SameClip i.1 g.clip)).map (·.2.pos)) k v →
              IsLeastOf (Content.boxes g.content) k v := by
            rintro k v ⟨⟨x, hx, e⟩, hall⟩
            exact ⟨⟨x, (hmem x).mpr hx, e⟩, fun y hy => hall y ((hmem y).mp hy)⟩
          have hg : ∀ (k : Box → ℚ) v, IsGreatestOf ((items.filter fun i =>
              decide (SameClip i.1 g.clip)).map (·.2.pos)) k v →
              IsGreatestOf (Content.boxes g.content) k v := by
            rintro k v ⟨⟨x, hx, e⟩, hall⟩
            exact ⟨⟨x, (hmem x).mpr hx, e⟩, fun y hy => hall y ((hmem y).mp hy)⟩
          exact ⟨hl _ _ hb.left, hl _ _ hb.upper, hg _ _ hb.right, hg _ _ hb.lower⟩
        · rw [hc]
          apply pa_contentOf_incr
          rw [List.map_map]
          exact hi.sublist (hsub'.map _)
      · obtain ⟨⟨i, hi', e'⟩, h3⟩ := h2 g hg
        exact ⟨⟨i, (List.mem_filter.mp hi').1, e'⟩, h3⟩

theorem pa_onPage_incr (items : List Item) (k : ℕ) (n : ℕ)
    (h : items.map (fun i => i.elem.rank) = List.range n) :
    ((onPage items k).map fun i => i.2.rank).Pairwise (· < ·) := by
  unfold onPage
  rw [List.map_map]
  have h1 : (items.map fun i => i.elem.rank).Pairwise (· < ·) := by
    rw [h]; exact List.pairwise_lt_range
  have h2 : (items.filter fun i => decide (i.page = k)).Sublist items := List.filter_sublist
  exact h1.sublist (h2.map _)

/-- **C50.** No two figures of a page have the same clip box and none has that of the page; a figure
is not empty and its box is the smallest one around all its elements; the elements of a page and of a
figure are listed in the order in which they were drawn. -/
theorem c50_figures (t : Tables) (es : List Event) (s : State) (h : run t {} es = .ok s) :
    ∀ p ∈ s.docPages,
      p.figures.Pairwise (fun f g => ¬ SameClip f.clip g.clip) ∧
      (∀ f ∈ p.figures, ¬ SameClip f.clip p.clip ∧ Content.boxes f.content ≠ [] ∧
        IsHull (Content.boxes f.content) f.pos ∧ IncreasingRanks f.content) ∧
      IncreasingRanks p.content := by
  intro p hp
  obtain ⟨k, hk⟩ := List.getElem?_of_mem hp
  obtain ⟨h1, _, h3⟩ := c50_routing t es s h
  obtain ⟨hc, hf⟩ := h1 k p hk
  have hi := pa_onPage_incr _ k _ h3
  have hsub : ((onPage (history t {} es) k).filter fun i =>
      decide (¬ SameClip i.1 p.clip)).Sublist (onPage (history t {} es) k) := List.filter_sublist
  have hsub' : ((onPage (history t {} es) k).filter fun i =>
      decide (SameClip i.1 p.clip)).Sublist (onPage (history t {} es) k) := List.filter_sublist
  obtain ⟨h4, h5⟩ := pa_figures_facts _ _ hf (hi.sublist (hsub.map _))
  refine ⟨h4, ?_, ?_⟩
  · intro f hf'
    obtain ⟨⟨i, hi', e⟩, h6⟩ := h5 f hf'
    refine ⟨?_, h6⟩
    have := (List.mem_filter.mp hi').2
    rw [decide_eq_true_iff, e] at this
    exact this
  · rw [hc]
    apply pa_contentOf_incr
    rw [List.map_map]
    exact hi.sublist (hsub'.map _)

theorem pa_contentOf_char (es : List Elem) (c : PChar) :
    c ∈ (contentOf es).characters ↔ Elem.char c ∈ es := by
  unfold contentOf
  simp only [List.mem_filterMap]
  constructor
  · rintro ⟨e, he, hc⟩
    cases e <;> simp only [Option.some.injEq, reduceCtorEq] at hc
    subst hc; exact he
  · intro h; exact ⟨_, h, rfl⟩

theorem pa_figures_char : ∀ (fs : List Figure) (items : List (Clip × Elem)), Figures fs items →
    ∀ f ∈ fs, ∀ c ∈ f.content.characters, ∃ i ∈ items, i.2 = Elem.char c
  | [], _, _ => by simp
  | f :: fs, items, ⟨_, hc, _, hr⟩ => by
    intro g hg c hcg
    rcases List.mem_cons.mp hg with rfl | hg
    · rw [hc, pa_contentOf_char] at hcg
      obtain ⟨i, hi, e⟩ := List.mem_map.mp hcg
      exact ⟨i, (List.mem_filter.mp hi).1, e⟩
    · obtain ⟨i, hi, e⟩ := pa_figures_char fs _ hr g hg c hcg
      exact ⟨i, (List.mem_filter.mp hi).1, e⟩

theorem pa_allChars (p : Page) (items : List (Clip × Elem)) (h : Routed p items) (c : PChar)
    (hc : c ∈ Page.allChars p) : ∃ i ∈ items, i.2 = Elem.char c := by
  obtain ⟨h1, h2⟩ := h
  rcases List.mem_append.mp hc with hc | hc
  · rw [h1, pa_contentOf_char] at hc
    obtain ⟨i, hi, e⟩ := List.mem_map.mp hc
    exact ⟨i, (List.mem_filter.mp hi).1, e⟩
  · obtain ⟨f, hf, hc⟩ := List.mem_flatMap.mp hc
    obtain ⟨i, hi, e⟩ := pa_figures_char _ _ h2 f hf c hc
    exact ⟨i, (List.mem_filter.mp hi).1, e⟩

/-- The parser runs to the end on every orderly sequence of events. -/
theorem pa_runs (t : Tables) : ∀ (es : List Event) (s : State), Orderly t s.page.isSome es →
    ∃ s', run t s es = .ok s'
  | [], s, _ => ⟨s, rfl⟩
  | e :: es, s, h => by
    have key : ∃ s1, step t s e = .ok s1 ∧ Orderly t s1.page.isSome es := by
      cases e with
      | startPage n clip => exact ⟨_, rfl, h⟩
      | endPage => exact ⟨_, rfl, h⟩
      | updateFont f =>
        obtain ⟨h1, h2⟩ := h
        cases f with
        | none => exact ⟨_, rfl, h2⟩
        | some g =>
          simp only [step, updateFont]
          cases hf : findFont s.fonts (g.gfx.name.getD g.gfx.address) with
          | some k => exact ⟨_, rfl, h2⟩
          | none =>
            have h1 := h1 g rfl
            cases hp : parseFont t g with
            | ok v => exact ⟨_, rfl, h2⟩
            | throw m => rw [hp] at h1; cases h1
            | ub m => rw [hp] at h1; cases h1
      | drawChar ev =>
        obtain ⟨h1, h2, h3⟩ := h
        simp only [step]
        cases hf : s.font with
        | none => exact ⟨_, rfl, h3⟩
        | some f =>
          simp only
          by_cases hw : isWhitespace (charText t.charMap ev) = true
          · rw [if_pos hw]; exact ⟨_, rfl, h3⟩
          · rw [if_neg hw]
            cases he : ev.font with
            | none => rw [he] at h2; cases h2
            | some g =>
              simp only [place]
              cases hp : s.page with
              | none => rw [hp] at h1; cases h1
              | some p => rw [hp] at h3; exact ⟨_, rfl, h3⟩
      | stroke ps clip =>
        obtain ⟨h1, h3⟩ := h
        simp only [step, place]
        cases hp : s.page with
        | none => rw [hp] at h1; cases h1
        | some p => rw [hp] at h3; exact ⟨_, rfl, h3⟩
      | drawGraphic m clip =>
        obtain ⟨h1, h3⟩ := h
        simp only [step]
        cases hg : graphicBox clip.round m with
        | none => exact ⟨_, rfl, h3⟩
        | some b =>
          simp only [place]
          cases hp : s.page with
          | none => rw [hp] at h1; cases h1
          | some p => rw [hp] at h3; exact ⟨_, rfl, h3⟩
    obtain ⟨s1, e1, h1⟩ := key
    obtain ⟨s', e'⟩ := pa_runs t es s1 h1
    exact ⟨s', by unfold run; rw [e1]; exact e'⟩

/-- **C50.** On every orderly sequence of events the parser runs to the end, with no undefined
behaviour. -/
theorem c50_runs (t : Tables) (es : List Event) (h : Orderly t false es) :
    ∃ s, run t {} es = .ok s := pa_runs t es {} h

/-! ## Fonts -/

theorem pa_asciiLoop_name (numbers : Str → List ℚ) : ∀ (ls : List Str) (a w : Bool)
    (i i' : FontInfo.Info), FontInfo.asciiLoop numbers a w ls i = .ok i' → i'.fontName = i.fontName
  | [], a, w, i, i', h => by
    have := Outcome.ok.inj h; rw [this]
  | l :: ls, a, w, i, i', h => by
    unfold FontInfo.asciiLoop at h
    cases hm : FontInfo.matrixAfter numbers l i.fontMatrix with
    | ok m =>
      rw [hm] at h
      have := pa_asciiLoop_name numbers ls _ _ _ _ h
      exact this
    | throw m => rw [hm] at h; cases h
    | ub m => rw [hm] at h; cases h

theorem pa_parseFont_name (t : Tables) (f : EventFont) (new : Font)
    (h : parseFont t f = .ok new) : new.info.fontName = f.gfx.name.getD f.gfx.address := by
  unfold parseFont at h
  cases he : f.embedded with
  | none => rw [he] at h; have := Outcome.ok.inj h; rw [← this]; rfl
  | some x =>
    obtain ⟨ascii, g⟩ := x
    rw [he] at h
    simp only at h
    cases hp : FontInfo.parseAscii t.numbers ascii (FontInfo.ofGfx f.gfx) with
    | ok i =>
      rw [hp] at h
      have := Outcome.ok.inj h
      rw [← this]
      exact pa_asciiLoop_name _ _ _ _ _ _ hp
    | throw m => rw [hp] at h; cases h
    | ub m => rw [hp] at h; cases h

theorem pa_findFont_append (fonts : List (Str × Font)) (n k : Str) (f g : Font)
    (h : findFont fonts n = some f) : findFont (fonts ++ [(k, g)]) n = some f := by
  unfold findFont at h ⊢
  rw [List.find?_append]
  cases hf : fonts.find? (fun p => p.1 == n) with
  | none => rw [hf] at h; cases h
  | some p => rw [hf] at h; simpa using h

theorem pa_findFont_new (fonts : List (Str × Font)) (k : Str) (g : Font)
    (h : findFont fonts k = none) : findFont (fonts ++ [(k, g)]) k = some g := by
  unfold findFont at h ⊢
  rw [List.find?_append]
  cases hf : fonts.find? (fun p => p.1 == k) with
  | none => simp
  | some p => rw [hf] at h; cases h

/-- The invariant of the fonts. -/
structure FInv (s : State) (cs : List PChar) : Prop where
  names : ∀ n f, findFont s.fonts n = some f → f.info.fontName = n
  current : ∀ f, s.font = some f → findFont s.fonts f.info.fontName = some f
  chars : ∀ c ∈ cs, ∃ f, findFont s.fonts c.fontName = some f

/-- The character an item is. -/
def itemChar (i : Item) : Option PChar :=
  match i.elem with
  | .char c => some c
  | _ => none

theorem pa_place_fonts (clip : Clip) (make : ℤ → ℕ → Elem) (s s' : State)
    (hs : place clip make s = .ok s') : s'.fonts = s.fonts ∧ s'.font = s.font := by
  unfold place at hs
  cases hp : s.page with
  | none => rw [hp] at hs; cases hs
  | some p => rw [hp] at hs; have e := Outcome.ok.inj hs; subst e; exact ⟨rfl, rfl⟩

theorem pa_finv_same {s s' : State} {cs : List PChar} (h : FInv s cs)
    (e : s'.fonts = s.fonts ∧ s'.font = s.font) : FInv s' cs :=
  ⟨by rw [e.1]; exact h.names, by rw [e.1, e.2]; exact h.current, by rw [e.1]; exact h.chars⟩

theorem pa_fstep (t : Tables) (s s' : State) (e : Event) (cs : List PChar) (h : FInv s cs)
    (hs : step t s e = .ok s') :
    FInv s' (cs ++ ((drawnBy t s e).bind itemChar).toList) := by
  cases e with
  | startPage n clip =>
    have e := Outcome.ok.inj hs
    subst e
    simpa [drawnBy] using pa_finv_same (s' := { s with
      pages := s.docPages
      page := some { pageNum := n, clip := clip.round, content := {}, figures := [] } })
      h ⟨rfl, rfl⟩
  | endPage =>
    have e := Outcome.ok.inj hs
    subst e
    simpa [drawnBy] using h
  | updateFont f =>
    simp only [drawnBy, Option.bind_none, Option.toList_none, List.append_nil]
    simp only [step, updateFont] at hs
    cases f with
    | none =>
      have e := Outcome.ok.inj hs
      subst e
      exact ⟨h.names, by simp, h.chars⟩
    | some f =>
      simp only at hs
      cases hf : findFont s.fonts (f.gfx.name.getD f.gfx.address) with
      | some known =>
        rw [hf] at hs
        have e := Outcome.ok.inj hs
        subst e
        refine ⟨h.names, ?_, h.chars⟩
        intro g hg
        have := Option.some.inj hg
        subst this
        simp only
        rw [h.names _ _ hf]; exact hf
      | none =>
        rw [hf] at hs
        simp only at hs
        cases hp : parseFont t f with
        | throw m => rw [hp] at hs; cases hs
        | ub m => rw [hp] at hs; cases hs
        | ok new =>
          rw [hp] at hs
          have e := Outcome.ok.inj hs
          subst e
          have hn := pa_parseFont_name t f new hp
          refine ⟨?_, ?_, ?_⟩
          · intro n g hg
            simp only at hg
            cases hold : findFont s.fonts n with
            | some g' =>
              rw [pa_findFont_append _ _ _ _ _ hold] at hg
              have := Option.some.inj hg
              subst this
              exact h.names _ _ hold
            | none =>
              by_cases hk : f.gfx.name.getD f.gfx.address = n
              · subst hk
                rw [pa_findFont_new _ _ _ hold] at hg
                have := Option.some.inj hg
                subst this
                exact hn
              · exfalso
                unfold findFont at hold hg
                rw [List.find?_append] at hg
                cases hx : s.fonts.find? (fun p => p.1 == n) with
                | some p => rw [hx] at hold; cases hold
                | none =>
                  rw [hx] at hg
                  simp [hk] at hg
          · intro g hg
            have := Option.some.inj hg
            subst this
            simp only
            rw [hn]
            exact pa_findFont_new _ _ _ hf
          · intro c hc
            obtain ⟨g, hg⟩ := h.chars c hc
            exact ⟨g, pa_findFont_append _ _ _ _ _ hg⟩
  | drawChar ev =>
    simp only [step] at hs
    simp only [drawnBy]
    cases hf : s.font with
    | none =>
      rw [hf] at hs
      have e := Outcome.ok.inj hs; subst e
      simpa using h
    | some font =>
      rw [hf] at hs
      simp only at hs
      by_cases hw : isWhitespace (charText t.charMap ev) = true
      · rw [if_pos hw] at hs
        have e := Outcome.ok.inj hs; subst e
        cases hev : ev.font with
        | none => simpa using h
        | some f => simpa [hw] using h
      · rw [if_neg hw] at hs
        cases hev : ev.font with
        | none => rw [hev] at hs; cases hs
        | some f =>
          rw [hev] at hs
          simp only [if_neg hw]
          have e := pa_place_fonts _ _ _ _ hs
          refine pa_finv_same (s := s) ⟨h.names, h.current, ?_⟩ e
          intro c hc
          rcases List.mem_append.mp hc with hc | hc
          · exact h.chars c hc
          · simp only [Option.bind_some, itemChar, Option.toList_some, List.mem_singleton] at hc
            subst hc
            exact ⟨font, h.current font hf⟩
  | stroke points clip =>
    simp only [step] at hs
    simp only [drawnBy, Option.bind_some, itemChar, Option.toList_none, List.append_nil]
    exact pa_finv_same h (pa_place_fonts _ _ _ _ hs)
  | drawGraphic ctm clip =>
    simp only [step] at hs
    simp only [drawnBy]
    cases hg : graphicBox clip.round ctm with
    | none =>
      rw [hg] at hs
      have e := Outcome.ok.inj hs; subst e
      simpa using h
    | some b =>
      rw [hg] at hs
      simp only [Option.map_some, Option.bind_some, itemChar, Option.toList_none, List.append_nil]
      exact pa_finv_same h (pa_place_fonts _ _ _ _ hs)

theorem pa_frun (t : Tables) : ∀ (es : List Event) (s s' : State) (cs : List PChar),
    FInv s cs → run t s es = .ok s' → FInv s' (cs ++ (history t s es).filterMap itemChar)
  | [], s, s', cs, h, hr => by
    have e := Outcome.ok.inj hr
    subst e
    simpa [history] using h
  | e :: es, s, s', cs, h, hr => by
    unfold run at hr
    cases hs : step t s e with
    | ok s1 =>
      rw [hs] at hr
      have h1 := pa_fstep t s s1 e cs h hs
      have h2 := pa_frun t es s1 s' _ h1 hr
      unfold history
      rw [hs, List.filterMap_append]
      have : (drawnBy t s e).toList.filterMap itemChar =
          ((drawnBy t s e).bind itemChar).toList := by
        cases drawnBy t s e with
        | none => rfl
        | some i =>
          simp only [Option.toList_some, Option.bind_some, List.filterMap_cons,
            List.filterMap_nil]
          cases itemChar i <;> rfl
      rw [this, ← List.append_assoc]
      exact h2
    | throw m => rw [hs] at hr; cases hr
    | ub m => rw [hs] at hr; cases hr

/-- **C51.** Every character on a page or in a figure has an entry under its font name in the
document's font information, and the entry carries this name. -/
theorem c51_font_known (t : Tables) (es : List Event) (s : State) (h : run t {} es = .ok s) :
    ∀ p ∈ s.docPages, ∀ c ∈ Page.allChars p,
      ∃ f, findFont s.fonts c.fontName = some f ∧ f.info.fontName = c.fontName := by
  have hf := pa_frun t es {} s [] ⟨by simp [findFont], by simp, by simp⟩ h
  intro p hp c hc
  obtain ⟨k, hk⟩ := List.getElem?_of_mem hp
  obtain ⟨h1, _, _⟩ := c50_routing t es s h
  obtain ⟨i, hi, e⟩ := pa_allChars p _ (h1 k p hk) c hc
  obtain ⟨j, hj, e'⟩ := List.mem_map.mp hi
  have hj' := (List.mem_filter.mp hj).1
  have hcs : c ∈ [] ++ (history t {} es).filterMap itemChar := by
    rw [List.nil_append, List.mem_filterMap]
    refine ⟨j, hj', ?_⟩
    have : j.elem = Elem.char c := by rw [← e, ← e']
    simp [itemChar, this]
  obtain ⟨f, hf'⟩ := hf.chars c hcs
  exact ⟨f, hf', hf.names _ _ hf'⟩

/-- **C51.** A word, line or block takes the font name that is most frequent among its characters
(or lines): if those have entries, it has one. -/
theorem c51_inherited (h : Counter.HashOrder) (fonts : List (Str × Font)) (names : List Str)
    (hne : names ≠ []) (hlen : names.length < 2 ^ 32)
    (hk : ∀ n ∈ names, ∃ f, findFont fonts n = some f) :
    ∃ n, Counter.mostFreqOr h [] [] names = .ok n ∧ n ∈ names ∧
      ∃ f, findFont fonts n = some f := by
  obtain ⟨n, h1, h2⟩ := mostFreqOr_spec h ([] : Str) [] names
  have := (h2 hne hlen).1
  exact ⟨n, h1, this, hk n this⟩

/-- The event sets the font. -/
def isUpdateFont : Event → Bool
  | .updateFont _ => true
  | _ => false

theorem pa_step_font (t : Tables) (s s' : State) (e : Event) (h : isUpdateFont e = false)
    (hs : step t s e = .ok s') : s'.font = s.font := by
  cases e with
  | startPage n clip => have e := Outcome.ok.inj hs; subst e; rfl
  | endPage => have e := Outcome.ok.inj hs; subst e; rfl
  | updateFont f => cases h
  | drawChar ev =>
    simp only [step] at hs
    cases hf : s.font with
    | none => rw [hf] at hs; have e := Outcome.ok.inj hs; subst e; exact hf
    | some font =>
      rw [hf] at hs
      simp only at hs
      by_cases hw : isWhitespace (charText t.charMap ev) = true
      · rw [if_pos hw] at hs
        have e := Outcome.ok.inj hs; subst e; exact hf
      · rw [if_neg hw] at hs
        cases hev : ev.font with
        | none => rw [hev] at hs; cases hs
        | some f => rw [hev] at hs; rw [(pa_place_fonts _ _ _ _ hs).2, hf]
  | stroke points clip =>
    simp only [step] at hs
    exact (pa_place_fonts _ _ _ _ hs).2
  | drawGraphic ctm clip =>
    simp only [step] at hs
    cases hg : graphicBox clip.round ctm with
    | none => rw [hg] at hs; have e := Outcome.ok.inj hs; subst e; rfl
    | some b => rw [hg] at hs; exact (pa_place_fonts _ _ _ _ hs).2

theorem pa_run_font (t : Tables) : ∀ (es : List Event) (s s' : State),
    (∀ e ∈ es, isUpdateFont e = false) → run t s es = .ok s' → s'.font = s.font
  | [], s, s', _, h => by have e := Outcome.ok.inj h; subst e; rfl
  | e :: es, s, s', hn, h => by
    unfold run at h
    cases hs : step t s e with
    | ok s1 =>
      rw [hs] at h
      rw [pa_run_font t es s1 s' (fun x hx => hn x (by simp [hx])) h]
      exact pa_step_font t s s1 e (hn e (by simp)) hs
    | throw m => rw [hs] at h; cases h
    | ub m => rw [hs] at h; cases h

theorem pa_run_append (t : Tables) : ∀ (a b : List Event) (s : State),
    run t s (a ++ b) = (run t s a).bind fun s' => run t s' b
  | [], b, s => rfl
  | e :: a, b, s => by
    rw [List.cons_append, run, run]
    cases hs : step t s e with
    | ok s1 => exact pa_run_append t a b s1
    | throw m => rfl
    | ub m => rfl

/-- **C51.** A drawn character carries the name of the font set by the last font event before it (if
Poppler changes the font without such an event, the name is stale), or it is not recorded if that
event set no font. -/
theorem c51_last_font (t : Tables) (before between : List Event) (f : Option EventFont)
    (ev : CharEvent) (s : State) (hn : ∀ e ∈ between, isUpdateFont e = false)
    (h : run t {} (before ++ .updateFont f :: between) = .ok s) (i : Item)
    (hi : drawnBy t s (.drawChar ev) = some i) :
    ∃ g c, f = some g ∧ i.elem = .char c ∧ c.fontName = g.gfx.name.getD g.gfx.address := by
  rw [pa_run_append] at h
  cases h1 : run t {} before with
  | throw m => rw [h1] at h; cases h
  | ub m => rw [h1] at h; cases h
  | ok s1 =>
    rw [h1] at h
    have h : run t s1 (.updateFont f :: between) = .ok s := h
    have hf1 := pa_frun t before {} s1 [] ⟨by simp [findFont], by simp, by simp⟩ h1
    unfold run at h
    cases h2 : step t s1 (.updateFont f) with
    | throw m => rw [h2] at h; cases h
    | ub m => rw [h2] at h; cases h
    | ok s2 =>
      rw [h2] at h
      have h : run t s2 between = .ok s := h
      have hfont := pa_run_font t between s2 s hn h
      have h2f : ∀ fo, s2.font = some fo →
          ∃ g, f = some g ∧ fo.info.fontName = g.gfx.name.getD g.gfx.address := by
        intro fo hfo
        simp only [step, updateFont] at h2
        cases f with
        | none => have e := Outcome.ok.inj h2; subst e; cases hfo
        | some g =>
          refine ⟨g, rfl, ?_⟩
          simp only at h2
          cases hk : findFont s1.fonts (g.gfx.name.getD g.gfx.address) with
          | some known =>
            rw [hk] at h2
            have e := Outcome.ok.inj h2; subst e
            have := Option.some.inj hfo
            subst this
            exact hf1.names _ _ hk
          | none =>
            rw [hk] at h2
            simp only at h2
            cases hp : parseFont t g with
            | throw m => rw [hp] at h2; cases h2
            | ub m => rw [hp] at h2; cases h2
            | ok new =>
              rw [hp] at h2
              have e := Outcome.ok.inj h2; subst e
              have := Option.some.inj hfo
              subst this
              exact pa_parseFont_name t g _ hp
      simp only [drawnBy] at hi
      cases hs : s.font with
      | none => rw [hs] at hi; cases hi
      | some fo =>
        rw [hs] at hi
        obtain ⟨g, e1, e2⟩ := h2f fo (by rw [← hfont, hs])
        cases hev : ev.font with
        | none => rw [hev] at hi; cases hi
        | some sf =>
          rw [hev] at hi
          simp only at hi
          split at hi
          · cases hi
          · have e := Option.some.inj hi
            subst e
            exact ⟨g, _, e1, rfl, e2⟩

theorem pa_drawn_text (t : Tables) (s : State) (e : Event) (i : Item) (c : PChar)
    (h : drawnBy t s e = some i) (hc : i.elem = .char c) : isWhitespace c.text = false := by
  cases e with
  | startPage n clip => cases h
  | endPage => cases h
  | updateFont f => cases h
  | drawChar ev =>
    simp only [drawnBy] at h
    cases hf : s.font with
    | none => rw [hf] at h; cases h
    | some f =>
      cases he : ev.font with
      | none => rw [hf, he] at h; cases h
      | some g =>
        rw [hf, he] at h
        simp only at h
        split at h
        · cases h
        · rename_i hw
          have e := Option.some.inj h
          rw [← e] at hc
          have := Elem.char.inj hc
          rw [← this]
          simpa [makeChar] using hw
  | stroke ps clip =>
    simp only [drawnBy] at h
    have e := Option.some.inj h
    rw [← e] at hc; cases hc
  | drawGraphic m clip =>
    simp only [drawnBy] at h
    cases hg : graphicBox clip.round m with
    | none => rw [hg] at h; cases h
    | some b =>
      rw [hg] at h
      have e := Option.some.inj h
      rw [← e] at hc; cases hc

theorem pa_history_text (t : Tables) : ∀ (es : List Event) (s : State) (i : Item) (c : PChar),
    i ∈ history t s es → i.elem = .char c → isWhitespace c.text = false
  | [], _, _, _, h, _ => by cases h
  | e :: es, s, i, c, h, hc => by
    unfold history at h
    rcases List.mem_append.mp h with h | h
    · exact pa_drawn_text t s e i c (by simpa using h) hc
    · cases hs : step t s e with
      | ok s' => rw [hs] at h; exact pa_history_text t es s' i c h hc
      | throw m => rw [hs] at h; cases h
      | ub m => rw [hs] at h; cases h

/-- **C50.** No character that consists of white space is recorded: the text of every recorded
character is empty or has a letter that is not white space (nor a non-breaking space). -/
theorem c50_no_white_space (t : Tables) (es : List Event) (s : State) (h : run t {} es = .ok s) :
    ∀ p ∈ s.docPages, ∀ c ∈ Page.allChars p,
      c.text = [] ∨ ∃ x ∈ c.text, Text.isSpaceC x = false ∧ x.toNat ≠ 160 := by
  intro p hp c hc
  obtain ⟨k, hk⟩ := List.getElem?_of_mem hp
  obtain ⟨h1, _, _⟩ := c50_routing t es s h
  obtain ⟨i, hi, e⟩ := pa_allChars p _ (h1 k p hk) c hc
  obtain ⟨j, hj, e'⟩ := List.mem_map.mp hi
  have hj' := (List.mem_filter.mp hj).1
  have := pa_history_text t es {} j c hj' (by rw [← e, ← e'])
  unfold isWhitespace at this
  rw [Bool.and_eq_false_iff] at this
  rcases this with h | h
  · left
    simpa using h
  · right
    rw [List.all_eq_false] at h
    obtain ⟨x, hx, hw⟩ := h
    refine ⟨x, hx, ?_⟩
    unfold isWhite at hw
    rw [Bool.not_eq_true, Bool.or_eq_false_iff] at hw
    exact ⟨hw.1, by simpa using hw.2⟩

/-! ### Examples -/

/-- What Poppler reports about the font of the example. -/
def exParseGfx : FontInfo.Gfx where
  name := some "ABCDEF+CMR10".toList
  address := "0x1".toList
  fixedWidth := false
  serif := true
  symbolic := false
  italic := false
  bold := false
  type3 := false
  weight := 0
  fontMatrix := [1 / 1000, 0, 0, 1 / 1000, 0, 0]

/-- Tables without entries. -/
def exTables : Tables := ⟨fun _ => none, fun _ => []⟩

/-- The font of the graphics state of the example. -/
def exFont : StateFont where
  type3 := false
  matrix := ⟨1, 0, 0, 1, 0, 0⟩
  wMode := false
  charName := "A".toList
  width := 1 / 2

/-- Drawing a character with the given text. -/
def exChar (text : Str) : Event := .drawChar
  { font := some exFont, uLen := 1, mapped := some text, fontTrans := (10, 0, 0, -10)
    fontSize := 10, horizScaling := 1, rise := 0, textMat := (1, 0, 0, 1), curX := 100, curY := 600
    ctm := ⟨1, 0, 0, -1, 0, 800⟩, transformedFontSize := 10, clip := ⟨0, 0, 600, 800⟩ }

/-- A page with a letter, a space, an image, a line in a figure and another line in it. -/
def exEvents : List Event :=
  [.startPage 1 ⟨0, 0, 600, 800⟩, .updateFont (some ⟨exParseGfx, none⟩), exChar "A".toList,
   exChar " ".toList, .drawGraphic ⟨200, 0, 0, -100, 50, 300⟩ ⟨0, 0, 600, 800⟩,
   .stroke [(110, 110), (120, 120)] ⟨100, 100, 200, 200⟩, .endPage,
   .stroke [(150, 130), (160, 130)] ⟨100, 100, 200, 200⟩]

/-- The ranks on the pages of the example: characters, graphics, and the shapes of the figures with
the box of the figure. -/
def exPages : List (List ℕ × List ℕ × List (List ℕ × List ℚ)) :=
  match run exTables {} exEvents with
  | .ok s => s.docPages.map fun p => (p.content.characters.map PChar.rank,
      p.content.graphics.map (·.2), p.figures.map fun f => (f.content.shapes.map (·.2),
        [f.pos.leftX, f.pos.upperY, f.pos.rightX, f.pos.lowerY]))
  | _ => []

/-- The known font names of the example and those of the characters. -/
def exFontNames : List Str × List Str :=
  match run exTables {} exEvents with
  | .ok s => (s.fonts.map (·.1), s.docPages.flatMap fun p => (Page.allChars p).map PChar.fontName)
  | _ => ([], [])

/-- Non-vacuity: the parser runs on the example; the space is skipped, the letter and the image are on
the page, both lines are in one figure. -/
example : Orderly exTables false exEvents ∧
    (history exTables {} exEvents).map (fun i => i.elem.rank) = [0, 1, 2, 3] ∧
    exPages = [([0], [1], [([2, 3], [110, 110, 160, 130])])] ∧
    exFontNames = (["ABCDEF+CMR10".toList], ["ABCDEF+CMR10".toList]) := by
  refine ⟨⟨?_, rfl, rfl, rfl, rfl, rfl, rfl, rfl, trivial⟩, ?_, ?_, ?_⟩
  · intro g hg
    have := Option.some.inj hg
    subst this
    rfl
  all_goals decide +kernel

end Verif.Props

import Verif.Spec.Ownership
import Mathlib.Data.Multiset.Basic
import Mathlib.Data.Multiset.AddSub
import Mathlib.Data.Multiset.UnionInter
import Mathlib.Data.Multiset.ZeroCons
import Mathlib.Algebra.Order.Group.Multiset
import Mathlib.Tactic.Abel
import Mathlib.Tactic.FinCases
import Mathlib.Data.Fintype.Basic

/-!
# C82: every object is released exactly once

The objects of a document form a forest: what a destructor reaches is described by a footprint (a multiset of addresses) per object, and the
footprints of a document have no address in common.
-/

namespace Verif.Props

open Verif.Ownership Verif.Spec

/-! ## Footprints -/

/-- The footprint of a list of pointers. -/
inductive OwnsAll (P : Addr → Multiset ℕ → Prop) : List Addr → Multiset ℕ → Prop where
  | nil : OwnsAll P [] 0
  | cons {a as f g} : P a f → OwnsAll P as g → OwnsAll P (a :: as) (f + g)

def OwnsElem (k : Kind) (h : Heap) (a : Addr) (f : Multiset ℕ) : Prop :=
  ∃ p, h.obj a = some (.element k p) ∧ h.obj p = some .position ∧ f = {p} + {a}

def OwnsLeaf (o : Obj) (h : Heap) (a : Addr) (f : Multiset ℕ) : Prop := h.obj a = some o ∧ f = {a}

def OwnsFigure (h : Heap) (a : Addr) (f : Multiset ℕ) : Prop :=
  ∃ p cs ss gs f1 f2 f3, h.obj a = some (.figure p cs ss gs) ∧ h.obj p = some .position ∧ OwnsAll (OwnsElem .character h) cs f1 ∧
    OwnsAll (OwnsElem .shape h) ss f2 ∧ OwnsAll (OwnsElem .graphic h) gs f3 ∧ f = f1 + (f2 + (f3 + ({p} + {a})))

def OwnsSegment (h : Heap) (a : Addr) (f : Multiset ℕ) : Prop :=
  ∃ p ls f1, h.obj a = some (.segment p ls) ∧ h.obj p = some .position ∧ OwnsAll (OwnsElem .line h) ls f1 ∧ f = f1 + ({p} + {a})

/-- The footprints of the lists of a page. -/
structure PageParts (h : Heap) (p : PageObj) (f : Fin 9 → Multiset ℕ) : Prop where
  characters : OwnsAll (OwnsElem .character h) p.characters (f 0)
  words : OwnsAll (OwnsElem .word h) p.words (f 1)
  blocks : OwnsAll (OwnsElem .block h) p.blocks (f 2)
  segments : OwnsAll (OwnsSegment h) p.segments (f 3)
  figures : OwnsAll (OwnsFigure h) p.figures (f 4)
  shapes : OwnsAll (OwnsElem .shape h) p.shapes (f 5)
  graphics : OwnsAll (OwnsElem .graphic h) p.graphics (f 6)
  blockCuts : OwnsAll (OwnsLeaf .cut h) p.blockCuts (f 7)
  orderCuts : OwnsAll (OwnsLeaf .cut h) p.orderCuts (f 8)

def partsSum (f : Fin 9 → Multiset ℕ) : Multiset ℕ := f 0 + (f 1 + (f 2 + (f 3 + (f 4 + (f 5 + (f 6 + (f 7 + f 8)))))))

def OwnsPage (h : Heap) (a : Addr) (f : Multiset ℕ) : Prop :=
  ∃ p fs, h.obj a = some (.page p) ∧ PageParts h p fs ∧ f = partsSum fs + {a}

/-! ## Other heaps -/

/-- The footprint stays valid in heaps that agree on it. -/
def Framed (P : Heap → Addr → Multiset ℕ → Prop) : Prop :=
  ∀ h h' a f, P h a f → (∀ x ∈ f, h'.obj x = h.obj x) → P h' a f

theorem ow_all_mono {P Q : Addr → Multiset ℕ → Prop} {as : List Addr} {f : Multiset ℕ} (h : OwnsAll P as f) (hpq : ∀ a g, g ≤ f → P a g → Q a g) :
    OwnsAll Q as f := by
  induction h with
  | nil => exact .nil
  | @cons a as f g ha _ ih =>
    exact .cons (hpq _ _ (Multiset.le_add_right _ _) ha) (ih fun a' g' hg => hpq a' g' (hg.trans (Multiset.le_add_left _ _)))

theorem ow_all_framed {P : Heap → Addr → Multiset ℕ → Prop} (hP : Framed P) {h h' : Heap} {as : List Addr} {f : Multiset ℕ} (hf : OwnsAll (P h) as f)
    (e : ∀ x ∈ f, h'.obj x = h.obj x) : OwnsAll (P h') as f :=
  ow_all_mono hf fun a g hg ha => hP h h' a g ha fun x hx => e x (Multiset.mem_of_le hg hx)

theorem ow_elem_framed (k : Kind) : Framed (OwnsElem k) := by
  rintro h h' a f ⟨p, h1, h2, rfl⟩ e
  exact ⟨p, by rw [e a (by simp)]; exact h1, by rw [e p (by simp)]; exact h2, rfl⟩

theorem ow_leaf_framed (o : Obj) : Framed (OwnsLeaf o) := by
  rintro h h' a f ⟨h1, rfl⟩ e
  exact ⟨by rw [e a (by simp)]; exact h1, rfl⟩

theorem ow_figure_framed : Framed OwnsFigure := by
  rintro h h' a f ⟨p, cs, ss, gs, f1, f2, f3, h1, h2, h3, h4, h5, rfl⟩ e
  refine ⟨p, cs, ss, gs, f1, f2, f3, by rw [e a (by simp)]; exact h1, by rw [e p (by simp)]; exact h2, ow_all_framed (ow_elem_framed _) h3 ?_,
    ow_all_framed (ow_elem_framed _) h4 ?_, ow_all_framed (ow_elem_framed _) h5 ?_, rfl⟩
  all_goals intro x hx; exact e x (by simp [hx])

theorem ow_segment_framed : Framed OwnsSegment := by
  rintro h h' a f ⟨p, ls, f1, h1, h2, h3, rfl⟩ e
  exact ⟨p, ls, f1, by rw [e a (by simp)]; exact h1, by rw [e p (by simp)]; exact h2, ow_all_framed (ow_elem_framed _) h3 (fun x hx => e x (by simp [hx])), rfl⟩

theorem ow_mem_partsSum {f : Fin 9 → Multiset ℕ} {x : ℕ} : x ∈ partsSum f ↔ ∃ i, x ∈ f i := by
  unfold partsSum
  simp only [Multiset.mem_add]
  constructor
  · rintro (h | h | h | h | h | h | h | h | h)
    exacts [⟨0, h⟩, ⟨1, h⟩, ⟨2, h⟩, ⟨3, h⟩, ⟨4, h⟩, ⟨5, h⟩, ⟨6, h⟩, ⟨7, h⟩, ⟨8, h⟩]
  · rintro ⟨i, h⟩
    fin_cases i <;> simp_all

theorem ow_parts_framed {h h' : Heap} {p : PageObj} {f : Fin 9 → Multiset ℕ} (hp : PageParts h p f) (e : ∀ x ∈ partsSum f, h'.obj x = h.obj x) :
    PageParts h' p f := by
  have e' : ∀ i, ∀ x ∈ f i, h'.obj x = h.obj x := fun i x hx => e x (ow_mem_partsSum.mpr ⟨i, hx⟩)
  exact ⟨ow_all_framed (ow_elem_framed _) hp.characters (e' _), ow_all_framed (ow_elem_framed _) hp.words (e' _), ow_all_framed (ow_elem_framed _) hp.blocks (e' _),
    ow_all_framed ow_segment_framed hp.segments (e' _), ow_all_framed ow_figure_framed hp.figures (e' _), ow_all_framed (ow_elem_framed _) hp.shapes (e' _),
    ow_all_framed (ow_elem_framed _) hp.graphics (e' _), ow_all_framed (ow_leaf_framed _) hp.blockCuts (e' _), ow_all_framed (ow_leaf_framed _) hp.orderCuts (e' _)⟩

theorem ow_page_framed : Framed OwnsPage := by
  rintro h h' a f ⟨p, fs, h1, h2, rfl⟩ e
  exact ⟨p, fs, by rw [e a (by simp)]; exact h1, ow_parts_framed h2 fun x hx => e x (by simp [hx]), rfl⟩

/-! ## The destructors -/

/-- Exactly the objects of the footprint are released. -/
def Released (h h' : Heap) (f : Multiset ℕ) : Prop := ∀ x, h'.obj x = if x ∈ f then none else h.obj x

theorem ow_released_add {h h1 h2 : Heap} {f g : Multiset ℕ} (a : Released h h1 f) (b : Released h1 h2 g) : Released h h2 (f + g) := by
  intro x
  rw [b x, a x]
  by_cases h1 : x ∈ f <;> by_cases h2 : x ∈ g <;> simp [h1, h2]

/-- The destructor releases exactly the footprint. -/
def Deletes (del : Addr → Heap → Outcome Heap) (P : Heap → Addr → Multiset ℕ → Prop) : Prop :=
  ∀ h a f, P h a f → f.Nodup → ∃ h', del a h = .ok h' ∧ Released h h' f

theorem ow_free {h : Heap} {a : Addr} {o : Obj} (ha : h.obj a = some o) : ∃ h', h.free a = .ok h' ∧ Released h h' {a} := by
  refine ⟨_, by unfold Heap.free; rw [ha], ?_⟩
  intro x
  by_cases e : x = a
  · subst e; simp
  · simp [e]

theorem ow_disjoint {f g : Multiset ℕ} (h : (f + g).Nodup) {x : ℕ} (hx : x ∈ g) : x ∉ f := by
  intro hf
  exact Multiset.disjoint_left.mp (Multiset.nodup_add.mp h).2.2 hf hx

theorem ow_bind {f g : Multiset ℕ} {h : Heap} {o : Outcome Heap} {k : Heap → Outcome Heap} (nd : (f + g).Nodup)
    (h1 : f.Nodup → ∃ h', o = .ok h' ∧ Released h h' f)
    (h2 : ∀ h', (∀ x ∈ g, h'.obj x = h.obj x) → g.Nodup → ∃ h'', k h' = .ok h'' ∧ Released h' h'' g) :
    ∃ h', o.bind k = .ok h' ∧ Released h h' (f + g) := by
  obtain ⟨n1, n2, dj⟩ := Multiset.nodup_add.mp nd
  obtain ⟨h', e1, r1⟩ := h1 n1
  obtain ⟨h'', e2, r2⟩ := h2 h' (fun x hx => by rw [r1 x, if_neg (ow_disjoint nd hx)]) n2
  exact ⟨h'', by rw [e1]; exact e2, ow_released_add r1 r2⟩

theorem ow_deleteAll {del : Addr → Heap → Outcome Heap} {P : Heap → Addr → Multiset ℕ → Prop} (hd : Deletes del P) (hP : Framed P) {as : List Addr} :
    ∀ {h : Heap} {f : Multiset ℕ}, OwnsAll (P h) as f → f.Nodup → ∃ h', deleteAll del as h = .ok h' ∧ Released h h' f := by
  induction as with
  | nil => intro h f hf _; cases hf; exact ⟨h, rfl, fun x => by simp⟩
  | cons a as ih =>
    intro h f hf nd
    cases hf with
    | @cons _ _ f1 f2 ha has =>
      exact ow_bind nd (hd h a f1 ha) fun h' e n => ih (ow_all_framed hP has e) n

theorem ow_deletePosition {h : Heap} {a : Addr} (ha : h.obj a = some .position) : ∃ h', deletePosition a h = .ok h' ∧ Released h h' {a} := by
  unfold deletePosition
  rw [ha]
  exact ow_free ha

theorem ow_deleteElement (k : Kind) : Deletes (deleteElement k) (OwnsElem k) := by
  rintro h a f ⟨p, h1, h2, rfl⟩ nd
  unfold deleteElement
  rw [h1]
  simp only [if_true]
  exact ow_bind nd (fun _ => ow_deletePosition h2) fun h' e _ => ow_free (o := .element k p) (by rw [e a (by simp), h1])

theorem ow_deleteCut : Deletes deleteCut (OwnsLeaf .cut) := by
  rintro h a f ⟨h1, rfl⟩ _
  unfold deleteCut
  rw [h1]
  exact ow_free h1

theorem ow_deleteFontInfo : Deletes deleteFontInfo (OwnsLeaf .fontInfo) := by
  rintro h a f ⟨h1, rfl⟩ _
  unfold deleteFontInfo
  rw [h1]
  exact ow_free h1

theorem ow_deleteSegment : Deletes deleteSegment OwnsSegment := by
  rintro h a f ⟨p, ls, f1, h1, h2, h3, rfl⟩ nd
  unfold deleteSegment
  rw [h1]
  simp only
  refine ow_bind nd (ow_deleteAll (ow_deleteElement _) (ow_elem_framed _) h3) fun h' e nd' => ?_
  refine ow_bind nd' (fun _ => ow_deletePosition (by rw [e p (by simp), h2])) fun h'' e' _ => ow_free (o := .segment p ls) ?_
  rw [e' a (by simp), e a (by simp), h1]

theorem ow_deleteFigure : Deletes deleteFigure OwnsFigure := by
  rintro h a f ⟨p, cs, ss, gs, f1, f2, f3, h1, h2, h3, h4, h5, rfl⟩ nd
  unfold deleteFigure
  rw [h1]
  simp only
  refine ow_bind nd (ow_deleteAll (ow_deleteElement _) (ow_elem_framed _) h3) fun ha ea nd => ?_
  refine ow_bind nd (ow_deleteAll (ow_deleteElement _) (ow_elem_framed _) (ow_all_framed (ow_elem_framed _) h4 fun x hx => ea x (by simp [hx]))) fun hb eb nd => ?_
  have eb' : ∀ x ∈ f3 + ({p} + {a}), hb.obj x = h.obj x := fun x hx => by rw [eb x hx, ea x (Multiset.mem_add.mpr (.inr hx))]
  refine ow_bind nd (ow_deleteAll (ow_deleteElement _) (ow_elem_framed _) (ow_all_framed (ow_elem_framed _) h5 fun x hx => eb' x (by simp [hx]))) fun hc ec nd => ?_
  have ec' : ∀ x ∈ ({p} + {a} : Multiset ℕ), hc.obj x = h.obj x := fun x hx => by rw [ec x hx, eb' x (Multiset.mem_add.mpr (.inr hx))]
  refine ow_bind nd (fun _ => ow_deletePosition (by rw [ec' p (by simp), h2])) fun hd ed _ => ow_free (o := .figure p cs ss gs) ?_
  rw [ed a (by simp), ec' a (by simp), h1]

theorem ow_deletePage : Deletes deletePage OwnsPage := by
  rintro h a f ⟨p, fs, h1, hp, rfl⟩ nd
  unfold deletePage
  rw [h1]
  simp only
  unfold partsSum at nd ⊢
  simp only [add_assoc] at nd ⊢
  refine ow_bind nd (ow_deleteAll (ow_deleteElement _) (ow_elem_framed _) hp.characters) fun ha e1 nd => ?_
  refine ow_bind nd (ow_deleteAll (ow_deleteElement _) (ow_elem_framed _) (ow_all_framed (ow_elem_framed _) hp.words fun x hx => e1 x (by simp [hx]))) fun hb e2 nd => ?_
  replace e2 : ∀ x ∈ _, hb.obj x = h.obj x := fun x hx => (e2 x hx).trans (e1 x (Multiset.mem_add.mpr (.inr hx)))
  refine ow_bind nd (ow_deleteAll (ow_deleteElement _) (ow_elem_framed _) (ow_all_framed (ow_elem_framed _) hp.blocks fun x hx => e2 x (by simp [hx]))) fun hc e3 nd => ?_
  replace e3 : ∀ x ∈ _, hc.obj x = h.obj x := fun x hx => (e3 x hx).trans (e2 x (Multiset.mem_add.mpr (.inr hx)))
  refine ow_bind nd (ow_deleteAll ow_deleteSegment ow_segment_framed (ow_all_framed ow_segment_framed hp.segments fun x hx => e3 x (by simp [hx]))) fun hd e4 nd => ?_
  replace e4 : ∀ x ∈ _, hd.obj x = h.obj x := fun x hx => (e4 x hx).trans (e3 x (Multiset.mem_add.mpr (.inr hx)))
  refine ow_bind nd (ow_deleteAll ow_deleteFigure ow_figure_framed (ow_all_framed ow_figure_framed hp.figures fun x hx => e4 x (by simp [hx]))) fun he e5 nd => ?_
  replace e5 : ∀ x ∈ _, he.obj x = h.obj x := fun x hx => (e5 x hx).trans (e4 x (Multiset.mem_add.mpr (.inr hx)))
  refine ow_bind nd (ow_deleteAll (ow_deleteElement _) (ow_elem_framed _) (ow_all_framed (ow_elem_framed _) hp.shapes fun x hx => e5 x (by simp [hx]))) fun hf e6 nd => ?_
  replace e6 : ∀ x ∈ _, hf.obj x = h.obj x := fun x hx => (e6 x hx).trans (e5 x (Multiset.mem_add.mpr (.inr hx)))
  refine ow_bind nd (ow_deleteAll (ow_deleteElement _) (ow_elem_framed _) (ow_all_framed (ow_elem_framed _) hp.graphics fun x hx => e6 x (by simp [hx]))) fun hg e7 nd => ?_
  replace e7 : ∀ x ∈ _, hg.obj x = h.obj x := fun x hx => (e7 x hx).trans (e6 x (Multiset.mem_add.mpr (.inr hx)))
  refine ow_bind nd (ow_deleteAll ow_deleteCut (ow_leaf_framed _) (ow_all_framed (ow_leaf_framed _) hp.blockCuts fun x hx => e7 x (by simp [hx]))) fun hi e8 nd => ?_
  replace e8 : ∀ x ∈ _, hi.obj x = h.obj x := fun x hx => (e8 x hx).trans (e7 x (Multiset.mem_add.mpr (.inr hx)))
  refine ow_bind nd (ow_deleteAll ow_deleteCut (ow_leaf_framed _) (ow_all_framed (ow_leaf_framed _) hp.orderCuts fun x hx => e8 x (by simp [hx]))) fun hj e9 _ =>
    ow_free (o := .page p) ?_
  rw [e9 a (by simp), e8 a (by simp), h1]

/-! ## The operations -/

theorem ow_all_snoc {P : Addr → Multiset ℕ → Prop} {as : List Addr} {f g : Multiset ℕ} {a : Addr} (h : OwnsAll P as f) (ha : P a g) :
    OwnsAll P (as ++ [a]) (f + g) := by
  induction h with
  | nil => rw [zero_add, ← add_zero g]; exact .cons ha .nil
  | cons hb _ ih => rw [add_assoc]; exact .cons hb ih

theorem ow_all_perm {P : Addr → Multiset ℕ → Prop} {as bs : List Addr} (hp : as.Perm bs) : ∀ {f : Multiset ℕ}, OwnsAll P as f → OwnsAll P bs f := by
  induction hp with
  | nil => exact fun h => h
  | cons a _ ih => rintro f (_ | ⟨ha, h⟩); exact .cons ha (ih h)
  | swap a b l =>
    rintro f (_ | @⟨_, _, f1, f2, ha, _ | @⟨_, _, f3, f4, hb, h⟩⟩)
    rw [add_left_comm]
    exact .cons hb (.cons ha h)
  | trans _ _ ih1 ih2 => exact fun h => ih2 (ih1 h)

/-- Changing what one of the pointers of a list owns. -/
theorem ow_all_update {P Q : Addr → Multiset ℕ → Prop} {a : Addr} {new : Multiset ℕ} {as : List Addr} {f : Multiset ℕ} (h : OwnsAll P as f) (ha : a ∈ as)
    (nd : f.Nodup) (hframe : ∀ x g ga, P x g → P a ga → Disjoint g ga → g ≤ f → Q x g) (hup : ∀ g, P a g → g ≤ f → Q a (g + new)) : OwnsAll Q as (f + new) := by
  induction h with
  | nil => cases ha
  | @cons b as g1 g2 hb has ih =>
    obtain ⟨n1, n2, dj⟩ := Multiset.nodup_add.mp nd
    by_cases e : b = a
    · subst e
      rw [show g1 + g2 + new = g1 + new + g2 by abel]
      refine .cons (hup g1 hb (Multiset.le_add_right _ _)) (ow_all_mono has fun x g hg hx => ?_)
      exact hframe x g g1 hx hb (Disjoint.symm (Disjoint.mono_right hg dj)) (hg.trans (Multiset.le_add_left _ _))
    · have ha' : a ∈ as := by
        rcases List.mem_cons.mp ha with h | h
        · exact absurd h.symm e
        · exact h
      have hmem : ∃ ga, P a ga ∧ ga ≤ g2 := by
        clear ih nd hframe hup n2 dj ha
        induction has with
        | nil => cases ha'
        | @cons c cs k1 k2 hc _ ih =>
          rcases List.mem_cons.mp ha' with h | h
          · subst h; exact ⟨k1, hc, Multiset.le_add_right _ _⟩
          · obtain ⟨ga, h1, h2⟩ := ih h
            exact ⟨ga, h1, h2.trans (Multiset.le_add_left _ _)⟩
      obtain ⟨ga, h1, h2⟩ := hmem
      rw [add_assoc]
      refine .cons (hframe b g1 ga hb h1 (Disjoint.mono_right h2 dj) (Multiset.le_add_right _ _)) (ih ha' n2 ?_ ?_)
      · exact fun x g ga hx hga hd hg => hframe x g ga hx hga hd (hg.trans (Multiset.le_add_left _ _))
      · exact fun g hg hle => hup g hg (hle.trans (Multiset.le_add_left _ _))

theorem ow_all_mem {P : Addr → Multiset ℕ → Prop} {as : List Addr} {f : Multiset ℕ} (h : OwnsAll P as f) {a : Addr} (ha : a ∈ as) : ∃ g, P a g ∧ g ≤ f := by
  induction h with
  | nil => cases ha
  | @cons c cs k1 k2 hc _ ih =>
    rcases List.mem_cons.mp ha with h | h
    · subst h; exact ⟨k1, hc, Multiset.le_add_right _ _⟩
    · obtain ⟨ga, h1, h2⟩ := ih h
      exact ⟨ga, h1, h2.trans (Multiset.le_add_left _ _)⟩

/-- The objects alive are those the document owns and those that are lost. -/
def OwnInv (s : State) (lost : Multiset ℕ) : Prop :=
  ∃ f g, OwnsAll (OwnsPage s.heap) s.pages f ∧ OwnsAll (OwnsLeaf .fontInfo s.heap) (s.fontInfos.map (·.2)) g ∧ (f + g + lost).Nodup ∧
    (∀ a, s.heap.obj a ≠ none ↔ a ∈ f + g + lost) ∧ (∀ a, s.heap.next ≤ a → s.heap.obj a = none) ∧ (∀ a, s.current = some a → a ∈ s.pages)

/-- A change of the heap: `new` are fresh objects, and apart from them only objects in `at` are changed, none is released. -/
structure Grows (h h' : Heap) (new : Multiset ℕ) (at' : ℕ → Prop) : Prop where
  fresh : ∀ x ∈ new, h.obj x = none ∧ h'.obj x ≠ none
  nodup : new.Nodup
  same : ∀ x, x ∉ new → ¬ at' x → h'.obj x = h.obj x
  alive : ∀ x, at' x → (h.obj x ≠ none ↔ h'.obj x ≠ none)
  next : (∀ a, h.next ≤ a → h.obj a = none) → ∀ a, h'.next ≤ a → h'.obj a = none

theorem ow_page_self (h : Heap) (x : Addr) (g : Multiset ℕ) : OwnsPage h x g → x ∈ g := by
  rintro ⟨p, fs, _, _, rfl⟩; simp

/-- Something is added to a page. -/
theorem ow_inv_page {s : State} {lost new : Multiset ℕ} {h' : Heap} {a : Addr} {at' : ℕ → Prop} (hi : OwnInv s lost) (ha : a ∈ s.pages) (hg : Grows s.heap h' new at')
    (hat : ∀ g, OwnsPage s.heap a g → ∀ x, at' x → x ∈ g)
    (hup : ∀ g, OwnsPage s.heap a g → g.Nodup → (∀ x ∈ new, x ∉ g) → OwnsPage h' a (g + new)) : OwnInv { s with heap := h' } lost := by
  obtain ⟨f, g, h1, h2, nd, al, nx, cu⟩ := hi
  have nd1 := (Multiset.nodup_add.mp nd).1
  have ndf := (Multiset.nodup_add.mp nd1).1
  have hnew : ∀ x ∈ new, x ∉ f + g + lost := fun x hx hm => (al x).mpr hm (hg.fresh x hx).1
  obtain ⟨ga, hga, hle⟩ := ow_all_mem h1 ha
  have hatf : ∀ x, at' x → x ∈ f := fun x hx => Multiset.mem_of_le hle (hat ga hga x hx)
  refine ⟨f + new, g, ?_, ?_, ?_, ?_, hg.next nx, cu⟩
  · refine ow_all_update h1 ha ndf ?_ ?_
    · intro x k ka hx hka hd hk
      refine ow_page_framed _ _ _ _ hx fun y hy => hg.same y ?_ ?_
      · exact fun hn => hnew y hn (by simp [Multiset.mem_of_le hk hy])
      · exact fun hn => Multiset.disjoint_left.mp hd hy (hat ka hka y hn)
    · intro k hk hle
      exact hup k hk (Multiset.nodup_of_le hle ndf) fun x hx hxk => hnew x hx (by simp [Multiset.mem_of_le hle hxk])
  · refine ow_all_framed (ow_leaf_framed _) h2 fun x hx => hg.same x ?_ ?_
    · exact fun hn => hnew x hn (by simp [hx])
    · exact fun hn => Multiset.disjoint_left.mp (Multiset.nodup_add.mp nd1).2.2 (hatf x hn) hx
  · rw [show f + new + g + lost = f + g + lost + new by abel]
    exact Multiset.nodup_add.mpr ⟨nd, hg.nodup, Multiset.disjoint_left.mpr fun hx hn => hnew _ hn hx⟩
  · intro x
    rw [show f + new + g + lost = f + g + lost + new by abel]
    by_cases hx : x ∈ new
    · simp [hx, (hg.fresh x hx).2]
    · by_cases hxa : at' x
      · rw [← hg.alive x hxa, al x]; simp [hx]
      · show h'.obj x ≠ none ↔ _
        rw [hg.same x hx hxa, al x]; simp [hx]

/-- Only new objects. -/
abbrev GrowsOnly (h h' : Heap) (new : Multiset ℕ) : Prop := Grows h h' new fun _ => False

theorem ow_alloc (h : Heap) (hn : ∀ a, h.next ≤ a → h.obj a = none) (o : Obj) :
    GrowsOnly h (h.alloc o).2 {h.next} ∧ (h.alloc o).2.obj h.next = some o ∧ (∀ a, (h.alloc o).2.next ≤ a → (h.alloc o).2.obj a = none) := by
  have e : ∀ x, (h.alloc o).2.obj x = if x = h.next then some o else h.obj x := by
    intro x
    show Function.update h.obj h.next (some o) x = _
    by_cases hx : x = h.next
    · subst hx; simp
    · simp [hx]
  have e2 : (h.alloc o).2.next = h.next + 1 := rfl
  have hnx : ∀ a, (h.alloc o).2.next ≤ a → (h.alloc o).2.obj a = none := by
    intro a ha
    rw [e2] at ha
    rw [e, if_neg (Nat.ne_of_gt ha)]
    exact hn a (Nat.le_of_succ_le ha)
  refine ⟨⟨?_, by simp, ?_, fun _ h => h.elim, fun _ => hnx⟩, by rw [e]; simp, hnx⟩
  · intro x hx
    obtain rfl := Multiset.mem_singleton.mp hx
    exact ⟨hn _ le_rfl, by rw [e]; simp⟩
  · intro x hx _
    rw [e, if_neg]
    simpa using hx

theorem ow_grows_trans {h h1 h2 : Heap} {n1 n2 : Multiset ℕ} {at' : ℕ → Prop} (g1 : GrowsOnly h h1 n1) (g2 : Grows h1 h2 n2 at') (hat : ∀ x, at' x → x ∉ n1) :
    Grows h h2 (n1 + n2) at' := by
  have hd : ∀ x ∈ n1, x ∉ n2 := fun x hx hx2 => (g1.fresh x hx).2 (g2.fresh x hx2).1
  refine ⟨?_, Multiset.nodup_add.mpr ⟨g1.nodup, g2.nodup, Multiset.disjoint_left.mpr fun {x} hx => hd x hx⟩, ?_, ?_, fun hn => g2.next (g1.next hn)⟩
  · intro x hx
    rcases Multiset.mem_add.mp hx with hx | hx
    · refine ⟨(g1.fresh x hx).1, ?_⟩
      rw [g2.same x (hd x hx) fun ha => hat x ha hx]
      exact (g1.fresh x hx).2
    · have h1x : x ∉ n1 := fun h => hd x h hx
      refine ⟨?_, (g2.fresh x hx).2⟩
      rw [← g1.same x h1x fun h => h]
      exact (g2.fresh x hx).1
  · intro x hx ha
    simp only [Multiset.mem_add, not_or] at hx
    rw [g2.same x hx.2 ha, g1.same x hx.1 fun h => h]
  · intro x ha
    rw [← g2.alive x ha, g1.same x (hat x ha) fun h => h]

theorem ow_set {h : Heap} {a : Addr} {o o' : Obj} (ha : h.obj a = some o') (hn : ∀ x, h.next ≤ x → h.obj x = none) :
    Grows h (h.set a o) 0 (· = a) ∧ (h.set a o).obj a = some o := by
  have e : ∀ x, (h.set a o).obj x = if x = a then some o else h.obj x := by
    intro x
    show Function.update h.obj a (some o) x = _
    by_cases hx : x = a
    · subst hx; simp
    · simp [hx]
  refine ⟨⟨by simp, by simp, ?_, ?_, ?_⟩, by rw [e]; simp⟩
  · intro x _ hx; rw [e, if_neg hx]
  · rintro x rfl; rw [e, ha]; simp
  · intro _ x hx
    have hx' : h.next ≤ x := hx
    rw [e, if_neg]
    · exact hn x hx'
    · rintro rfl
      rw [hn x hx'] at ha; cases ha

/-- A new element. -/
theorem ow_newElement (k : Kind) (h : Heap) (hn : ∀ a, h.next ≤ a → h.obj a = none) :
    ∃ new, GrowsOnly h (newElement k h).2 new ∧ OwnsElem k (newElement k h).2 (newElement k h).1 new ∧ new.card = 2 ∧
      (∀ a, (newElement k h).2.next ≤ a → (newElement k h).2.obj a = none) := by
  obtain ⟨g1, o1, n1⟩ := ow_alloc h hn .position
  obtain ⟨g2, o2, n2⟩ := ow_alloc (h.alloc .position).2 n1 (.element k h.next)
  have hne : h.next ∉ ({(h.alloc .position).2.next} : Multiset ℕ) := by
    show h.next ∉ ({h.next + 1} : Multiset ℕ)
    simp
  refine ⟨_, ow_grows_trans g1 g2 fun _ h => h.elim, ⟨h.next, o2, ?_, rfl⟩, by simp, n2⟩
  show ((h.alloc .position).2.alloc (.element k h.next)).2.obj h.next = _
  rw [g2.same _ hne fun h => h, o1]

theorem ow_partsSum_update (fs : Fin 9 → Multiset ℕ) (i : Fin 9) (new : Multiset ℕ) : partsSum (Function.update fs i (fs i + new)) = partsSum fs + new := by
  unfold partsSum
  fin_cases i <;> simp <;> abel

/-- A list of the page gets new objects. -/
theorem ow_onPage {s : State} {lost new : Multiset ℕ} {h1 : Heap} {a : Addr} {F : PageObj → PageObj} (hi : OwnInv s lost) (ha : a ∈ s.pages)
    (hg : GrowsOnly s.heap h1 new)
    (hF : ∀ h' p fs, PageParts h' p fs → (∀ x ∈ new, h'.obj x = h1.obj x) → ∃ fs', PageParts h' (F p) fs' ∧ partsSum fs' = partsSum fs + new) :
    ∃ h', onPage a F h1 = .ok h' ∧ OwnInv { s with heap := h' } lost := by
  obtain ⟨f, g, q1, q2, nd, al, nx, cu⟩ := id hi
  obtain ⟨ga, ⟨p, fs, hp, hparts, rfl⟩, _⟩ := ow_all_mem q1 ha
  have hnew : ∀ x ∈ new, x ≠ a := by
    rintro x hx rfl
    rw [(hg.fresh x hx).1] at hp; cases hp
  have hp1 : h1.obj a = some (.page p) := by rw [hg.same a (fun h => hnew a h rfl) fun h => h, hp]
  obtain ⟨gs, os⟩ := ow_set (o := .page (F p)) hp1 (hg.next nx)
  have hgr : Grows s.heap (h1.set a (.page (F p))) new (· = a) := by
    have := ow_grows_trans hg gs fun x hx hn => hnew x hn hx
    rwa [add_zero] at this
  refine ⟨h1.set a (.page (F p)), by unfold onPage; rw [hp1], ow_inv_page hi ha hgr ?_ ?_⟩
  · rintro k hk x rfl; exact ow_page_self _ _ _ hk
  · rintro k ⟨p', fs', hp', hparts', rfl⟩ ndk hk
    rw [hp] at hp'
    cases hp'
    have hfr : PageParts (h1.set a (.page (F p))) p fs' := by
      refine ow_parts_framed hparts' fun x hx => hgr.same x (fun hn => hk x hn (by simp [hx])) ?_
      rintro rfl
      exact ow_disjoint ndk (Multiset.mem_singleton_self x) hx
    obtain ⟨fs'', h1', h2'⟩ := hF _ p fs' hfr fun x hx => gs.same x (by simp) (hnew x hx)
    exact ⟨F p, fs'', os, h1', by rw [h2']; abel⟩

theorem ow_push_word {new : Multiset ℕ} {h' : Heap} {p : PageObj} {fs : Fin 9 → Multiset ℕ} {x : Addr} (hp : PageParts h' p fs) (hx : OwnsElem .word h' x new) :
    PageParts h' { p with words := p.words ++ [x] } (Function.update fs 1 (fs 1 + new)) :=
  ⟨by simpa using hp.characters, by simpa using ow_all_snoc hp.words hx, by simpa using hp.blocks, by simpa using hp.segments, by simpa using hp.figures,
    by simpa using hp.shapes, by simpa using hp.graphics, by simpa using hp.blockCuts, by simpa using hp.orderCuts⟩

theorem ow_push_block {new : Multiset ℕ} {h' : Heap} {p : PageObj} {fs : Fin 9 → Multiset ℕ} {x : Addr} (hp : PageParts h' p fs) (hx : OwnsElem .block h' x new) :
    PageParts h' { p with blocks := p.blocks ++ [x] } (Function.update fs 2 (fs 2 + new)) :=
  ⟨by simpa using hp.characters, by simpa using hp.words, by simpa using ow_all_snoc hp.blocks hx, by simpa using hp.segments, by simpa using hp.figures,
    by simpa using hp.shapes, by simpa using hp.graphics, by simpa using hp.blockCuts, by simpa using hp.orderCuts⟩

theorem ow_push_segment {new : Multiset ℕ} {h' : Heap} {p : PageObj} {fs : Fin 9 → Multiset ℕ} {x : Addr} (hp : PageParts h' p fs) (hx : OwnsSegment h' x new) :
    PageParts h' { p with segments := p.segments ++ [x] } (Function.update fs 3 (fs 3 + new)) :=
  ⟨by simpa using hp.characters, by simpa using hp.words, by simpa using hp.blocks, by simpa using ow_all_snoc hp.segments hx, by simpa using hp.figures,
    by simpa using hp.shapes, by simpa using hp.graphics, by simpa using hp.blockCuts, by simpa using hp.orderCuts⟩

theorem ow_push_figure {new : Multiset ℕ} {h' : Heap} {p : PageObj} {fs : Fin 9 → Multiset ℕ} {x : Addr} (hp : PageParts h' p fs) (hx : OwnsFigure h' x new) :
    PageParts h' { p with figures := p.figures ++ [x] } (Function.update fs 4 (fs 4 + new)) :=
  ⟨by simpa using hp.characters, by simpa using hp.words, by simpa using hp.blocks, by simpa using hp.segments, by simpa using ow_all_snoc hp.figures hx,
    by simpa using hp.shapes, by simpa using hp.graphics, by simpa using hp.blockCuts, by simpa using hp.orderCuts⟩

theorem ow_push_cut {new : Multiset ℕ} {h' : Heap} {p : PageObj} {fs : Fin 9 → Multiset ℕ} {x : Addr} (hp : PageParts h' p fs) (hx : OwnsLeaf .cut h' x new) :
    PageParts h' { p with blockCuts := p.blockCuts ++ [x] } (Function.update fs 7 (fs 7 + new)) :=
  ⟨by simpa using hp.characters, by simpa using hp.words, by simpa using hp.blocks, by simpa using hp.segments, by simpa using hp.figures,
    by simpa using hp.shapes, by simpa using hp.graphics, by simpa using ow_all_snoc hp.blockCuts hx, by simpa using hp.orderCuts⟩

theorem ow_push_orderCut {new : Multiset ℕ} {h' : Heap} {p : PageObj} {fs : Fin 9 → Multiset ℕ} {x : Addr} (hp : PageParts h' p fs) (hx : OwnsLeaf .cut h' x new) :
    PageParts h' { p with orderCuts := p.orderCuts ++ [x] } (Function.update fs 8 (fs 8 + new)) :=
  ⟨by simpa using hp.characters, by simpa using hp.words, by simpa using hp.blocks, by simpa using hp.segments, by simpa using hp.figures,
    by simpa using hp.shapes, by simpa using hp.graphics, by simpa using hp.blockCuts, by simpa using ow_all_snoc hp.orderCuts hx⟩

theorem ow_push_drawn {new : Multiset ℕ} {h' : Heap} {p : PageObj} {fs : Fin 9 → Multiset ℕ} {x : Addr} {d : Drawn} (hp : PageParts h' p fs)
    (hx : OwnsElem d.kind h' x new) : ∃ fs', PageParts h' (p.push d x) fs' ∧ partsSum fs' = partsSum fs + new := by
  cases d with
  | character =>
    refine ⟨_, ?_, ow_partsSum_update fs 0 new⟩
    show PageParts h' { p with characters := p.characters ++ [x] } _
    exact ⟨by simpa using ow_all_snoc hp.characters hx, by simpa using hp.words, by simpa using hp.blocks, by simpa using hp.segments, by simpa using hp.figures,
      by simpa using hp.shapes, by simpa using hp.graphics, by simpa using hp.blockCuts, by simpa using hp.orderCuts⟩
  | shape =>
    refine ⟨_, ?_, ow_partsSum_update fs 5 new⟩
    show PageParts h' { p with shapes := p.shapes ++ [x] } _
    exact ⟨by simpa using hp.characters, by simpa using hp.words, by simpa using hp.blocks, by simpa using hp.segments, by simpa using hp.figures,
      by simpa using ow_all_snoc hp.shapes hx, by simpa using hp.graphics, by simpa using hp.blockCuts, by simpa using hp.orderCuts⟩
  | graphic =>
    refine ⟨_, ?_, ow_partsSum_update fs 6 new⟩
    show PageParts h' { p with graphics := p.graphics ++ [x] } _
    exact ⟨by simpa using hp.characters, by simpa using hp.words, by simpa using hp.blocks, by simpa using hp.segments, by simpa using hp.figures,
      by simpa using hp.shapes, by simpa using ow_all_snoc hp.graphics hx, by simpa using hp.blockCuts, by simpa using hp.orderCuts⟩

theorem ow_figure_self (h : Heap) (x : Addr) (g : Multiset ℕ) : OwnsFigure h x g → x ∈ g := by
  rintro ⟨p, cs, ss, gs, f1, f2, f3, _, _, _, _, _, rfl⟩; simp

theorem ow_segment_self (h : Heap) (x : Addr) (g : Multiset ℕ) : OwnsSegment h x g → x ∈ g := by
  rintro ⟨p, ls, f1, _, _, _, rfl⟩; simp

/-- The figure gets a new element. -/
theorem ow_figure_push {h h' : Heap} {b : Addr} {g new : Multiset ℕ} {d : Drawn} {x : Addr} (hb : OwnsFigure h b g) (ndg : g.Nodup) (hn : ∀ y ∈ new, y ∉ g)
    (hg : Grows h h' new (· = b)) (hx : OwnsElem d.kind h' x new)
    (ho : ∀ pos cs ss gs, h.obj b = some (.figure pos cs ss gs) → h'.obj b = some (match d with
      | .character => .figure pos (cs ++ [x]) ss gs
      | .shape => .figure pos cs (ss ++ [x]) gs
      | .graphic => .figure pos cs ss (gs ++ [x]))) : OwnsFigure h' b (g + new) := by
  obtain ⟨p, cs, ss, gs, f1, f2, f3, h1, h2, h3, h4, h5, rfl⟩ := hb
  have hob := ho p cs ss gs h1
  have e : ∀ y ∈ f1 + (f2 + (f3 + {p})), h'.obj y = h.obj y := by
    intro y hy
    refine hg.same y (fun hm => hn y hm ?_) ?_
    · simp only [Multiset.mem_add] at hy ⊢; tauto
    · rintro rfl
      rw [show f1 + (f2 + (f3 + ({p} + {y}))) = f1 + (f2 + (f3 + {p})) + {y} by abel] at ndg
      exact ow_disjoint ndg (Multiset.mem_singleton_self y) hy
  have a1 := ow_all_framed (h' := h') (ow_elem_framed _) h3 fun y hy => e y (by simp [hy])
  have a2 := ow_all_framed (h' := h') (ow_elem_framed _) h4 fun y hy => e y (by simp [hy])
  have a3 := ow_all_framed (h' := h') (ow_elem_framed _) h5 fun y hy => e y (by simp [hy])
  have ap : h'.obj p = some .position := by rw [e p (by simp), h2]
  cases d with
  | character => exact ⟨p, _, ss, gs, f1 + new, f2, f3, hob, ap, ow_all_snoc a1 hx, a2, a3, by abel⟩
  | shape => exact ⟨p, cs, _, gs, f1, f2 + new, f3, hob, ap, a1, ow_all_snoc a2 hx, a3, by abel⟩
  | graphic => exact ⟨p, cs, ss, _, f1, f2, f3 + new, hob, ap, a1, a2, ow_all_snoc a3 hx, by abel⟩

/-- The segment gets a new line. -/
theorem ow_segment_push {h h' : Heap} {b : Addr} {g new : Multiset ℕ} {x : Addr} (hb : OwnsSegment h b g) (ndg : g.Nodup) (hn : ∀ y ∈ new, y ∉ g)
    (hg : Grows h h' new (· = b)) (hx : OwnsElem .line h' x new)
    (ho : ∀ pos ls, h.obj b = some (.segment pos ls) → h'.obj b = some (.segment pos (ls ++ [x]))) : OwnsSegment h' b (g + new) := by
  obtain ⟨p, ls, f1, h1, h2, h3, rfl⟩ := hb
  have hob := ho p ls h1
  have e : ∀ y ∈ f1 + {p}, h'.obj y = h.obj y := by
    intro y hy
    refine hg.same y (fun hm => hn y hm ?_) ?_
    · simp only [Multiset.mem_add] at hy ⊢; tauto
    · rintro rfl
      rw [← add_assoc] at ndg
      exact ow_disjoint ndg (Multiset.mem_singleton_self y) hy
  have a1 := ow_all_framed (h' := h') (ow_elem_framed _) h3 fun y hy => e y (by simp [hy])
  exact ⟨p, _, f1 + new, hob, by rw [e p (by simp), h2], ow_all_snoc a1 hx, by abel⟩

theorem ow_parts_change {h h' : Heap} {p : PageObj} {fs : Fin 9 → Multiset ℕ} {new : Multiset ℕ} (hp : PageParts h p fs) (i : Fin 9) (hi : i = 3 ∨ i = 4)
    (e : ∀ x, x ∈ partsSum fs → x ∉ fs i → h'.obj x = h.obj x) (nd : (partsSum fs).Nodup)
    (hs : i = 3 → OwnsAll (OwnsSegment h') p.segments (fs 3 + new)) (hf : i = 4 → OwnsAll (OwnsFigure h') p.figures (fs 4 + new)) :
    PageParts h' p (Function.update fs i (fs i + new)) := by
  rcases hi with rfl | rfl
  · have dj : ∀ x ∈ fs 0 + fs 1 + fs 2 + fs 4 + fs 5 + fs 6 + fs 7 + fs 8, x ∉ fs 3 := by
      intro x hx
      rw [show partsSum fs = fs 3 + (fs 0 + fs 1 + fs 2 + fs 4 + fs 5 + fs 6 + fs 7 + fs 8) by unfold partsSum; abel] at nd
      exact ow_disjoint nd hx
    have e' : ∀ x ∈ fs 0 + fs 1 + fs 2 + fs 4 + fs 5 + fs 6 + fs 7 + fs 8, h'.obj x = h.obj x := by
      intro x hx
      refine e x ?_ (dj x hx)
      rw [show partsSum fs = fs 3 + (fs 0 + fs 1 + fs 2 + fs 4 + fs 5 + fs 6 + fs 7 + fs 8) by unfold partsSum; abel]
      exact Multiset.mem_add.mpr (.inr hx)
    simp only [Multiset.mem_add] at e'
    refine ⟨?_, ?_, ?_, by simpa using hs rfl, ?_, ?_, ?_, ?_, ?_⟩
    · simpa using ow_all_framed (h' := h') (ow_elem_framed _) hp.characters fun x hx => e' x (by tauto)
    · simpa using ow_all_framed (h' := h') (ow_elem_framed _) hp.words fun x hx => e' x (by tauto)
    · simpa using ow_all_framed (h' := h') (ow_elem_framed _) hp.blocks fun x hx => e' x (by tauto)
    · simpa using ow_all_framed (h' := h') ow_figure_framed hp.figures fun x hx => e' x (by tauto)
    · simpa using ow_all_framed (h' := h') (ow_elem_framed _) hp.shapes fun x hx => e' x (by tauto)
    · simpa using ow_all_framed (h' := h') (ow_elem_framed _) hp.graphics fun x hx => e' x (by tauto)
    · simpa using ow_all_framed (h' := h') (ow_leaf_framed _) hp.blockCuts fun x hx => e' x (by tauto)
    · simpa using ow_all_framed (h' := h') (ow_leaf_framed _) hp.orderCuts fun x hx => e' x (by tauto)
  · have dj : ∀ x ∈ fs 0 + fs 1 + fs 2 + fs 3 + fs 5 + fs 6 + fs 7 + fs 8, x ∉ fs 4 := by
      intro x hx
      rw [show partsSum fs = fs 4 + (fs 0 + fs 1 + fs 2 + fs 3 + fs 5 + fs 6 + fs 7 + fs 8) by unfold partsSum; abel] at nd
      exact ow_disjoint nd hx
    have e' : ∀ x ∈ fs 0 + fs 1 + fs 2 + fs 3 + fs 5 + fs 6 + fs 7 + fs 8, h'.obj x = h.obj x := by
      intro x hx
      refine e x ?_ (dj x hx)
      rw [show partsSum fs = fs 4 + (fs 0 + fs 1 + fs 2 + fs 3 + fs 5 + fs 6 + fs 7 + fs 8) by unfold partsSum; abel]
      exact Multiset.mem_add.mpr (.inr hx)
    simp only [Multiset.mem_add] at e'
    refine ⟨?_, ?_, ?_, ?_, by simpa using hf rfl, ?_, ?_, ?_, ?_⟩
    · simpa using ow_all_framed (h' := h') (ow_elem_framed _) hp.characters fun x hx => e' x (by tauto)
    · simpa using ow_all_framed (h' := h') (ow_elem_framed _) hp.words fun x hx => e' x (by tauto)
    · simpa using ow_all_framed (h' := h') (ow_elem_framed _) hp.blocks fun x hx => e' x (by tauto)
    · simpa using ow_all_framed (h' := h') ow_segment_framed hp.segments fun x hx => e' x (by tauto)
    · simpa using ow_all_framed (h' := h') (ow_elem_framed _) hp.shapes fun x hx => e' x (by tauto)
    · simpa using ow_all_framed (h' := h') (ow_elem_framed _) hp.graphics fun x hx => e' x (by tauto)
    · simpa using ow_all_framed (h' := h') (ow_leaf_framed _) hp.blockCuts fun x hx => e' x (by tauto)
    · simpa using ow_all_framed (h' := h') (ow_leaf_framed _) hp.orderCuts fun x hx => e' x (by tauto)

theorem ow_parts_mem {h : Heap} {p : PageObj} {fs : Fin 9 → Multiset ℕ} (hp : PageParts h p fs) {b : Addr} :
    (b ∈ p.figures → ∃ g, OwnsFigure h b g ∧ g ≤ fs 4) ∧ (b ∈ p.segments → ∃ g, OwnsSegment h b g ∧ g ≤ fs 3) :=
  ⟨ow_all_mem hp.figures, ow_all_mem hp.segments⟩

theorem ow_le_parts (fs : Fin 9 → Multiset ℕ) (i : Fin 9) : fs i ≤ partsSum fs := by
  have h : partsSum fs = fs i + partsSum (Function.update fs i 0) := by
    unfold partsSum
    fin_cases i <;> simp <;> abel
  rw [h]
  exact Multiset.le_add_right _ _

/-- A figure or segment of a page gets a new element. -/
theorem ow_inner {s : State} {lost new : Multiset ℕ} {h1 : Heap} {a b : Addr} {p : PageObj} {o : Obj} {P : Heap → Addr → Multiset ℕ → Prop} {i : Fin 9} (hi : OwnInv s lost)
    (ha : a ∈ s.pages) (hp : s.heap.obj a = some (.page p)) (hg : GrowsOnly s.heap h1 new)
    (hcase : (i = 3 ∧ P = OwnsSegment ∧ b ∈ p.segments) ∨ (i = 4 ∧ P = OwnsFigure ∧ b ∈ p.figures))
    (hup : ∀ g, P s.heap b g → g.Nodup → (∀ y ∈ new, y ∉ g) → Grows s.heap (h1.set b o) new (· = b) → (h1.set b o).obj b = some o →
      (∀ y ∈ new, (h1.set b o).obj y = h1.obj y) → P (h1.set b o) b (g + new)) : OwnInv { s with heap := h1.set b o } lost := by
  obtain ⟨f, gg, q1, q2, nd, al, nx, cu⟩ := id hi
  obtain ⟨ga, ⟨p', fs, hp', hparts, rfl⟩, _⟩ := ow_all_mem q1 ha
  rw [hp] at hp'
  cases hp'
  have hbP : ∀ fs, PageParts s.heap p fs → ∃ g, P s.heap b g ∧ g ≤ fs i ∧ b ∈ g := by
    intro fs hparts
    rcases hcase with ⟨rfl, rfl, hb⟩ | ⟨rfl, rfl, hb⟩
    · obtain ⟨g, h1, h2⟩ := (ow_parts_mem hparts).2 hb
      exact ⟨g, h1, h2, ow_segment_self _ _ _ h1⟩
    · obtain ⟨g, h1, h2⟩ := (ow_parts_mem hparts).1 hb
      exact ⟨g, h1, h2, ow_figure_self _ _ _ h1⟩
  have hbo : ∃ ob, s.heap.obj b = some ob := by
    obtain ⟨g, hP, _⟩ := hbP fs hparts
    rcases hcase with ⟨rfl, rfl, hb⟩ | ⟨rfl, rfl, hb⟩
    · obtain ⟨_, _, _, h, _⟩ := hP; exact ⟨_, h⟩
    · obtain ⟨_, _, _, _, _, _, _, h, _⟩ := hP; exact ⟨_, h⟩
  obtain ⟨ob, hbo⟩ := hbo
  have hnew : ∀ x ∈ new, x ≠ b := by
    rintro x hx rfl
    rw [(hg.fresh x hx).1] at hbo; cases hbo
  have hb1 : h1.obj b = some ob := by rw [hg.same b (fun h => hnew b h rfl) fun h => h, hbo]
  obtain ⟨gs, os⟩ := ow_set (o := o) hb1 (hg.next nx)
  have hgr : Grows s.heap (h1.set b o) new (· = b) := by
    have := ow_grows_trans hg gs fun x hx hn => hnew x hn hx
    rwa [add_zero] at this
  have hsame : ∀ y ∈ new, (h1.set b o).obj y = h1.obj y := fun y hy => gs.same y (by simp) (hnew y hy)
  refine ow_inv_page hi ha hgr ?_ ?_
  · rintro k ⟨p', fs', hp', hparts', rfl⟩ x rfl
    rw [hp] at hp'
    cases hp'
    obtain ⟨g, _, hle, hm⟩ := hbP fs' hparts'
    exact Multiset.mem_add.mpr (.inl (Multiset.mem_of_le (hle.trans (ow_le_parts _ _)) hm))
  · rintro k ⟨p', fs', hp', hparts', rfl⟩ ndk hk
    rw [hp] at hp'
    cases hp'
    have ndp := (Multiset.nodup_add.mp ndk).1
    obtain ⟨g, hP, hle, hm⟩ := hbP fs' hparts'
    have hab : a ≠ b := by
      rintro rfl
      exact ow_disjoint ndk (Multiset.mem_singleton_self a) (Multiset.mem_of_le (hle.trans (ow_le_parts _ _)) hm)
    have hka : a ∉ new := fun h => hk a h (by simp)
    have hkp : ∀ y ∈ new, y ∉ partsSum fs' := fun y hy h => hk y hy (by simp [h])
    refine ⟨p, Function.update fs' i (fs' i + new), by rw [hgr.same a hka hab, hp], ?_, by rw [ow_partsSum_update]; abel⟩
    have hframe : ∀ {Q : Heap → Addr → Multiset ℕ → Prop}, Framed Q → ∀ x g ga, Q s.heap x g → (b ∈ ga) → Disjoint g ga → g ≤ fs' i → Q (h1.set b o) x g := by
      intro Q hQ x g ga hx hga hd hle
      refine hQ _ _ _ _ hx fun y hy => hgr.same y ?_ ?_
      · exact fun hn => hkp y hn (Multiset.mem_of_le (hle.trans (ow_le_parts _ _)) hy)
      · rintro rfl
        exact Multiset.disjoint_left.mp hd hy hga
    have hu : ∀ g, P s.heap b g → g ≤ fs' i → P (h1.set b o) b (g + new) := fun g hg hle =>
      hup g hg (Multiset.nodup_of_le (hle.trans (ow_le_parts _ _)) ndp) (fun y hy h => hkp y hy (Multiset.mem_of_le (hle.trans (ow_le_parts _ _)) h)) hgr os hsame
    refine ow_parts_change hparts' i (by rcases hcase with ⟨rfl, _⟩ | ⟨rfl, _⟩ <;> simp) ?_ ndp ?_ ?_
    · intro x hx hxi
      refine hgr.same x (fun hn => hkp x hn hx) ?_
      rintro rfl
      exact hxi (Multiset.mem_of_le hle hm)
    · rintro rfl
      rcases hcase with ⟨_, rfl, hb⟩ | ⟨h, _⟩
      · exact ow_all_update hparts'.segments hb (Multiset.nodup_of_le (ow_le_parts _ _) ndp)
          (fun x g ga hx hga hd hle => hframe ow_segment_framed x g ga hx (ow_segment_self _ _ _ hga) hd hle) hu
      · cases h
    · rintro rfl
      rcases hcase with ⟨h, _⟩ | ⟨_, rfl, hb⟩
      · cases h
      · exact ow_all_update hparts'.figures hb (Multiset.nodup_of_le (ow_le_parts _ _) ndp)
          (fun x g ga hx hga hd hle => hframe ow_figure_framed x g ga hx (ow_figure_self _ _ _ hga) hd hle) hu

theorem ow_pages_obj {s : State} {lost : Multiset ℕ} (hi : OwnInv s lost) {a : Addr} (ha : a ∈ s.pages) : ∃ p, s.heap.obj a = some (.page p) := by
  obtain ⟨f, g, q1, _⟩ := hi
  obtain ⟨_, ⟨p, _, hp, _⟩, _⟩ := ow_all_mem q1 ha
  exact ⟨p, hp⟩

theorem ow_next {s : State} {lost : Multiset ℕ} (hi : OwnInv s lost) : ∀ a, s.heap.next ≤ a → s.heap.obj a = none := by
  obtain ⟨f, g, _, _, _, _, nx, _⟩ := hi
  exact nx

/-- Objects without an owner. -/
theorem ow_lose {s : State} {lost new : Multiset ℕ} {h' : Heap} (hi : OwnInv s lost) (hg : GrowsOnly s.heap h' new) : OwnInv { s with heap := h' } (lost + new) := by
  obtain ⟨f, g, h1, h2, nd, al, nx, cu⟩ := hi
  have hnew : ∀ x ∈ new, x ∉ f + g + lost := fun x hx hm => (al x).mpr hm (hg.fresh x hx).1
  have hsame : ∀ x ∈ f + g + lost, h'.obj x = s.heap.obj x := fun x hx => hg.same x (fun h => hnew x h hx) fun h => h
  refine ⟨f, g, ow_all_framed ow_page_framed h1 fun x hx => hsame x (by simp [hx]), ow_all_framed (ow_leaf_framed _) h2 fun x hx => hsame x (by simp [hx]),
    ?_, ?_, hg.next nx, cu⟩
  · rw [← add_assoc]
    exact Multiset.nodup_add.mpr ⟨nd, hg.nodup, Multiset.disjoint_left.mpr fun hx hn => hnew _ hn hx⟩
  · intro x
    rw [← add_assoc]
    by_cases hx : x ∈ new
    · simp [hx, (hg.fresh x hx).2]
    · show h'.obj x ≠ none ↔ _
      rw [hg.same x hx fun h => h, al x]; simp [hx]

/-- The number of objects an operation loses. -/
def opLost : Op → ℕ
  | .lose _ => 2
  | .loseCut => 1
  | _ => 0

/-- The state after an operation. -/
def OwnStep (s : State) (lost : Multiset ℕ) (o : Op) : Prop :=
  (∃ s' lost', step s o = .ok s' ∧ OwnInv s' lost' ∧ lost'.card = lost.card + opLost o) ∨ ∃ m ∈ noSuch, step s o = .ub m

theorem ow_withPage {s : State} {lost : Multiset ℕ} {i : ℕ} {f : Addr → Outcome Heap}
    (hf : ∀ a ∈ s.pages, (∃ h', f a = .ok h' ∧ OwnInv { s with heap := h' } lost) ∨ ∃ m ∈ noSuch, f a = .ub m) :
    (∃ s', withPage s i f = .ok s' ∧ OwnInv s' lost) ∨ ∃ m ∈ noSuch, withPage s i f = .ub m := by
  unfold withPage
  cases h : s.pages[i]? with
  | none => exact .inr ⟨_, by simp [noSuch], rfl⟩
  | some a =>
    rcases hf a (List.mem_of_getElem? h) with ⟨h', e, hi⟩ | ⟨m, hm, e⟩
    · exact .inl ⟨_, by simp only [e]; rfl, hi⟩
    · exact .inr ⟨m, hm, by simp only [e]; rfl⟩

theorem ow_filterMap_range {l : List Addr} {order : List ℕ} (h : order.Perm (List.range l.length)) : (order.filterMap (l[·]?)).Perm l := by
  refine (h.filterMap _).trans ?_
  have : (List.range l.length).filterMap (l[·]?) = l := by
    clear h
    apply List.ext_getElem?
    intro i
    induction l using List.reverseRecOn generalizing i with
    | nil => rfl
    | append_singleton l x ih =>
      rw [List.length_append, List.length_singleton, List.range_succ, List.filterMap_append]
      have e1 : (List.range l.length).filterMap ((l ++ [x])[·]?) = (List.range l.length).filterMap (l[·]?) := by
        apply List.filterMap_congr
        intro j hj
        exact List.getElem?_append_left (List.mem_range.mp hj)
      have e2 : [l.length].filterMap ((l ++ [x])[·]?) = [x] := by simp
      rw [e1, e2, List.ext_getElem? ih]
  rw [this]

theorem ow_push_figureWith {h : Heap} {pos x a : Addr} {d : Drawn} {g : Multiset ℕ} (ha : h.obj a = some (figureWith pos d x)) (hp : h.obj pos = some .position)
    (hx : OwnsElem d.kind h x g) : OwnsFigure h a (g + ({pos} + {a})) := by
  have e : ∀ {k} {as : List Addr}, OwnsElem k h x g → as = [x] → OwnsAll (OwnsElem k h) as g := by
    rintro k as hx rfl
    have := OwnsAll.cons hx (OwnsAll.nil (P := OwnsElem k h))
    rwa [add_zero] at this
  cases d with
  | character => exact ⟨pos, [x], [], [], g, 0, 0, ha, hp, e hx rfl, .nil, .nil, by abel⟩
  | shape => exact ⟨pos, [], [x], [], 0, g, 0, ha, hp, .nil, e hx rfl, .nil, by abel⟩
  | graphic => exact ⟨pos, [], [], [x], 0, 0, g, ha, hp, .nil, .nil, e hx rfl, by abel⟩

theorem ow_place {s : State} {lost : Multiset ℕ} (hi : OwnInv s lost) (d : Drawn) (t : Target) {a : Addr} (ha : a ∈ s.pages) :
    (∃ h', place d (newElement d.kind s.heap).1 a t (newElement d.kind s.heap).2 = .ok h' ∧ OwnInv { s with heap := h' } lost) ∨
      ∃ m ∈ noSuch, place d (newElement d.kind s.heap).1 a t (newElement d.kind s.heap).2 = .ub m := by
  obtain ⟨new, g1, hx, _, n1⟩ := ow_newElement d.kind s.heap (ow_next hi)
  obtain ⟨p, hp⟩ := ow_pages_obj hi ha
  have hane : a ∉ new := fun h => by rw [(g1.fresh a h).1] at hp; cases hp
  have hp1 : (newElement d.kind s.heap).2.obj a = some (.page p) := by rw [g1.same a hane fun h => h, hp]
  generalize (newElement d.kind s.heap).1 = x at *
  generalize (newElement d.kind s.heap).2 = h1 at *
  cases t with
  | page =>
    left
    exact ow_onPage hi ha g1 fun h' p fs hp e => ow_push_drawn hp (ow_elem_framed _ _ _ _ _ hx e)
  | figure i =>
    show (∃ h', (match (figuresOf a h1)[i]? with | some f => pushFigure d x f h1 | none => .ub "no such figure") = .ok h' ∧ _) ∨
      ∃ m ∈ noSuch, (match (figuresOf a h1)[i]? with | some f => pushFigure d x f h1 | none => .ub "no such figure") = .ub m
    have hfig : figuresOf a h1 = p.figures := by unfold figuresOf; rw [hp1]
    rw [hfig]
    cases hb : p.figures[i]? with
    | none => exact .inr ⟨_, by simp [noSuch], rfl⟩
    | some b =>
      left
      have hbm : b ∈ p.figures := List.mem_of_getElem? hb
      obtain ⟨f, gg, q1, q2, nd, al, nx, cu⟩ := id hi
      obtain ⟨ga, ⟨p', fs, hp', hparts, rfl⟩, _⟩ := ow_all_mem q1 ha
      rw [hp] at hp'
      cases hp'
      obtain ⟨g, ⟨pos, cs, ss, gs, f1, f2, f3, hob, _⟩, _⟩ := (ow_parts_mem hparts).1 hbm
      have hbn : b ∉ new := fun h => by rw [(g1.fresh b h).1] at hob; cases hob
      have hb1 : h1.obj b = some (.figure pos cs ss gs) := by rw [g1.same b hbn fun h => h, hob]
      refine ⟨_, by simp only [pushFigure, hb1]; rfl, ow_inner (P := OwnsFigure) (i := 4) hi ha hp g1 (.inr ⟨rfl, rfl, hbm⟩) ?_⟩
      intro g hg ndg hgn hgr ho hsame
      refine ow_figure_push (d := d) hg ndg hgn hgr (ow_elem_framed _ _ _ _ _ hx hsame) ?_
      intro pos' cs' ss' gs' e
      rw [hob] at e
      cases e
      cases d <;> exact ho
  | newFigure =>
    left
    obtain ⟨g2, o2, n2⟩ := ow_alloc h1 n1 .position
    obtain ⟨g3, o3, n3⟩ := ow_alloc (h1.alloc .position).2 n2 (figureWith h1.next d x)
    have g13 := ow_grows_trans g1 (ow_grows_trans g2 g3 fun _ h => h.elim) fun _ h => h.elim
    refine ow_onPage (a := a) (F := fun q => { q with figures := q.figures ++ [(h1.alloc .position).2.next] }) hi ha g13 ?_
    intro h' q fs hq e
    refine ⟨_, ow_push_figure hq ?_, ow_partsSum_update fs 4 _⟩
    have hd : ∀ y ∈ new, y ∉ ({h1.next} + {(h1.alloc .position).2.next} : Multiset ℕ) := fun y hy hy2 => ow_disjoint g13.nodup hy2 hy
    have hne : h1.next ∉ ({(h1.alloc .position).2.next} : Multiset ℕ) := by
      show h1.next ∉ ({h1.next + 1} : Multiset ℕ)
      simp
    have hpos : ((h1.alloc .position).2.alloc (figureWith h1.next d x)).2.obj h1.next = some .position := by
      rw [g3.same _ hne fun h => h, o2]
    have hel : OwnsElem d.kind ((h1.alloc .position).2.alloc (figureWith h1.next d x)).2 x new := by
      refine ow_elem_framed _ _ _ _ _ hx fun y hy => ?_
      have h2 := hd y hy
      simp only [Multiset.mem_add, not_or] at h2
      rw [g3.same y h2.2 fun h => h, g2.same y h2.1 fun h => h]
    have hown := ow_push_figureWith (a := (h1.alloc .position).2.next) o3 hpos hel
    exact ow_figure_framed _ _ _ _ hown e

theorem ow_addLine {s : State} {lost : Multiset ℕ} (hi : OwnInv s lost) (j : ℕ) {a : Addr} (ha : a ∈ s.pages) :
    (∃ h', (match (segmentsOf a s.heap)[j]? with
        | some g => pushLine (newElement .line s.heap).1 g (newElement .line s.heap).2
        | none => .ub "no such segment") = .ok h' ∧ OwnInv { s with heap := h' } lost) ∨
      ∃ m ∈ noSuch, (match (segmentsOf a s.heap)[j]? with
        | some g => pushLine (newElement .line s.heap).1 g (newElement .line s.heap).2
        | none => .ub "no such segment") = .ub m := by
  obtain ⟨new, g1, hx, _, n1⟩ := ow_newElement .line s.heap (ow_next hi)
  obtain ⟨p, hp⟩ := ow_pages_obj hi ha
  generalize (newElement .line s.heap).1 = x at *
  generalize (newElement .line s.heap).2 = h1 at *
  have hseg : segmentsOf a s.heap = p.segments := by unfold segmentsOf; rw [hp]
  rw [hseg]
  cases hb : p.segments[j]? with
  | none => exact .inr ⟨_, by simp [noSuch], rfl⟩
  | some b =>
    left
    have hbm : b ∈ p.segments := List.mem_of_getElem? hb
    obtain ⟨f, gg, q1, q2, nd, al, nx, cu⟩ := id hi
    obtain ⟨ga, ⟨p', fs, hp', hparts, rfl⟩, _⟩ := ow_all_mem q1 ha
    rw [hp] at hp'
    cases hp'
    obtain ⟨g, ⟨pos, ls, f1, hob, _⟩, _⟩ := (ow_parts_mem hparts).2 hbm
    have hbn : b ∉ new := fun h => by rw [(g1.fresh b h).1] at hob; cases hob
    have hb1 : h1.obj b = some (.segment pos ls) := by rw [g1.same b hbn fun h => h, hob]
    refine ⟨_, by simp only [pushLine, hb1]; rfl, ow_inner (P := OwnsSegment) (i := 3) hi ha hp g1 (.inl ⟨rfl, rfl, hbm⟩) ?_⟩
    intro g hg ndg hgn hgr ho hsame
    refine ow_segment_push hg ndg hgn hgr (ow_elem_framed _ _ _ _ _ hx hsame) ?_
    intro pos' ls' e
    rw [hob] at e
    cases e
    exact ho

theorem ow_ok {s : State} {lost : Multiset ℕ} {o : Op} (hl : opLost o = 0)
    (h : (∃ s', step s o = .ok s' ∧ OwnInv s' lost) ∨ ∃ m ∈ noSuch, step s o = .ub m) : OwnStep s lost o := by
  rcases h with ⟨s', e, hi⟩ | h
  · exact .inl ⟨s', lost, e, hi, by rw [hl, add_zero]⟩
  · exact .inr h

theorem ow_free_next {h h' : Heap} {a : Addr} (e : h.free a = .ok h') : h'.next = h.next := by
  unfold Heap.free at e
  split at e
  · cases e
  · cases e; rfl

theorem ow_deleteElement_next {k : Kind} {h h' : Heap} {a : Addr} (e : deleteElement k a h = .ok h') : h'.next = h.next := by
  unfold deleteElement at e
  split at e
  · split at e
    · unfold deletePosition at e
      split at e
      · rename_i pos _ _ _ _
        cases h1 : h.free pos with
        | ok h2 =>
          rw [h1] at e
          rw [ow_free_next (show h2.free a = .ok h' from e), ow_free_next h1]
        | throw m => rw [h1] at e; cases e
        | ub m => rw [h1] at e; cases e
      · cases e
    · cases e
  · cases e

theorem ow_step {s : State} {lost : Multiset ℕ} (hi : OwnInv s lost) (o : Op)
    (hr : ∀ i order, o = .reorder i order → ∀ a p, s.pages[i]? = some a → s.heap.obj a = some (.page p) → order.Perm (List.range p.blocks.length)) :
    OwnStep s lost o := by
  cases o with
  | startPage =>
    refine ow_ok rfl (.inl ⟨_, rfl, ?_⟩)
    obtain ⟨g1, o1, n1⟩ := ow_alloc s.heap (ow_next hi) (.page {})
    obtain ⟨f, g, h1, h2, nd, al, nx, cu⟩ := hi
    have hnx : s.heap.next ∉ f + g + lost := fun h => (al _).mpr h (nx _ le_rfl)
    have hsame : ∀ x ∈ f + g + lost, (s.heap.alloc (.page {})).2.obj x = s.heap.obj x := fun x hx => g1.same x (by
      rw [Multiset.mem_singleton]; rintro rfl; exact hnx hx) fun h => h
    refine ⟨f + {s.heap.next}, g, ow_all_snoc (ow_all_framed ow_page_framed h1 fun x hx => hsame x (by simp [hx])) ?_,
      ow_all_framed (ow_leaf_framed _) h2 fun x hx => hsame x (by simp [hx]), ?_, ?_, n1, ?_⟩
    · refine ⟨{}, fun _ => 0, o1, ⟨.nil, .nil, .nil, .nil, .nil, .nil, .nil, .nil, .nil⟩, ?_⟩
      simp only [partsSum, add_zero, zero_add]
      rfl
    · rw [show f + {s.heap.next} + g + lost = f + g + lost + {s.heap.next} by abel]
      exact Multiset.nodup_add.mpr ⟨nd, by simp, Multiset.disjoint_left.mpr fun hx hn => by
        rw [Multiset.mem_singleton] at hn; subst hn; exact hnx hx⟩
    · intro x
      rw [show f + {s.heap.next} + g + lost = f + g + lost + {s.heap.next} by abel]
      show (s.heap.alloc (.page {})).2.obj x ≠ none ↔ _
      by_cases hx : x = s.heap.next
      · subst hx; rw [o1]; simp
      · rw [g1.same x (by simpa using hx) fun h => h, al x]; simp [hx]
    · intro a e
      obtain rfl : s.heap.next = a := by simpa [Heap.alloc] using e
      simp [Heap.alloc]
  | updateFont name =>
    by_cases hin : name ∈ s.fontInfos.map (·.1)
    · exact ow_ok rfl (.inl ⟨s, by simp only [step, if_pos hin], hi⟩)
    · refine ow_ok rfl (.inl ⟨_, by simp only [step, if_neg hin]; rfl, ?_⟩)
      obtain ⟨g1, o1, n1⟩ := ow_alloc s.heap (ow_next hi) .fontInfo
      obtain ⟨f, g, h1, h2, nd, al, nx, cu⟩ := hi
      have hnx : s.heap.next ∉ f + g + lost := fun h => (al _).mpr h (nx _ le_rfl)
      have hsame : ∀ x ∈ f + g + lost, (s.heap.alloc .fontInfo).2.obj x = s.heap.obj x := fun x hx => g1.same x (by
        rw [Multiset.mem_singleton]; rintro rfl; exact hnx hx) fun h => h
      refine ⟨f, g + {s.heap.next}, ow_all_framed ow_page_framed h1 fun x hx => hsame x (by simp [hx]), ?_, ?_, ?_, n1, cu⟩
      · rw [List.map_append]
        exact ow_all_snoc (ow_all_framed (ow_leaf_framed _) h2 fun x hx => hsame x (by simp [hx])) ⟨o1, rfl⟩
      · rw [show f + (g + {s.heap.next}) + lost = f + g + lost + {s.heap.next} by abel]
        exact Multiset.nodup_add.mpr ⟨nd, by simp, Multiset.disjoint_left.mpr fun hx hn => by
          rw [Multiset.mem_singleton] at hn; subst hn; exact hnx hx⟩
      · intro x
        rw [show f + (g + {s.heap.next}) + lost = f + g + lost + {s.heap.next} by abel]
        show (s.heap.alloc .fontInfo).2.obj x ≠ none ↔ _
        by_cases hx : x = s.heap.next
        · subst hx; rw [o1]; simp
        · rw [g1.same x (by simpa using hx) fun h => h, al x]; simp [hx]
  | drawSpace =>
    obtain ⟨new, g1, hx, _, n1⟩ := ow_newElement .character s.heap (ow_next hi)
    obtain ⟨h', e, hrel⟩ := ow_deleteElement .character _ _ _ hx g1.nodup
    refine ow_ok rfl (.inl ⟨{ s with heap := h' }, by simp only [step, e]; rfl, ?_⟩)
    have hsame : ∀ x, h'.obj x = s.heap.obj x := by
      intro x
      rw [hrel x]
      by_cases hxn : x ∈ new
      · rw [if_pos hxn, (g1.fresh x hxn).1]
      · rw [if_neg hxn, g1.same x hxn fun h => h]
    obtain ⟨f, g, h1, h2, nd, al, nx, cu⟩ := hi
    refine ⟨f, g, ow_all_framed ow_page_framed h1 fun x _ => hsame x, ow_all_framed (ow_leaf_framed _) h2 fun x _ => hsame x, nd, ?_, ?_, cu⟩
    · intro x
      show h'.obj x ≠ none ↔ _
      rw [hsame x, al x]
    · intro x hx'
      show h'.obj x = none
      rw [hsame x]
      refine nx x (le_trans ?_ hx')
      show s.heap.next ≤ h'.next
      rw [ow_deleteElement_next e]
      exact Nat.le_add_right _ 2
  | draw d t =>
    refine ow_ok rfl ?_
    show (∃ s', withCurrent s _ = .ok s' ∧ _) ∨ ∃ m ∈ noSuch, withCurrent s _ = .ub m
    unfold withCurrent
    cases hc : s.current with
    | none => exact .inr ⟨_, by simp [noSuch], rfl⟩
    | some a =>
      have ha : a ∈ s.pages := by
        obtain ⟨f, g, _, _, _, _, _, cu⟩ := hi
        exact cu a hc
      rcases ow_place hi d t ha with ⟨h', e, hi'⟩ | ⟨m, hm, e⟩
      · exact .inl ⟨_, by simp only [e]; rfl, by rw [← hc]; exact hi'⟩
      · exact .inr ⟨m, hm, by simp only [e]; rfl⟩
  | addWord i =>
    refine ow_ok rfl (ow_withPage fun a ha => .inl ?_)
    obtain ⟨new, g1, hx, _, n1⟩ := ow_newElement .word s.heap (ow_next hi)
    exact ow_onPage hi ha g1 fun h' p fs hp e => ⟨_, ow_push_word hp (ow_elem_framed _ _ _ _ _ hx e), ow_partsSum_update fs 1 _⟩
  | addCut i reading =>
    refine ow_ok rfl (ow_withPage fun a ha => .inl ?_)
    obtain ⟨g1, o1, n1⟩ := ow_alloc s.heap (ow_next hi) .cut
    refine ow_onPage hi ha g1 fun h' p fs hp e => ?_
    have hx : OwnsLeaf .cut h' s.heap.next {s.heap.next} := ⟨by rw [e _ (by simp), o1], rfl⟩
    cases reading with
    | false => exact ⟨_, ow_push_cut hp hx, ow_partsSum_update fs 7 _⟩
    | true => exact ⟨_, ow_push_orderCut hp hx, ow_partsSum_update fs 8 _⟩
  | addSegment i =>
    refine ow_ok rfl (ow_withPage fun a ha => .inl ?_)
    obtain ⟨g1, o1, n1⟩ := ow_alloc s.heap (ow_next hi) .position
    obtain ⟨g2, o2, n2⟩ := ow_alloc (s.heap.alloc .position).2 n1 (.segment s.heap.next [])
    refine ow_onPage hi ha (ow_grows_trans g1 g2 fun _ h => h.elim) fun h' p fs hp e => ⟨_, ow_push_segment hp ?_, ow_partsSum_update fs 3 _⟩
    have hne : s.heap.next ∉ ({(s.heap.alloc .position).2.next} : Multiset ℕ) := by
      show s.heap.next ∉ ({s.heap.next + 1} : Multiset ℕ)
      simp
    refine ⟨s.heap.next, [], 0, ?_, ?_, .nil, (zero_add _).symm⟩
    · exact (e _ (Multiset.mem_add.mpr (.inr (Multiset.mem_singleton_self _)))).trans o2
    · rw [e _ (by simp)]
      exact (g2.same _ hne fun h => h).trans o1
  | addLine i j => exact ow_ok rfl (ow_withPage fun a ha => ow_addLine hi j ha)
  | addBlock i =>
    refine ow_ok rfl (ow_withPage fun a ha => .inl ?_)
    obtain ⟨new, g1, hx, _, n1⟩ := ow_newElement .block s.heap (ow_next hi)
    exact ow_onPage hi ha g1 fun h' p fs hp e => ⟨_, ow_push_block hp (ow_elem_framed _ _ _ _ _ hx e), ow_partsSum_update fs 2 _⟩
  | reorder i order =>
    refine ow_ok rfl ?_
    show (∃ s', withPage s i _ = .ok s' ∧ _) ∨ ∃ m ∈ noSuch, withPage s i _ = .ub m
    unfold withPage
    cases h : s.pages[i]? with
    | none => exact .inr ⟨_, by simp [noSuch], rfl⟩
    | some a =>
      have ha := List.mem_of_getElem? h
      obtain ⟨p, hp⟩ := ow_pages_obj hi ha
      have hperm := ow_filterMap_range (hr i order rfl a p h hp)
      left
      have hg : GrowsOnly s.heap s.heap 0 := ⟨by simp, by simp, fun _ _ _ => rfl, fun _ h => h.elim, fun h => h⟩
      have key : ∃ h', onPage a (fun q => if q = p then { q with blocks := order.filterMap (q.blocks[·]?) } else q) s.heap = .ok h' ∧ OwnInv { s with heap := h' } lost := by
        refine ow_onPage hi ha hg fun h' q fs hq _ => ?_
        by_cases e : q = p
        · subst e
          refine ⟨fs, ?_, (add_zero _).symm⟩
          rw [if_pos rfl]
          exact ⟨hq.characters, hq.words, ow_all_perm hperm.symm hq.blocks, hq.segments, hq.figures, hq.shapes, hq.graphics, hq.blockCuts, hq.orderCuts⟩
        · exact ⟨fs, by rw [if_neg e]; exact hq, (add_zero _).symm⟩
      obtain ⟨h', e, hi'⟩ := key
      refine ⟨{ s with heap := h' }, ?_, hi'⟩
      have : onPage a (fun p => { p with blocks := order.filterMap (p.blocks[·]?) }) s.heap = .ok h' := by
        unfold onPage at e ⊢
        rw [hp] at e ⊢
        simpa using e
      simp only [this]; rfl
  | lose k =>
    left
    obtain ⟨new, g1, hx, hc, n1⟩ := ow_newElement k s.heap (ow_next hi)
    exact ⟨_, _, rfl, ow_lose hi g1, by rw [Multiset.card_add, hc]; rfl⟩
  | loseCut =>
    left
    obtain ⟨g1, o1, n1⟩ := ow_alloc s.heap (ow_next hi) .cut
    exact ⟨_, _, rfl, ow_lose hi g1, by rw [Multiset.card_add, Multiset.card_singleton]; rfl⟩

theorem ow_run {ops : List Op} : ∀ {pre : List Op} {s : State} {lost : Multiset ℕ}, run pre {} = .ok s → OwnInv s lost → lost.card = lostObjects pre → KeepsBlocks (pre ++ ops) →
    (∃ s' lost', run ops s = .ok s' ∧ OwnInv s' lost' ∧ lost'.card = lostObjects (pre ++ ops)) ∨ ∃ m ∈ noSuch, run ops s = .ub m := by
  induction ops with
  | nil => intro pre s lost _ hi hc _; exact .inl ⟨s, lost, rfl, hi, by simpa using hc⟩
  | cons o os ih =>
    intro pre s lost hpre hi hc hk
    rcases ow_step hi o (fun i order ho a p ha hp => hk pre os i order (by rw [ho]) s a p hpre ha hp) with ⟨s', lost', e, hi', hc'⟩ | ⟨m, hm, e⟩
    · have happ : ∀ (l : List Op) (t : State), run (l ++ [o]) t = (run l t).bind fun u => step u o := by
        intro l
        induction l with
        | nil => intro t; show (step t o).bind _ = step t o; cases step t o <;> rfl
        | cons x l ihl =>
          intro t
          show (step t x).bind (run (l ++ [o])) = ((step t x).bind (run l)).bind fun u => step u o
          cases step t x with
          | ok u => exact ihl u
          | throw m => rfl
          | ub m => rfl
      have hrun : run (pre ++ [o]) {} = .ok s' := by rw [happ, hpre]; exact e
      have hlo : lost'.card = lostObjects (pre ++ [o]) := by
        rw [hc', hc]
        unfold lostObjects
        rw [List.map_append, List.sum_append]
        cases o <;> rfl
      have := ih (pre := pre ++ [o]) hrun hi' hlo (by rw [List.append_assoc]; exact hk)
      rw [List.append_assoc] at this
      show (∃ s' lost', (step s o).bind (run os) = .ok s' ∧ _) ∨ ∃ m ∈ noSuch, (step s o).bind (run os) = .ub m
      rw [e]
      exact this
    · exact .inr ⟨m, hm, by show (step s o).bind (run os) = _; rw [e]; rfl⟩

theorem ow_init : OwnInv {} 0 :=
  ⟨0, 0, .nil, .nil, by simp, fun a => by simp, fun _ _ => rfl, fun a h => by cases h⟩

/-! ## The theorems -/

/-- At every point of every history (the end, or the point at which an exception leaves a stage), destroying the document releases no object twice and
follows no pointer to a released object.  Afterwards exactly the lost objects are still allocated: their number is the one that the history says. -/
theorem c82_released {ops : List Op} {s : State} (hrun : run ops {} = .ok s) (hk : KeepsBlocks ops) :
    ∃ h, destroy s = .ok h ∧ ∃ left : List Addr, left.Nodup ∧ left.length = lostObjects ops ∧ ∀ a, h.obj a ≠ none ↔ a ∈ left := by
  rcases ow_run (pre := []) (ops := ops) rfl ow_init rfl hk with ⟨s', lost, e, ⟨f, g, h1, h2, nd, al, nx, cu⟩, hc⟩ | ⟨m, _, e⟩
  · rw [hrun] at e
    cases e
    rw [List.nil_append] at hc
    have nd1 := (Multiset.nodup_add.mp nd).1
    obtain ⟨h', e, r⟩ := ow_bind nd1 (ow_deleteAll ow_deletePage ow_page_framed h1) fun h' e nd' =>
      ow_deleteAll ow_deleteFontInfo (ow_leaf_framed _) (ow_all_framed (ow_leaf_framed _) h2 e) nd'
    refine ⟨h', e, lost.toList, ?_, by rw [Multiset.length_toList, hc], ?_⟩
    · exact Multiset.coe_nodup.mp (by rw [Multiset.coe_toList]; exact (Multiset.nodup_add.mp nd).2.1)
    · intro a
      rw [r a, Multiset.mem_toList]
      by_cases ha : a ∈ f + g
      · rw [if_pos ha]
        simp only [ne_eq, not_true_eq_false, false_iff]
        exact fun hl => ow_disjoint nd hl ha
      · rw [if_neg ha, al a]
        simp only [Multiset.mem_add] at ha ⊢
        tauto
  · rw [hrun] at e; cases e

/-- No operation of a history uses a released object: the only way in which a history can go wrong is that it names something that does not exist. -/
theorem c82_no_use_after_release {ops : List Op} (hk : KeepsBlocks ops) : (∃ s, run ops {} = .ok s) ∨ ∃ m ∈ noSuch, run ops {} = .ub m := by
  rcases ow_run (pre := []) (ops := ops) rfl ow_init rfl hk with ⟨s', lost, e, _⟩ | h
  · exact .inl ⟨s', e⟩
  · exact .inr h

/-- If nothing is lost, nothing is left. -/
theorem c82_nothing_left {ops : List Op} {s : State} (hrun : run ops {} = .ok s) (hk : KeepsBlocks ops) (hl : ∀ k, Op.lose k ∉ ops) (hc : Op.loseCut ∉ ops) :
    ∃ h, destroy s = .ok h ∧ ∀ a, h.obj a = none := by
  obtain ⟨h, e, left, _, hlen, hmem⟩ := c82_released hrun hk
  have h0 : lostObjects ops = 0 := by
    unfold lostObjects
    clear hrun hk e hlen hmem
    induction ops with
    | nil => rfl
    | cons o os ih =>
      rw [List.map_cons, List.sum_cons, ih (fun k h => hl k (by simp [h])) (fun h => hc (by simp [h]))]
      cases o with
      | lose k => exact absurd (by simp) (hl k)
      | loseCut => exact absurd (by simp) hc
      | _ => rfl
  rw [h0] at hlen
  rw [List.length_eq_zero_iff.mp hlen] at hmem
  exact ⟨h, e, fun a => by have := hmem a; simpa using this⟩

/-! ## A concrete history -/

/-- A page with a font, a space, characters on the page and in a figure, a shape, a graphic, a word, a cut, a segment with a line, and two blocks. -/
def owBefore : List Op :=
  [.startPage, .updateFont "F1", .updateFont "F1", .drawSpace, .draw .character .page, .draw .character .newFigure, .draw .shape (.figure 0), .draw .graphic .page,
    .addWord 0, .addCut 0 false, .addSegment 0, .addLine 0 0, .addBlock 0, .addBlock 0, .addCut 0 true]

/-- The two blocks change places; then a second page is started. -/
def owHistory : List Op := owBefore ++ .reorder 0 [1, 0] :: [.startPage, .draw .character .page]

/-- One reorder operation is enough to look at. -/
theorem ow_keepsBlocks_one {pre post : List Op} {i : ℕ} {order : List ℕ} (h1 : ∀ j l, Op.reorder j l ∉ pre) (h2 : ∀ j l, Op.reorder j l ∉ post)
    (h : ∀ s a p, run pre {} = .ok s → s.pages[i]? = some a → s.heap.obj a = some (.page p) → order.Perm (List.range p.blocks.length)) :
    KeepsBlocks (pre ++ .reorder i order :: post) := by
  intro before after j l e
  rcases List.append_eq_append_iff.mp e with ⟨as, e1, e2⟩ | ⟨as, e1, e2⟩
  · cases as with
    | nil =>
      rw [List.nil_append] at e2
      obtain ⟨e3, e4⟩ := List.cons.inj e2
      cases e3
      rw [List.append_nil] at e1
      subst e1
      exact h
    | cons x as =>
      rw [List.cons_append] at e2
      obtain ⟨_, e4⟩ := List.cons.inj e2
      exact absurd (by rw [e4]; simp) (h2 j l)
  · cases as with
    | nil =>
      rw [List.nil_append] at e2
      obtain ⟨e3, e4⟩ := List.cons.inj e2
      cases e3
      rw [List.append_nil] at e1
      subst e1
      exact h
    | cons x as =>
      rw [List.cons_append] at e2
      obtain ⟨e3, _⟩ := List.cons.inj e2
      exact absurd (by rw [e1, ← e3]; simp) (h1 j l)

theorem ow_keepsBlocks_none {ops : List Op} (h1 : ∀ j l, Op.reorder j l ∉ ops) : KeepsBlocks ops := by
  intro before after j l e
  exact absurd (by rw [e]; simp) (h1 j l)

/-- The blocks of the page of the history before they change places. -/
theorem ow_history_keeps : KeepsBlocks owHistory := by
  refine ow_keepsBlocks_one (by simp [owBefore]) (by simp) ?_
  intro s a p hs ha hp
  have hall : (match run owBefore {} with
      | .ok s => (match s.pages[0]? with
        | some a => (match s.heap.obj a with
          | some (.page p) => p.blocks.length
          | _ => 0)
        | none => 0)
      | _ => 0) = 2 := by decide +kernel
  rw [hs] at hall
  simp only [ha, hp] at hall
  rw [hall]
  decide

/-- The hypotheses of the theorems are met by the history: it runs, 27 objects are alive at its end, and nothing is left after the destruction of the document. -/
example : KeepsBlocks owHistory ∧ (match run owHistory {} with
    | .ok s => ((List.range 40).filter fun a => (s.heap.obj a).isSome).length == 27 && (match destroy s with
      | .ok h => (List.range 40).all fun a => (h.obj a).isNone
      | _ => false)
    | _ => false) = true := ⟨ow_history_keeps, by decide +kernel⟩

/-- With a wrong order, in which a block appears twice, the destructor of the page releases it twice. -/
example : (match run (owBefore ++ [.reorder 0 [1, 1]]) {} with
    | .ok s => (match destroy s with
      | .ub _ => true
      | _ => false)
    | _ => false) = true := by decide +kernel

/-- "Nothing is left" is false in general: the merged word of a hyphenated word (and its position) is never released, nor is a cut that nobody collected. -/
theorem c82_leak_refuted : ¬ ∀ ops s, run ops {} = .ok s → KeepsBlocks ops → ∃ h, destroy s = .ok h ∧ ∀ a, h.obj a = none := by
  intro hall
  obtain ⟨s, hs⟩ : ∃ s, run [.startPage, .addWord 0, .addWord 0, .lose .word] {} = .ok s := ⟨_, rfl⟩
  have hk : KeepsBlocks [.startPage, .addWord 0, .addWord 0, .lose .word] := ow_keepsBlocks_none (by simp)
  obtain ⟨h, e, h0⟩ := hall _ _ hs hk
  obtain ⟨h', e', left, _, hlen, hmem⟩ := c82_released hs hk
  rw [e] at e'
  cases e'
  have : left ≠ [] := by rintro rfl; cases hlen
  obtain ⟨x, hx⟩ := List.exists_mem_of_ne_nil _ this
  exact (hmem x).mpr hx (h0 x)

end Verif.Props

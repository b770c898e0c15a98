import Verif.Spec.Frequency
import Verif.Model.Pipeline

/-!
# Specification for C98: the order of the entries of a hash table matters only for ties
-/

namespace Verif.Spec

open Verif.Math Verif.Counter Verif.TextLines Verif.Words Verif.Pipeline

/-- Several different values occur most often. -/
def Tied {κ : Type} [DecidableEq κ] (xs : List κ) : Prop := ∃ x y, IsMostFrequent xs x ∧ IsMostFrequent xs y ∧ x ≠ y

/-- Two different values cannot be told apart by the tolerant comparisons. -/
def Close (xs : List ℚ) : Prop := ∃ x ∈ xs, ∃ y ∈ xs, x < y ∧ y ≤ x + tol

/-- Two standard libraries go through the entries of the counters in different orders, except for counters with a tie. -/
structure SameOnTies (h h' : HashOrder) : Prop where
  ties : ∀ (κ : Type) [DecidableEq κ] (xs : List κ), Tied xs → h.order κ (countAll xs) = h'.order κ (countAll xs)
  close : ∀ xs : List ℚ, Close xs → h.order ℚ (countAll xs) = h'.order ℚ (countAll xs)

/-- The program with another order of the entries of the hash tables: that of the counters, and that of the tables of words and counters. -/
def withOrder (lib : Pipeline.Lib) (h : HashOrder) (iter : (β : Type) → List β → List β) (hp : ∀ β l, (iter β l).Perm l) : Pipeline.Lib :=
  { lib with lines := { lib.lines with hash := h, iter := iter, iterPerm := hp } }

/-- The program with another order of the entries of the counters. -/
def withCounters (lib : Pipeline.Lib) (h : HashOrder) : Pipeline.Lib := withOrder lib h lib.lines.iter lib.lines.iterPerm

/-- The word, and the words that are stacked on it. -/
def withStacked (p : Pipeline.Page) (a : Word) : List Word := a :: a.parts.filterMap fun i => p.words[i]?

/-- All words of the page are written in one direction and have well-formed boxes, and stacked formulas make no ties: of two words (or formulas) whose lower edges differ, no words end at the same height. -/
def UntiedPage (p : Pipeline.Page) : Prop :=
  (∃ r, ∀ w ∈ p.words, w.pos.rotation = r ∧ w.pos.leftX ≤ w.pos.rightX ∧ w.pos.upperY ≤ w.pos.lowerY) ∧
  ∀ a ∈ p.words, ∀ b ∈ p.words, a.partOf = none → b.partOf = none → a.pos.getRotLowerY ≠ b.pos.getRotLowerY →
    ∀ x ∈ withStacked p a, ∀ y ∈ withStacked p b, x.pos.getRotLowerY ≠ y.pos.getRotLowerY

/-- The same for a page with words of several directions: a stacked formula has one direction, and there are no ties between words (or formulas) of one direction. -/
def UntiedDirections (p : Pipeline.Page) : Prop :=
  (∀ w ∈ p.words, w.pos.leftX ≤ w.pos.rightX ∧ w.pos.upperY ≤ w.pos.lowerY) ∧
  (∀ a ∈ p.words, ∀ x ∈ withStacked p a, x.pos.rotation = a.pos.rotation) ∧
  ∀ a ∈ p.words, ∀ b ∈ p.words, a.partOf = none → b.partOf = none → a.pos.rotation = b.pos.rotation → a.pos.getRotLowerY ≠ b.pos.getRotLowerY →
    ∀ x ∈ withStacked p a, ∀ y ∈ withStacked p b, x.pos.getRotLowerY ≠ y.pos.getRotLowerY

end Verif.Spec

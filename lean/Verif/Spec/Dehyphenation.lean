import Mathlib.Data.List.Basic

/-!
# Specification of de-hyphenation, independent of the model
-/

namespace Verif.Spec

/-- A text ending in a hyphen, with something in front of it. -/
def Hyphenated (s : List Char) : Prop := 1 < s.length ∧ s.getLast? = some '-'

instance (s : List Char) : Decidable (Hyphenated s) := by unfold Hyphenated; infer_instance

/-- The words of a text given line by line, after joining the words split at line ends: if the last word of a line is
hyphenated and there is a next line, the hyphen is removed and the word is continued by the first word of the next line; the joined word
takes the place of that first word (so it may itself be split again). Empty lines are ignored. -/
def joinLines : List (List (List Char)) → List (List Char)
  | [] => []
  | [l] => l
  | l :: [] :: ls => joinLines (l :: ls)
  | l :: (v :: vs) :: ls =>
    match l.getLast? with
    | some w => if Hyphenated w then l.dropLast ++ joinLines (((w.dropLast ++ v) :: vs) :: ls) else l ++ joinLines ((v :: vs) :: ls)
    | none => joinLines ((v :: vs) :: ls)
termination_by ls => ls.length

end Verif.Spec

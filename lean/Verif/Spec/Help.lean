import Verif.Model.Help
import Verif.Spec.Text

/-!
# Specification for C85: what a help page is

The words of a text are its maximal runs without white space (`IsSplit`, see C10).
-/

namespace Verif.Spec

open Verif.Help Verif.Cli
open Verif.Text (Str)

/-- White space. -/
def blankChar (c : Char) : Bool := c ∈ [' ', '\t', '\n', Char.ofNat 11, Char.ofNat 12, '\r']

/-- The two texts have the same words in the same order. -/
def SameWords (a b : Str) : Prop := ∃ ws, IsSplit blankChar a ws ∧ IsSplit blankChar b ws

/-- The text contains something other than white space. -/
def Visible (t : Str) : Prop := ∃ c ∈ t, blankChar c = false

/-- How an option is written on the command line and in the help: `--name`, or `-n [ --name ]` if it has a
short form. -/
def spelled (o : Opt) : Str :=
  match o.short with
  | [] => "--".toList ++ o.long
  | c => "-".toList ++ c ++ " [ --".toList ++ o.long ++ " ]".toList

/-- A heading in bold blue on a line of its own. -/
def heading (t : String) : Str := ("\x1b[1;34m" ++ t ++ "\x1b[0m\n").toList

/-- The part of the help page about one option: a line with its name, at the beginning of the line, then a
text that starts behind four blanks, does not end within a word and has the words of the description. -/
def IsEntry (o : Opt) (out : Str) : Prop :=
  ∃ body, out = spelled o ++ "\n    ".toList ++ body ++ "\n".toList ∧ SameWords o.desc body ∧
    body ≠ [] ∧ (∀ c, body.head? = some c → blankChar c = false)

/-- A section with one text that has the words of `t`. -/
def IsTextSection (name : String) (t out : Str) : Prop :=
  ∃ body, out = heading name ++ body ++ "\n\n".toList ∧ SameWords t body ∧ body ≠ []

/-- A section with an entry for each of the options, in their order, and nothing else. -/
def IsOptionSection (name : String) (os : List Opt) (out : Str) : Prop :=
  ∃ entries, List.Forall₂ IsEntry os entries ∧ out = heading name ++ entries.flatten ++ "\n".toList

/-- The help page; the last section is there only if non-public options are to be shown. -/
def IsHelpPage (p : Program) (pub : List Opt) (priv : Option (List Opt)) (out : Str) : Prop :=
  ∃ a b c d e f, out = a ++ b ++ c ++ d ++ e ++ f ∧
    IsTextSection "NAME" p.name a ∧ IsTextSection "VERSION" p.version b ∧
    IsTextSection "DESCRIPTION" p.description c ∧ IsTextSection "USAGE" p.usage d ∧
    IsOptionSection "OPTIONS" pub e ∧
    match priv with
    | none => f = []
    | some os => IsOptionSection "NON-PUBLIC OPTIONS" os f

/-- All texts of the program and all descriptions. -/
def helpTexts (p : Program) (pub : List Opt) (priv : Option (List Opt)) : List Str :=
  [p.name, p.version, p.description, p.usage] ++ (pub ++ priv.getD []).map (·.desc)

/-- `g'` is `g` with other switches given, but the same among those called `names`. -/
def AgreeOn (names : List Str) (g g' : Given) : Prop :=
  ∃ f, g' = { g with flag := f } ∧ ∀ n : String, n.toList ∈ names → f n = g.flag n

end Verif.Spec

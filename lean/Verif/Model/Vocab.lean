import Verif.Model.Bpe
import Verif.Model.Type1

/-!
# The vocabularies and the words tensor: `/repo/src/SemanticRolesPrediction.cpp:59-127,371-404`

A file is the characters that can be read from it and whether reading ends at the end of the file or
with an error (a byte sequence that is not UTF-8, a directory instead of a file, a read error): then the
stream is `bad` but not at its end, and `std::getline` returns at once without touching the line.
-/

namespace Verif.Vocab

open Verif.Text Verif.Bpe

/-- An opened `ifstream`, `/repo/src/SemanticRolesPrediction.cpp:77,109`: the characters it delivers, and whether
an error (instead of the end) comes after them. -/
structure File where
  chars : List Char
  broken : Bool := false

/-- The variables of a reading loop: the line, the unread characters, whether the stream is good, and the map
that is filled.  Models `/repo/src/SemanticRolesPrediction.cpp:89-102,113-123`. -/
structure Reader (β : Type) where
  line : List Char := []
  rest : List Char
  good : Bool := true
  map : β

/-- `std::getline(file, line)` followed by `file.eof()`.
Models `/repo/src/SemanticRolesPrediction.cpp:91-94,115-116`. -/
def getline {β : Type} (broken : Bool) (r : Reader β) : Reader β × Bool :=
  if !r.good then (r, false)
  else
    match r.rest.dropWhile (· ≠ '\n') with
    | _ :: rest => ({ r with line := r.rest.takeWhile (· ≠ '\n'), rest := rest }, false)
    | [] => ({ r with line := r.rest, rest := [], good := false }, !broken)

/-- `std::stoi` (of a `string` or `wstring`, in the C locale): white space, a sign, digits; the rest is ignored.
Models `/repo/src/SemanticRolesPrediction.cpp:100,121`. -/
def stoi (s : List Char) : Outcome ℤ :=
  let s := s.dropWhile isSpaceC
  let neg := decide (s.head? = some '-')
  let s := if s.head? = some '-' ∨ s.head? = some '+' then s.tail else s
  let ds := s.takeWhile fun c => decide ('0' ≤ c ∧ c ≤ '9')
  if ds.isEmpty then .throw "invalid_argument"
  else
    let v : ℤ := ds.foldl (fun (v : ℤ) (c : Char) => 10 * v + ((c.toNat : ℤ) - 48)) 0
    let v := if neg then -v else v
    if Type1.inInt v then .ok v else .throw "out_of_range"

/-- What a line does to the map: without TAB nothing.
Models `/repo/src/SemanticRolesPrediction.cpp:96-101,119-122`. -/
def useLine {β : Type} (ins : List Char → ℤ → β → β) (line : List Char) (m : β) : Outcome β :=
  match line.dropWhile (· ≠ '\t') with
  | [] => .ok m
  | _ :: number => (stoi number).bind fun i => .ok (ins (line.takeWhile (· ≠ '\t')) i m)

/-- One round of a reading loop: the finished map, or the variables after the round.
Models `/repo/src/SemanticRolesPrediction.cpp:90-102,114-123`. -/
def readRound {β : Type} (broken : Bool) (ins : List Char → ℤ → β → β) (r : Reader β) : Outcome (β ⊕ Reader β) :=
  let g := getline broken r
  if g.2 then .ok (.inl g.1.map)
  else (useLine ins g.1.line g.1.map).bind fun m => .ok (.inr { g.1 with map := m })

/-- The first `n` rounds of a reading loop.
Models `/repo/src/SemanticRolesPrediction.cpp:90-102,114-123`. -/
def readRounds {β : Type} (broken : Bool) (ins : List Char → ℤ → β → β) : ℕ → Reader β → Outcome (β ⊕ Reader β)
  | 0, r => .ok (.inr r)
  | n + 1, r => (readRound broken ins r).bind fun x =>
    match x with
    | .inl m => .ok (.inl m)
    | .inr r' => readRounds broken ins n r'

/-- `_bpeVocab.insert(make_pair(token, tokenId))`: an entry that exists is kept.
Models `/repo/src/SemanticRolesPrediction.cpp:101`. -/
def insertToken (token : List Char) (i : ℤ) (m : Vocab) : Vocab :=
  if (lookup m token).isSome then m else m ++ [(token, i)]

/-- `_rolesVocab[roleId] = roleStr`: an entry that exists is replaced.
Models `/repo/src/SemanticRolesPrediction.cpp:122`. -/
def assignRole (role : List Char) (i : ℤ) (m : List (ℤ × List Char)) : List (ℤ × List Char) :=
  (i, role) :: m.filter fun e => e.1 ≠ i

/-- What `readModel` finds: whether TensorFlow loads the model, and the two files (`none`: they cannot be opened).
Models `/repo/src/SemanticRolesPrediction.cpp:66-82,109-112`. -/
structure Dir where
  modelLoads : Bool
  bpe : Option File
  roles : Option File

/-- The object: whether the model is there, and the vocabularies.
Models `/repo/src/SemanticRolesPrediction.h` (private members). -/
structure Obj where
  modelOk : Bool := false
  bpe : Vocab := []
  roles : List (ℤ × List Char) := []

/-- `readModel` after at most `n` rounds of each loop: what becomes of the object, and `none` as result if a loop
still runs then.  With an exception the object keeps what was read before.
(Simplification: the tokens read before an exception inside of a loop are not kept in the object.)
Models `/repo/src/SemanticRolesPrediction.cpp:59-127`. -/
def readModel (d : Dir) (n : ℕ) (o : Obj) : Obj × Option (Outcome Unit) :=
  if !d.modelLoads then (o, some (.throw "model"))
  else
    let o := { o with modelOk := true }
    match d.bpe with
    | none => (o, some (.throw "Could not load vocab file"))
    | some f =>
      match readRounds f.broken insertToken n { rest := f.chars, map := o.bpe } with
      | .throw m => (o, some (.throw m))
      | .ub m => (o, some (.ub m))
      | .ok (.inr _) => (o, none)
      | .ok (.inl v) =>
        let o := { o with bpe := v }
        match d.roles with
        | none => (o, some (.throw "Could not load vocab file"))
        | some g =>
          match readRounds g.broken assignRole n { rest := g.chars, map := o.roles } with
          | .throw m => (o, some (.throw m))
          | .ub m => (o, some (.ub m))
          | .ok (.inr _) => (o, none)
          | .ok (.inl rs) => ({ o with roles := rs }, some (.ok ()))

/-- Before the prediction: the model is read once.
Models `/repo/src/SemanticRolesPrediction.cpp:130-135`. -/
def prepare (d : Dir) (n : ℕ) (o : Obj) : Obj × Option (Outcome Unit) :=
  if !o.modelOk then readModel d n o else (o, some (.ok ()))

/-- `yDim`, `/repo/src/SemanticRolesPrediction.cpp:384`. -/
def rowLength : ℕ := 100

/-- The ids of the texts, one row after the other; the encoder keeps its cache.  Reading behind the end of a row is
undefined.  Models `/repo/src/SemanticRolesPrediction.cpp:388-400`. -/
def wordRows : Encoder → List (List Char) → Outcome (List ℤ)
  | _, [] => .ok []
  | e, t :: ts =>
    (encode e t rowLength []).bind fun r =>
      if r.2.length < rowLength then .ub "encoding[k] out of range"
      else (wordRows r.1 ts).bind fun rest => .ok (r.2.take rowLength ++ rest)

/-- The words tensor: its dimensions and its values; `pages` are the texts of the blocks of the pages.
Models `/repo/src/SemanticRolesPrediction.cpp:371-404`. -/
def wordsTensor (vocab : Vocab) (pages : List (List (List Char))) : Outcome ((ℕ × ℕ) × List ℤ) :=
  (wordRows (construct vocab) pages.flatten).bind fun vs =>
    .ok (((pages.map List.length).sum, rowLength), vs)

end Verif.Vocab

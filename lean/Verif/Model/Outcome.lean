/-!
# Outcomes of C++ code

C++ code can finish normally, raise an exception or run into undefined behaviour.  The model keeps
these three outcomes apart (see /root/guide.md, "This language"); it is used by every model file
in which the C++ code under `/repo/src` can throw or is undefined on some input.
-/

namespace Verif

/-- Outcome of running a piece of C++ code: a value, an exception (with its message), or undefined
behaviour (with a short description of which rule is violated).
Models no specific line; used wherever `/repo/src` throws (`runtime_error` in
`utils/Counter.cpp:50-52`) or has undefined behaviour (`utils/TextUtils.cpp:149-157`). -/
inductive Outcome (α : Type _) where
  | ok (a : α)
  | throw (msg : String)
  | ub (why : String)
deriving Repr, DecidableEq

namespace Outcome

/-- Sequencing: exceptions and undefined behaviour propagate. Model glue, no source line. -/
def bind {α β : Type _} (x : Outcome α) (f : α → Outcome β) : Outcome β :=
  match x with
  | .ok a => f a
  | .throw m => .throw m
  | .ub w => .ub w

instance : Monad Outcome where
  pure := Outcome.ok
  bind := Outcome.bind

/-- The outcome is a normal result. Model glue, no source line. -/
def isOk {α : Type _} : Outcome α → Bool
  | .ok _ => true
  | _ => false

/-- The outcome is an exception. Model glue, no source line. -/
def isThrow {α : Type _} : Outcome α → Bool
  | .throw _ => true
  | _ => false

/-- The outcome is undefined behaviour. Model glue, no source line. -/
def isUb {α : Type _} : Outcome α → Bool
  | .ub _ => true
  | _ => false

end Outcome

end Verif

import Verif.Spec.Prediction

/-!
# Specification for C93: what uninitialised memory can change
-/

namespace Verif.Spec

open Verif.Pipeline Verif.Serialize

/-- The same program on a computer whose memory contains something else where the program creates text blocks (the role of a text block is the only value the
program reads without having written it, `/repo/src/Types.h:759`). -/
def withMemory (lib : Lib) (r : Role) : Lib := { lib with uninitialised := r }

/-- Any two roles. -/
def AnyRoles (_ _ : Role) : Prop := True

end Verif.Spec

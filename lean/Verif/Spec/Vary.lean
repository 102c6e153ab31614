import Verif.Spec.CHistory
/-
Runs of the same history with one primitive replaced: if the history stays possible, the replaced values were never used.
-/
namespace Pkstl.Spec

/-- The same build with another key agreement function. -/
def withAgree (env : Env) (g : Bytes → Bytes → Option Bytes) : Env :=
  { env with cr := { env.cr with xAgree := g } }

/-- The same build with another signing function. -/
def withSign (env : Env) (g : Bytes → Bytes → Bytes) : Env :=
  { env with cr := { env.cr with edSign := g } }

/-- The same build with another keystream. -/
def withStream (env : Env) (g : Bytes → Bytes → Nat → UInt8) : Env :=
  { env with cr := { env.cr with keystream := g } }

end Pkstl.Spec

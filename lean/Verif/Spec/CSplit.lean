import Verif.Spec.Complete
/- The complete mode: one layer for everything, and a layer whose clone does the reading. -/
namespace Pkstl.Spec

variable {M : Type}

/-- Perform several calls on one layer; the events in order. -/
def crunAll (env : Env) (f : Features) (sl : SecureLayer) : List (COp M) → SecureLayer × List (CEvent M)
  | [] => (sl, [])
  | op :: ops =>
    let r := cstep env f sl op
    let rs := crunAll env f r.1 ops
    (rs.1, r.2 :: rs.2)

/-- `write_bin` and `write`. -/
def COp.writes : COp M → Bool
  | .writeBin _ _ => true
  | .writeSer _ _ _ => true
  | _ => false

/-- Perform the same calls with `write_bin` and `write` on one layer and everything else on another one. -/
def crunSplit (env : Env) (f : Features) (writer reader : SecureLayer) : List (COp M) → List (CEvent M)
  | [] => []
  | op :: ops =>
    if op.writes then
      let r := cstep env f writer op
      r.2 :: crunSplit env f r.1 reader ops
    else
      let r := cstep env f reader op
      r.2 :: crunSplit env f writer r.1 ops

/-- Calls of the traffic phase: writing user messages and reading anything that is not in clear. -/
def COp.traffic : COp M → Bool
  | .writeBin _ _ => true
  | .writeSer _ _ _ => true
  | .readBin b => b.take 4 ≠ [0xE2, 0xC2, 0xE2, 0xD2]
  | .readSer _ b => b.take 4 ≠ [0xE2, 0xC2, 0xE2, 0xD2]
  | _ => false

end Pkstl.Spec

import Verif.Spec.History
/- A layer used by one thread for everything, and a layer whose clone does the reading. -/
namespace Pkstl.Spec

/-- Perform several calls on one layer; the events in order. -/
def runAll (env : Env) (s : Layer) : List Op → Layer × List Event
  | [] => (s, [])
  | op :: ops =>
    let r := step env s op
    let rs := runAll env r.1 ops
    (rs.1, r.2 :: rs.2)

/-- Perform the same calls with `write_message` on one layer and everything else on another one. -/
def runSplit (env : Env) (writer reader : Layer) : List Op → (Layer × Layer) × List Event
  | [] => ((writer, reader), [])
  | .write d w :: ops =>
    let r := step env writer (.write d w)
    let rs := runSplit env r.1 reader ops
    (rs.1, r.2 :: rs.2)
  | op :: ops =>
    let r := step env reader op
    let rs := runSplit env writer r.1 ops
    (rs.1, r.2 :: rs.2)

/-- Calls of the traffic phase: writing user messages, draining, reading anything that is not in clear. -/
def Op.traffic : Op → Bool
  | .write _ _ => true
  | .drain => true
  | .read b => b.take 4 ≠ [0xE2, 0xC2, 0xE2, 0xD2]
  | _ => false

end Pkstl.Spec

import Verif.Spec.Complete
/- Which configuration is in force. -/
namespace Pkstl.Spec

variable {M : Type}

/-- A successful `change_config`. -/
def CEvent.newConfig? : CEvent M → Option Config
  | .config c (.ok ()) => some c
  | _ => none

/-- The configuration given by the last successful `change_config`, or else at creation. -/
def inForce (c : Config) (h : List (CEvent M)) : Config := ((h.filterMap CEvent.newConfig?).getLast?).getD c

end Pkstl.Spec

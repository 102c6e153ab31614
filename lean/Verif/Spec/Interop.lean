import Verif.Spec.Complete
/- A minimal-mode party and a complete-mode party in one session. -/
namespace Pkstl.Spec

/-- What a party of the complete mode makes of content chosen by a party of the minimal mode: no content stays no content,
a DEFLATE stream is unpacked, anything else is an error. -/
inductive Unpacks (cr : Crypto) : Bytes → Res (Option Bytes) → Prop where
  | nothing : Unpacks cr [] (.ok none)
  | stream {b d : Bytes} : b ≠ [] → cr.inflate b = some d → Unpacks cr b (.ok (some d))
  | other {b : Bytes} : b ≠ [] → cr.inflate b = none → Unpacks cr b (.err .zipError)

end Pkstl.Spec

import Verif.Spec.CHistory
import Verif.Spec.Fatal
/- Which inputs end a session of the complete mode. -/
namespace Pkstl.Spec

/-- The inputs that end the session of a layer of the complete mode created as `st` and now in state `sl`. -/
inductive CFatal (env : Env) (st : CStart) (sl : SecureLayer) (inc : Bytes) : Prop where
  /-- whatever ends the session of the minimal layer inside -/
  | input (hi : FatalInput env st.inner sl.minimal inc)
  /-- an acceptable CONNECT, when an ACK signed by its sender was put aside and this layer has not sent the CONNECT that ACK
  answers -/
  | keptAck {algo k b rest : Bytes} {data : Option Bytes} {n : Nat}
      (hc : (sl.minimal.read env inc).2 = .ok (some (.connect algo k data)))
      (hz : ∀ x, data = some x → env.cr.inflate x ≠ none)
      (hb : sl.minimal.ackMsgRecvTooEarly = some b) (hn : n < 2 ^ 64)
      (hoc : env.overflowChecks = true → 16 + n < 2 ^ 64)
      (hx : b = wire n ([0, 2] ++ env.cr.sha256 (env.cr.xPublic st.inner.random)) rest)
      (hl : endOf n ≤ b.length)
      (hv : env.cr.edVerify k (b.take (endOf n)) (b.drop (endOf n)) = true)
      (hs : ∀ rem, sl.minimal.status ≠ .ongoing .connectMsgSent rem)
  /-- the ACK that ends the negotiation, when the early messages among them leave more than 10000 numbers open -/
  | early {data : Option Bytes}
      (hc : (sl.minimal.read env inc).2 = .ok (some (.ack data)))
      (hz : ∀ x, data = some x → env.cr.inflate x ≠ none)
      (hd : ((sl.minimal.read env inc).1.drainTmpStack env).2 = .err .tooManyUnorderedMsgs)

end Pkstl.Spec

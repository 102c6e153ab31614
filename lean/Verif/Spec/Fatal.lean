import Verif.Spec.Malformed
/- Which inputs end a session, in terms of bytes. -/
namespace Pkstl.Spec

/-- `x` starts with a complete CONNECT header. -/
def ConnectShape (oc : Bool) (x : Bytes) : Prop :=
  ∃ n epk k rest, n < 2 ^ 64 ∧ (oc = true → 16 + n < 2 ^ 64) ∧ epk.length = 32 ∧ k.length = 32 ∧
    x = wire n ([0, 1] ++ epk ++ [0, 0, 0, 0] ++ k) rest

/-- `x` starts with a complete ACK header. -/
def AckShape (oc : Bool) (x : Bytes) : Prop :=
  ∃ n c rest, n < 2 ^ 64 ∧ (oc = true → 16 + n < 2 ^ 64) ∧ c.length = 32 ∧ x = wire n ([0, 2] ++ c) rest

/-- `x` starts with a complete USER header. -/
def UserShape (oc : Bool) (x : Bytes) : Prop :=
  ∃ n num rest, n < 2 ^ 64 ∧ num < 2 ^ 64 ∧ (oc = true → 16 + n < 2 ^ 64) ∧
    x = wire n ([0, 0] ++ be64 num) rest

/-- The inputs that end the session of a layer created as `st` and now in state `s`. -/
inductive FatalInput (env : Env) (st : Start) (s : Layer) (inc : Bytes) : Prop where
  /-- anything that is not clear while there is no secret -/
  | noSecret (hk : s.secret = none) (hl : 4 ≤ inc.length) (hm : inc.take 4 ≠ [0xE2, 0xC2, 0xE2, 0xD2])
  /-- anything long enough that is neither clear nor encrypted with the session key -/
  | unsealed {k : SecretKey} (hk : s.secret = some k) (hl : 16 ≤ inc.length)
      (hm : inc.take 4 ≠ [0xE2, 0xC2, 0xE2, 0xD2]) (hx : ∀ x, inc ≠ aeadSeal env.cr k x)
  /-- clear bytes that are long enough to be recognised as neither CONNECT nor ACK -/
  | header (hm : inc.take 4 = [0xE2, 0xC2, 0xE2, 0xD2]) (ht : ¬ Truncated env.overflowChecks inc)
      (hc : ¬ ConnectShape env.overflowChecks inc) (ha : ¬ AckShape env.overflowChecks inc)
  /-- ciphertext of bytes that are long enough to be recognised as not being a user message -/
  | sealedHeader {k : SecretKey} {x : Bytes} (hk : s.secret = some k)
      (hm : inc.take 4 ≠ [0xE2, 0xC2, 0xE2, 0xD2]) (hx : inc = aeadSeal env.cr k x)
      (ht : ¬ Truncated env.overflowChecks x) (hu : ¬ UserShape env.overflowChecks x)
  /-- a signed CONNECT from the peer (on a clone: from anybody) when none is awaited -/
  | connect {n : Nat} {epk k rest : Bytes} (hn : n < 2 ^ 64)
      (hoc : env.overflowChecks = true → 16 + n < 2 ^ 64) (h1 : epk.length = 32) (h2 : k.length = 32)
      (hx : inc = wire n ([0, 1] ++ epk ++ [0, 0, 0, 0] ++ k) rest)
      (hk : s.peerSigPubkey = none ∨ s.peerSigPubkey = some k)
      (hl : endOf n ≤ inc.length)
      (hv : env.cr.edVerify k (inc.take (endOf n)) (inc.drop (endOf n)) = true)
      (hs : ∀ loc, s.status ≠ .ongoing loc .waitConnectMsg)
  /-- a signed ACK from the peer for this layer when none is awaited -/
  | ack {n : Nat} {k rest : Bytes} (hn : n < 2 ^ 64)
      (hoc : env.overflowChecks = true → 16 + n < 2 ^ 64)
      (hx : inc = wire n ([0, 2] ++ env.cr.sha256 (env.cr.xPublic st.random)) rest)
      (hk : s.peerSigPubkey = some k) (hl : endOf n ≤ inc.length)
      (hv : env.cr.edVerify k (inc.take (endOf n)) (inc.drop (endOf n)) = true)
      (hs : ∀ rem, s.status ≠ .ongoing .connectMsgSent rem)
  /-- a second ACK for this layer, signed or not, while the peer's key is unknown -/
  | ackTwice {n : Nat} {rest a : Bytes} (hn : n < 2 ^ 64)
      (hoc : env.overflowChecks = true → 16 + n < 2 ^ 64)
      (hx : inc = wire n ([0, 2] ++ env.cr.sha256 (env.cr.xPublic st.random)) rest)
      (hk : s.peerSigPubkey = none) (ha : s.ackMsgRecvTooEarly = some a)
  /-- a user message that arrives before this layer has sent both its CONNECT and its ACK, or while only
  its own ACK is missing -/
  | early {k : SecretKey} {x rest : Bytes} {n num : Nat} (hn : n < 2 ^ 64) (hnum : num < 2 ^ 64)
      (hoc : env.overflowChecks = true → 16 + n < 2 ^ 64) (hk : s.secret = some k)
      (hm : inc.take 4 ≠ [0xE2, 0xC2, 0xE2, 0xD2]) (hinc : inc = aeadSeal env.cr k x)
      (hx : x = wire n ([0, 0] ++ be64 num) rest)
      (hs : ∃ loc rem, s.status = .ongoing loc rem ∧ (loc ≠ .connectMsgSent ∨ rem ≠ .ackMsgSent))
  /-- an intact user message out of order when 10000 messages out of order are remembered already -/
  | window {k : SecretKey} {x rest : Bytes} {n num : Nat} (hn : n < 2 ^ 64) (hnum : num < 2 ^ 64)
      (hoc : env.overflowChecks = true → 16 + n < 2 ^ 64) (hk : s.secret = some k)
      (hm : inc.take 4 ≠ [0xE2, 0xC2, 0xE2, 0xD2]) (hinc : inc = aeadSeal env.cr k x)
      (hx : x = wire n ([0, 0] ++ be64 num) rest) (hs : s.status = .success)
      (hfresh : s.nextNonceExpected < num ∧ num ∉ s.orphanNonces) (hcard : 10000 ≤ s.orphanNonces.card)
      (hl : endOf n ≤ x.length) (hv : x.drop (endOf n) = env.cr.sha256 (x.take (endOf n)))

end Pkstl.Spec

import Verif.Spec.Wire
import Verif.Spec.Session
import Verif.Spec.History
/- Which inputs make `read` panic, in terms of bytes. -/
namespace Pkstl.Spec

/-- A frame whose length field says `n`, whatever follows. -/
def wire (n : Nat) (hdr rest : Bytes) : Bytes :=
  [0xE2, 0xC2, 0xE2, 0xD2] ++ [0, 0, 0, 1] ++ be64 n ++ hdr ++ rest

/-- Where a message with length field `n` ends, as computed on `u64`. -/
def endOf (n : Nat) : Nat := (16 + n) % 2 ^ 64

/-- Clear bytes that end before the headers are complete (or, with overflow checks `oc`, whose length
field overflows).  Bytes with a wrong magic value, version, type or signature algorithm are not in this
set as long as the offending field is complete. -/
def Truncated (oc : Bool) (x : Bytes) : Prop :=
  x.length < 4 ∨
  x.take 4 = [0xE2, 0xC2, 0xE2, 0xD2] ∧ (x.length < 8 ∨
    (x.drop 4).take 4 = [0, 0, 0, 1] ∧ (x.length < 18 ∨
      (oc = true ∧ ∃ n < 2 ^ 64, (x.drop 8).take 8 = be64 n ∧ 2 ^ 64 ≤ 16 + n) ∨
      ((x.drop 16).take 2 = [0, 0] ∧ x.length < 26) ∨
      ((x.drop 16).take 2 = [0, 1] ∧ (x.length < 54 ∨ ((x.drop 50).take 4 = [0, 0, 0, 0] ∧ x.length < 86))) ∨
      ((x.drop 16).take 2 = [0, 2] ∧ x.length < 50)))

/-- The inputs that make `read` panic on a layer created as `st` and now in state `s`. -/
inductive PanicInput (env : Env) (st : Start) (s : Layer) (inc : Bytes) : Prop where
  /-- too short for a magic value -/
  | short (h : inc.length < 4)
  /-- not clear and too short for a tag -/
  | sealedShort {k : SecretKey} (hk : s.secret = some k) (hm : inc.take 4 ≠ [0xE2, 0xC2, 0xE2, 0xD2])
      (h : inc.length < 16)
  /-- clear with truncated headers -/
  | header (hm : inc.take 4 = [0xE2, 0xC2, 0xE2, 0xD2]) (h : Truncated env.overflowChecks inc)
  /-- authentic ciphertext of data with truncated headers -/
  | sealedHeader {k : SecretKey} {x : Bytes} (hk : s.secret = some k)
      (hm : inc.take 4 ≠ [0xE2, 0xC2, 0xE2, 0xD2]) (hx : inc = aeadSeal env.cr k x)
      (h : Truncated env.overflowChecks x)
  /-- CONNECT whose length field points behind the input, or (when it would be accepted) into the headers -/
  | connect {n : Nat} {epk k rest : Bytes} (hn : n < 2 ^ 64)
      (hoc : env.overflowChecks = true → 16 + n < 2 ^ 64) (h1 : epk.length = 32) (h2 : k.length = 32)
      (hx : inc = wire n ([0, 1] ++ epk ++ [0, 0, 0, 0] ++ k) rest)
      (hk : s.peerSigPubkey = none ∨ s.peerSigPubkey = some k)
      (h : inc.length < endOf n ∨
        (endOf n ≤ inc.length ∧ endOf n < 86 ∧
          env.cr.edVerify k (inc.take (endOf n)) (inc.drop (endOf n)) = true ∧
          (∃ loc, s.status = .ongoing loc .waitConnectMsg) ∧
          (sessionKey env.cr st.random (env.cr.xPublic st.random) epk).isSome))
  /-- ACK for this layer whose length field points behind the input, or (when it would be accepted) into
  the headers -/
  | ack {n : Nat} {k rest : Bytes} (hn : n < 2 ^ 64)
      (hoc : env.overflowChecks = true → 16 + n < 2 ^ 64)
      (hx : inc = wire n ([0, 2] ++ env.cr.sha256 (env.cr.xPublic st.random)) rest)
      (hk : s.peerSigPubkey = some k)
      (h : inc.length < endOf n ∨
        (endOf n ≤ inc.length ∧ endOf n < 50 ∧
          env.cr.edVerify k (inc.take (endOf n)) (inc.drop (endOf n)) = true ∧
          (∃ rem, s.status = .ongoing .connectMsgSent rem)))
  /-- authentic ciphertext of a fresh user message on a negotiated layer, whose length field points behind
  the data or (with a correct hash) into the headers, or whose number exhausts the numbers -/
  | user {k : SecretKey} {x rest : Bytes} {n num : Nat} (hn : n < 2 ^ 64) (hnum : num < 2 ^ 64)
      (hoc : env.overflowChecks = true → 16 + n < 2 ^ 64) (hk : s.secret = some k)
      (hm : inc.take 4 ≠ [0xE2, 0xC2, 0xE2, 0xD2]) (hinc : inc = aeadSeal env.cr k x)
      (hx : x = wire n ([0, 0] ++ be64 num) rest) (hs : s.status = .success)
      (hfresh : s.nextNonceExpected ≤ num ∧ num ∉ s.orphanNonces)
      (h : x.length < endOf n ∨
        (endOf n ≤ x.length ∧ x.drop (endOf n) = env.cr.sha256 (x.take (endOf n)) ∧
          ((env.overflowChecks = true ∧ num = s.nextNonceExpected ∧
              s.nextNonceExpected + s.orphanNonces.card + 1 = 2 ^ 64) ∨
           (endOf n < 26 ∧ (num = s.nextNonceExpected ∨ s.orphanNonces.card < 10000)))))

end Pkstl.Spec

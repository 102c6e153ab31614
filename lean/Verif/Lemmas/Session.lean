import Verif.Lemmas.Eval
import Verif.Lemmas.Refuse
import Verif.Lemmas.Frame
/- A whole negotiation on one side, for arbitrary peers. -/
namespace Pkstl
open Spec

section
variable {env : Env} {st : Start}

/-- The history of one side: CONNECT sent, CONNECT received, ACK sent. -/
def negoHist (env : Env) (st : Start) (pk : Bytes) (d : Option Bytes) (epk k p sig : Bytes) (d' : Option Bytes) :
    List Event :=
  [.connect pk d (.ok (connectFrame (env.cr.xPublic st.random) pk (d.getD []))),
   .read (connectFrame epk k p ++ sig) (.ok (some (.connect [0, 0, 0, 0] k (present p)))),
   .ack d' (.ok (ackFrame (env.cr.sha256 epk) (d'.getD [])))]

/-- Its state at the end, but for the configuration mark. -/
def negoLayer (env : Env) (st : Start) (epk k : Bytes) (key : SecretKey) (status : Status) : Layer where
  ackMsgRecvTooEarly := none
  cloned := false
  config := st.config
  secret := some key
  ephemeralPubkey := env.cr.xPublic st.random
  ephemeralKp := none
  orphanNonces := ∅
  peerEpk := some epk
  peerSigPubkey := some k
  nextNonceExpected := 0
  nextNonceSent := 0
  status := status
  tmpStack := []

/-- A fresh layer makes its CONNECT. -/
theorem nego_first (env : Env) (st : Start) (pk : Bytes) (d : Option Bytes) :
    ∃ s, Run env st [.connect pk d (.ok (connectFrame (env.cr.xPublic st.random) pk (d.getD [])))] s := by
  obtain ⟨s0, hr0, hs0⟩ : ∃ s0, Run env st [] s0 ∧ s0.status = .ongoing .created .waitConnectMsg := ⟨_, .init rfl, rfl⟩
  have r := hr0.call (.connect pk d)
  rcases createConnect_cases env s0 pk d with ⟨rem, hs, e⟩ | ⟨hs, -⟩
  · simp only [step] at r
    rw [e, (Wf.of_run hr0).epub] at r
    exact ⟨_, r⟩
  · exact absurd hs0 (hs _)

theorem nego_almost {pk : Bytes} (d : Option Bytes) {epk k p sig : Bytes} (d' : Option Bytes) {key : SecretKey}
    (hexp : st.expected = none ∨ st.expected = some k)
    (hepk : epk.length = 32) (hk : k.length = 32) (hlen : 86 + p.length < 2 ^ 64)
    (hsig : env.cr.edVerify k (connectFrame epk k p) sig = true)
    (hkey : sessionKey env.cr st.random (env.cr.xPublic st.random) epk = some key) :
    Run env st (negoHist env st pk d epk k p sig d')
      (negoLayer env st epk k key (.ongoing .connectMsgSent .ackMsgSent)) := by
  have r0 : Run env st [] { negoLayer env st epk k key (.ongoing .created .waitConnectMsg) with secret := none, ephemeralKp := some ⟨st.random, env.cr.xPublic st.random⟩, peerEpk := none, peerSigPubkey := st.expected } :=
    .init rfl
  have r1 := r0.call (.connect pk d)
  have e1 := createConnect_cases env { negoLayer env st epk k key (.ongoing .created .waitConnectMsg) with secret := none, ephemeralKp := some ⟨st.random, env.cr.xPublic st.random⟩, peerEpk := none, peerSigPubkey := st.expected } pk d
  rcases e1 with ⟨rem, hs, e1⟩ | ⟨hs, -⟩
  swap
  · exact absurd rfl (hs .waitConnectMsg)
  simp only [negoLayer, Status.ongoing.injEq, true_and] at hs
  subst hs
  simp only [step] at r1
  rw [e1] at r1
  have r2 := r1.call (.read (connectFrame epk k p ++ sig))
  simp only [step] at r2
  rw [read_connect_eval hepk hk hlen hsig hexp rfl rfl hkey] at r2
  have r2' : Run env st [.connect pk d (.ok (connectFrame (env.cr.xPublic st.random) pk (d.getD []))),
      .read (connectFrame epk k p ++ sig) (.ok (some (.connect [0, 0, 0, 0] k (present p))))]
      (negoLayer env st epk k key (.ongoing .connectMsgSent .validConnectMsgReceived)) := r2
  have r3 := r2'.call (.ack d')
  rcases createAck_cases env (negoLayer env st epk k key (.ongoing .connectMsgSent .validConnectMsgReceived)) d' with
    ⟨loc, hs, e3⟩ | ⟨hs, -⟩
  swap
  · exact absurd rfl (hs .connectMsgSent)
  simp only [negoLayer, Status.ongoing.injEq, and_true] at hs
  subst hs
  simp only [step] at r3
  rw [e3] at r3
  exact r3

/-- Both ACKs exchanged. -/
theorem nego_done {pk : Bytes} (law : env.cr.Lawful) (d : Option Bytes) {epk k p sig : Bytes} (d' : Option Bytes)
    {key : SecretKey} {q sig' : Bytes}
    (hexp : st.expected = none ∨ st.expected = some k)
    (hepk : epk.length = 32) (hk : k.length = 32) (hlen : 86 + p.length < 2 ^ 64) (hlen' : 50 + q.length < 2 ^ 64)
    (hsig : env.cr.edVerify k (connectFrame epk k p) sig = true)
    (hsig' : env.cr.edVerify k (ackFrame (env.cr.sha256 (env.cr.xPublic st.random)) q) sig' = true)
    (hkey : sessionKey env.cr st.random (env.cr.xPublic st.random) epk = some key) :
    Run env st (negoHist env st pk d epk k p sig d' ++
        [.read (ackFrame (env.cr.sha256 (env.cr.xPublic st.random)) q ++ sig') (.ok (some (.ack (present q))))])
      (negoLayer env st epk k key .success) := by
  have r := (nego_almost (pk := pk) d d' hexp hepk hk hlen hsig hkey).call
    (.read (ackFrame (env.cr.sha256 (env.cr.xPublic st.random)) q ++ sig'))
  simp only [step] at r
  have e := read_ack_eval (env := env) (b := negoLayer env st epk k key (.ongoing .connectMsgSent .ackMsgSent))
    (c := env.cr.sha256 (env.cr.xPublic st.random)) rfl (law.sha256_length _) hlen' hsig' rfl rfl
  rw [e] at r
  exact r

/-- An ACK with a foreign challenge is refused. -/
theorem read_ack_challenge_eval {b : Layer} {c p sig : Bytes} (hcl : c.length = 32) (hlen : 50 + p.length < u64Size)
    (hc : c ≠ env.cr.sha256 b.ephemeralPubkey) :
    b.read env (ackFrame c p ++ sig) = (b, invalidMsg .invalidChallenge) := by
  obtain ⟨d, hp, hd, hh, hend, hget⟩ := parse_frame (env := env) (enc := false) (chk := true)
    (h := .ack c) p sig hcl (by simp [MsgTypeHeaders.mustBeEncrypted])
    (by simp [hdrBytes, hcl, u64Size] at hlen ⊢; omega)
  rw [← ackFrame_eq] at hp hd hend
  have hrd : readerRead env b.secret (ackFrame c p ++ sig) true = .ok d := by
    rw [readerRead_clear (by exact frame_take4 _ _), hp]
  unfold Layer.read Layer.readInner
  rw [hrd]
  dsimp only
  rw [hh]
  dsimp only
  unfold Layer.readAck
  rw [if_pos hc]

end
end Pkstl

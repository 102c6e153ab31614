import Verif.Model.Serde
import Verif.Spec.History
/-
Histories of API calls on one `SecureLayer` (and along the lineage of its clones).  `M` is the disjoint union of the
application's message types; every serde call brings its own codec.
-/
namespace Pkstl.Spec

/-- One API call of the complete mode together with everything the caller observes. -/
inductive CEvent (M : Type) where
  /-- `read_bin` -/
  | readBin (incoming : Bytes) (r : Res (List BinMessage))
  /-- `read` -/
  | readSer (c : Codec M) (incoming : Bytes) (r : Res (List (SerMessage M)))
  /-- `write_connect_msg_bin`: custom data, writer before and after -/
  | connectBin (data : Option Bytes) (before after : BufW) (r : Res Unit)
  /-- `write_connect_msg` -/
  | connectSer (c : Codec M) (data : Option M) (before after : BufW) (r : Res Unit)
  /-- `write_ack_msg_bin` -/
  | ackBin (data : Option Bytes) (before after : BufW) (r : Res Unit)
  /-- `write_ack_msg` -/
  | ackSer (c : Codec M) (data : Option M) (before after : BufW) (r : Res Unit)
  /-- `write_bin` -/
  | writeBin (data : Bytes) (before after : BufW) (r : Res Unit)
  /-- `write` -/
  | writeSer (c : Codec M) (data : M) (before after : BufW) (r : Res Unit)
  /-- `try_clone`, seen from the original or from the clone -/
  | clone (r : Res Unit)
  /-- `change_config` -/
  | config (c : Config) (r : Res Unit)

/-- The calls. -/
inductive COp (M : Type) where
  | readBin (incoming : Bytes)
  | readSer (c : Codec M) (incoming : Bytes)
  | connectBin (data : Option Bytes) (w : BufW)
  | connectSer (c : Codec M) (data : Option M) (w : BufW)
  | ackBin (data : Option Bytes) (w : BufW)
  | ackSer (c : Codec M) (data : Option M) (w : BufW)
  | writeBin (data : Bytes) (w : BufW)
  | writeSer (c : Codec M) (data : M) (w : BufW)
  | clone
  | config (c : Config)

variable {M : Type}

/-- Perform a call. -/
def cstep (env : Env) (f : Features) (sl : SecureLayer) : COp M → SecureLayer × CEvent M
  | .readBin b => let r := sl.readBin env b; (r.1, .readBin b r.2)
  | .readSer c b => let r := sl.readSer env f c b; (r.1, .readSer c b r.2)
  | .connectBin d w => let r := sl.writeConnectBin env d w; (r.1, .connectBin d w r.2.1 r.2.2)
  | .connectSer c d w => let r := sl.writeConnectSer env c d w; (r.1, .connectSer c d w r.2.1 r.2.2)
  | .ackBin d w => let r := sl.writeAckBin env d w; (r.1, .ackBin d w r.2.1 r.2.2)
  | .ackSer c d w => let r := sl.writeAckSer env c d w; (r.1, .ackSer c d w r.2.1 r.2.2)
  | .writeBin d w => let r := sl.writeBin env d w; (r.1, .writeBin d w r.2.1 r.2.2)
  | .writeSer c m w => let r := sl.writeSer env c m w; (r.1, .writeSer c m w r.2.1 r.2.2)
  | .clone => let r := sl.tryClone; (r.1, .clone (unitRes r.2))
  | .config c => let r := sl.changeConfig c; (r.1, .config c r.2)

/-- How a layer was created. -/
structure CStart where
  config : Config
  /-- `expected_remote_sig_pubkey` -/
  expected : Option Bytes
  /-- the randomness drawn for the ephemeral key -/
  random : Bytes
  /-- `sig_key_pair_seed` -/
  seed : Option Bytes
  /-- the random seed that is drawn when none is given -/
  seedRandom : Bytes

/-- The seed of the layer's signature key pair. -/
def CStart.sigSeed (st : CStart) : Bytes := st.seed.getD st.seedRandom

/-- How the layer inside was created. -/
def CStart.inner (st : CStart) : Start := ⟨st.config, st.expected, st.random⟩

/-- `CRun env f st h sl`: a layer created as `st` is in state `sl` after the history `h`; a clone inherits the history
of the layer it was cloned from. -/
inductive CRun (env : Env) (f : Features) (st : CStart) : List (CEvent M) → SecureLayer → Prop where
  | init {sl : SecureLayer}
      (h : SecureLayer.create env.cr st.config st.seed st.expected (some st.seedRandom) (some st.random) = .ok sl) :
      CRun env f st [] sl
  | call {h : List (CEvent M)} {sl : SecureLayer} (hr : CRun env f st h sl) (op : COp M) :
      CRun env f st (h ++ [(cstep env f sl op).2]) (cstep env f sl op).1
  | cloned {h : List (CEvent M)} {sl c : SecureLayer} (hr : CRun env f st h sl) (hc : sl.tryClone.2 = .ok c) :
      CRun env f st (h ++ [.clone (.ok ())]) c

/-- Continuations: calls on the layer and passing over to a clone. -/
inductive CSteps (env : Env) (f : Features) : SecureLayer → List (CEvent M) → SecureLayer → Prop where
  | refl (s : SecureLayer) : CSteps env f s [] s
  | call {s s' : SecureLayer} {h : List (CEvent M)} (hr : CSteps env f s h s') (op : COp M) :
      CSteps env f s (h ++ [(cstep env f s' op).2]) (cstep env f s' op).1
  | cloned {s s' c : SecureLayer} {h : List (CEvent M)} (hr : CSteps env f s h s') (hc : s'.tryClone.2 = .ok c) :
      CSteps env f s (h ++ [.clone (.ok ())]) c

/-- A call that writes a CONNECT or ACK message, or tries to. -/
def CEvent.negotiates : CEvent M → Bool
  | .connectBin .. => true
  | .connectSer .. => true
  | .ackBin .. => true
  | .ackSer .. => true
  | _ => false

/-- `write_connect_msg*` got as far as handing bytes to the writer: it returned `Ok` or the writer failed. -/
def CEvent.consumesConnect : CEvent M → Bool
  | .connectBin _ _ _ r => r = .ok () ∨ r = .err .bufferFlushError
  | .connectSer _ _ _ _ r => r = .ok () ∨ r = .err .bufferFlushError
  | _ => false

/-- `write_ack_msg*` got as far as handing bytes to the writer: it returned `Ok` or the writer failed. -/
def CEvent.consumesAck : CEvent M → Bool
  | .ackBin _ _ _ r => r = .ok () ∨ r = .err .bufferFlushError
  | .ackSer _ _ _ _ r => r = .ok () ∨ r = .err .bufferFlushError
  | _ => false

/-- `write_bin` or `write` returned `Ok`. -/
def CEvent.writesUser : CEvent M → Bool
  | .writeBin _ _ _ r => r = .ok ()
  | .writeSer _ _ _ _ r => r = .ok ()
  | _ => false

/-- The byte string presented to `read_bin` or `read`. -/
def CEvent.input : CEvent M → List Bytes
  | .readBin b _ => [b]
  | .readSer _ b _ => [b]
  | _ => []

/-- All byte strings presented to `read_bin` or `read`. -/
def cinputs (h : List (CEvent M)) : List Bytes := h.flatMap CEvent.input

/-- Not a call of `read_bin` or `read` that failed or panicked. -/
def CEvent.readOk : CEvent M → Bool
  | .readBin _ r => r.isOk
  | .readSer _ _ r => r.isOk
  | _ => true

/-- The writer before and after the call. -/
def CEvent.writers : CEvent M → Option (BufW × BufW)
  | .connectBin _ w w' _ => some (w, w')
  | .connectSer _ _ w w' _ => some (w, w')
  | .ackBin _ w w' _ => some (w, w')
  | .ackSer _ _ w w' _ => some (w, w')
  | .writeBin _ w w' _ => some (w, w')
  | .writeSer _ _ w w' _ => some (w, w')
  | _ => none

end Pkstl.Spec

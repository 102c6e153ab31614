import Verif.Spec.Format
import Verif.Spec.Net
/-
The system of `Spec/Net.lean` with the serde API: two honest applications that exchange values of a type `M`.  Party `p`
runs a build with the features `f p`; both use the same external codecs.
-/
namespace Pkstl.Spec

variable {M : Type}

/-- What an application wrote: custom data of a CONNECT or ACK, or the `n`-th user message. -/
inductive SSent (M : Type) where
  | connect (d : Option M)
  | ack (d : Option M)
  | user (n : Nat) (m : M)
  deriving DecidableEq

def SSent.connect? : SSent M → Option (Option M)
  | .connect d => some d
  | _ => none

def SSent.ack? : SSent M → Option (Option M)
  | .ack d => some d
  | _ => none

def SSent.user? : SSent M → Option (Nat × M)
  | .user n m => some (n, m)
  | _ => none

/-- A message under way. -/
structure SFlight (M : Type) where
  what : SSent M
  bytes : Bytes

/-- The whole system. -/
structure SNet (M : Type) where
  layer : Bool → SecureLayer
  /-- messages under way to `p` -/
  wire : Bool → List (SFlight M)
  /-- what `p` wrote with result `Ok`, in order -/
  wrote : Bool → List (SSent M)
  /-- what was presented to `read` of `p`, in order, with the results -/
  log : Bool → List (SFlight M × Res (List (SerMessage M)))

namespace SNet

/-- The CONNECT messages, ACK messages and user messages that `p` wrote. -/
def connects (n : SNet M) (p : Bool) : List (Option M) := (n.wrote p).filterMap SSent.connect?
def acks (n : SNet M) (p : Bool) : List (Option M) := (n.wrote p).filterMap SSent.ack?
def users (n : SNet M) (p : Bool) : List (Nat × M) := (n.wrote p).filterMap SSent.user?

/-- The user messages that have arrived at `p`. -/
def usersArrived (n : SNet M) (p : Bool) : List (Nat × M) := ((n.log p).map fun e => e.1.what).filterMap SSent.user?

/-- What `read` of `p` has handed to the application. -/
def delivered (n : SNet M) (p : Bool) : List (SerMessage M) :=
  (n.log p).flatMap fun e => match e.2 with
    | .ok l => l
    | _ => []

/-- The CONNECT messages among them, with the signature key of the peer. -/
def gotConnects (n : SNet M) (p : Bool) : List (Option M × Bytes) :=
  (n.delivered p).filterMap fun m => match m with
    | .connect d k => some (d, k)
    | _ => none

/-- The ACK messages among them. -/
def gotAcks (n : SNet M) (p : Bool) : List (Option M) :=
  (n.delivered p).filterMap fun m => match m with
    | .ack d => some d
    | _ => none

/-- The user messages among them. -/
def gotUsers (n : SNet M) (p : Bool) : List (Option M) :=
  (n.delivered p).filterMap fun m => match m with
    | .message d => some d
    | _ => none

/-- The outcome of a writing call: the bytes it added to the writer's stream go to the peer. -/
def sent (n : SNet M) (p : Bool) (x : SSent M) (w : BufW) (o : SecureLayer × BufW × Res Unit) : SNet M where
  layer := Function.update n.layer p o.1
  wire := Function.update n.wire (!p) (n.wire (!p) ++
    if o.2.1.stream.drop w.stream.length = [] then [] else [⟨x, o.2.1.stream.drop w.stream.length⟩])
  wrote := Function.update n.wrote p (n.wrote p ++ if o.2.2 = .ok () then [x] else [])
  log := n.log

/-- `x` arrives at `p`; `rest` stays under way. -/
def received (n : SNet M) (env : Env) (f : Bool → Features) (c : Codec M) (p : Bool) (x : SFlight M)
    (rest : List (SFlight M)) : SNet M where
  layer := Function.update n.layer p ((n.layer p).readSer env (f p) c x.bytes).1
  wire := Function.update n.wire p rest
  wrote := n.wrote
  log := Function.update n.log p (n.log p ++ [(x, ((n.layer p).readSer env (f p) c x.bytes).2)])

/-- `p` may write user messages: it wrote its ACK and was handed the peer's. -/
def ready (n : SNet M) (p : Bool) : Prop := n.acks p ≠ [] ∧ n.gotAcks p ≠ []

/-- The peer's build knows the format in which `p` is configured to write values. -/
def Understood (n : SNet M) (f : Bool → Features) (p : Bool) : Prop :=
  Knows? (f (!p)) (n.layer p).minimal.config.messageFormat

/-- One call by one of the applications.  Calls of `write_connect_msg`, `write_ack_msg` and `change_config` may be attempted
at any time; user messages are written only when `ready`.  A value is written only in a format that the peer's build knows;
the configuration, and with it the format, may change from message to message. -/
inductive Step (env : Env) (f : Bool → Features) (c : Codec M) (n : SNet M) : SNet M → Prop where
  | connect (p : Bool) (d : Option M) (w : BufW) (hf : Fits w ((n.layer p).writeConnectSer env c d w))
      (hk : d = none ∨ n.Understood f p) :
      Step env f c n (n.sent p (.connect d) w ((n.layer p).writeConnectSer env c d w))
  | ack (p : Bool) (d : Option M) (w : BufW) (hf : Fits w ((n.layer p).writeAckSer env c d w))
      (hk : d = none ∨ n.Understood f p) :
      Step env f c n (n.sent p (.ack d) w ((n.layer p).writeAckSer env c d w))
  | user (p : Bool) (m : M) (w : BufW) (hf : Fits w ((n.layer p).writeSer env c m w)) (hcap : 16 < w.cap)
      (hn : (n.users p).length + 1 < 2 ^ 64) (hr : n.ready p) (hk : n.Understood f p) :
      Step env f c n (n.sent p (.user (n.users p).length m) w ((n.layer p).writeSer env c m w))
  | config (p : Bool) (x : Config) :
      Step env f c n { n with layer := Function.update n.layer p ((n.layer p).changeConfig x).1 }
  | deliver (p : Bool) (x : SFlight M) (l1 l2 : List (SFlight M)) (hx : n.wire p = l1 ++ x :: l2) :
      Step env f c n (n.received env f c p x (l1 ++ l2))

/-- Two fresh layers and nothing else. -/
structure Init (env : Env) (st : Bool → CStart) (n : SNet M) : Prop where
  layer : ∀ p, SecureLayer.create env.cr (st p).config (st p).seed (st p).expected (some (st p).seedRandom)
    (some (st p).random) = .ok (n.layer p)
  wire : ∀ p, n.wire p = []
  wrote : ∀ p, n.wrote p = []
  log : ∀ p, n.log p = []

/-- The reachable states of the system. -/
inductive Run (env : Env) (f : Bool → Features) (c : Codec M) (st : Bool → CStart) : SNet M → Prop where
  | init {n : SNet M} (h : n.Init env st) : Run env f c st n
  | step {n n' : SNet M} (hr : Run env f c st n) (h : n.Step env f c n') : Run env f c st n'

/-- Continuations. -/
inductive Steps (env : Env) (f : Bool → Features) (c : Codec M) (n : SNet M) : SNet M → Prop where
  | refl : Steps env f c n n
  | step {n' n'' : SNet M} (hr : Steps env f c n n') (h : n'.Step env f c n'') : Steps env f c n n''

/-- At no time more than 10000 later user messages have arrived before a given one. -/
def Fair (n : SNet M) : Prop := ∀ p m, (overtakers ((n.usersArrived p).map Prod.fst) m).length ≤ 10000

end SNet
end Pkstl.Spec

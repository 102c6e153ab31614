import Mathlib.Logic.Function.Basic
import Verif.Spec.Complete
import Verif.Spec.Window
/-
Two honest applications, each with one `SecureLayer`, over a network that delays and reorders messages arbitrarily but
neither loses, duplicates nor forges them.  Party `true` and party `false`; `!p` is the peer of `p`.
-/
namespace Pkstl.Spec

/-- What an application wrote: custom data of a CONNECT or ACK, or the `n`-th user message. -/
inductive Sent where
  | connect (d : Option Bytes)
  | ack (d : Option Bytes)
  | user (n : Nat) (d : Bytes)
  deriving DecidableEq

def Sent.connect? : Sent → Option (Option Bytes)
  | .connect d => some d
  | _ => none

def Sent.ack? : Sent → Option (Option Bytes)
  | .ack d => some d
  | _ => none

def Sent.user? : Sent → Option (Nat × Bytes)
  | .user n d => some (n, d)
  | _ => none

/-- The CONNECT messages in a list. -/
def connectsOf (l : List Sent) : List (Option Bytes) := l.filterMap Sent.connect?

/-- The ACK messages in a list. -/
def acksOf (l : List Sent) : List (Option Bytes) := l.filterMap Sent.ack?

/-- The user messages in a list, with their numbers. -/
def usersOf (l : List Sent) : List (Nat × Bytes) := l.filterMap Sent.user?

/-- A message under way. -/
structure Flight where
  what : Sent
  bytes : Bytes

/-- The whole system. -/
structure Net where
  layer : Bool → SecureLayer
  /-- messages under way to `p` -/
  wire : Bool → List Flight
  /-- what `p` wrote with result `Ok`, in order -/
  wrote : Bool → List Sent
  /-- what was presented to `read_bin` of `p`, in order, with the results -/
  log : Bool → List (Flight × Res (List BinMessage))

/-- What has arrived at `p`. -/
def Net.arrived (n : Net) (p : Bool) : List Sent := (n.log p).map fun e => e.1.what

/-- What a call of `read_bin` handed to the application. -/
def handed : Res (List BinMessage) → List BinMessage
  | .ok l => l
  | _ => []

/-- What `read_bin` of `p` has handed to the application. -/
def Net.delivered (n : Net) (p : Bool) : List BinMessage := (n.log p).flatMap fun e => handed e.2

/-- The CONNECT messages among them: custom data and signature key of the peer. -/
def connectsIn (l : List BinMessage) : List (Option Bytes × Bytes) :=
  l.filterMap fun m => match m with
    | .connect d k => some (d, k)
    | _ => none

/-- The custom data of the ACK messages among them. -/
def acksIn (l : List BinMessage) : List (Option Bytes) :=
  l.filterMap fun m => match m with
    | .ack d => some d
    | _ => none

/-- The user messages among them. -/
def usersIn (l : List BinMessage) : List (Option Bytes) :=
  l.filterMap fun m => match m with
    | .message d => some d
    | _ => none

/-- The outcome of a writing call: the bytes it added to the writer's stream go to the peer. -/
def Net.sent (n : Net) (p : Bool) (x : Sent) (w : BufW) (o : SecureLayer × BufW × Res Unit) : Net where
  layer := Function.update n.layer p o.1
  wire := Function.update n.wire (!p) (n.wire (!p) ++
    if o.2.1.stream.drop w.stream.length = [] then [] else [⟨x, o.2.1.stream.drop w.stream.length⟩])
  wrote := Function.update n.wrote p (n.wrote p ++ if o.2.2 = .ok () then [x] else [])
  log := n.log

/-- `x` arrives at `p`; `rest` stays under way. -/
def Net.received (n : Net) (env : Env) (p : Bool) (x : Flight) (rest : List Flight) : Net where
  layer := Function.update n.layer p ((n.layer p).readBin env x.bytes).1
  wire := Function.update n.wire p rest
  wrote := n.wrote
  log := Function.update n.log p (n.log p ++ [(x, ((n.layer p).readBin env x.bytes).2)])

/-- A writer that takes everything, and a message shorter than 2^64 bytes. -/
def Fits (w : BufW) (o : SecureLayer × BufW × Res Unit) : Prop :=
  w.sink.script = [] ∧ (o.2.1.stream.drop w.stream.length).length < 2 ^ 64

/-- `p` may write user messages: it wrote its ACK and was handed the peer's. -/
def Net.ready (n : Net) (p : Bool) : Prop :=
  acksOf (n.wrote p) ≠ [] ∧ acksIn (n.delivered p) ≠ []

/-- One call by one of the applications.  Calls of `write_connect_msg_bin`, `write_ack_msg_bin` and `change_config` may be
attempted at any time; user messages are written only when `ready`, with a buffer of more than 16 bytes and fewer than
2^64 - 1 of them. -/
inductive Net.Step (env : Env) (n : Net) : Net → Prop where
  | connect (p : Bool) (d : Option Bytes) (w : BufW) (hf : Fits w ((n.layer p).writeConnectBin env d w)) :
      Step env n (n.sent p (.connect d) w ((n.layer p).writeConnectBin env d w))
  | ack (p : Bool) (d : Option Bytes) (w : BufW) (hf : Fits w ((n.layer p).writeAckBin env d w)) :
      Step env n (n.sent p (.ack d) w ((n.layer p).writeAckBin env d w))
  | user (p : Bool) (d : Bytes) (w : BufW) (hf : Fits w ((n.layer p).writeBin env d w)) (hcap : 16 < w.cap)
      (hn : (usersOf (n.wrote p)).length + 1 < 2 ^ 64) (hr : n.ready p) :
      Step env n (n.sent p (.user (usersOf (n.wrote p)).length d) w ((n.layer p).writeBin env d w))
  | config (p : Bool) (c : Config) :
      Step env n { n with layer := Function.update n.layer p ((n.layer p).changeConfig c).1 }
  | deliver (p : Bool) (x : Flight) (l1 l2 : List Flight) (hx : n.wire p = l1 ++ x :: l2) :
      Step env n (n.received env p x (l1 ++ l2))

/-- Two fresh layers and nothing else. -/
structure Net.Init (env : Env) (st : Bool → CStart) (n : Net) : Prop where
  layer : ∀ p, SecureLayer.create env.cr (st p).config (st p).seed (st p).expected (some (st p).seedRandom)
    (some (st p).random) = .ok (n.layer p)
  wire : ∀ p, n.wire p = []
  wrote : ∀ p, n.wrote p = []
  log : ∀ p, n.log p = []

/-- The reachable states of the system. -/
inductive Net.Run (env : Env) (st : Bool → CStart) : Net → Prop where
  | init {n : Net} (h : n.Init env st) : Run env st n
  | step {n n' : Net} (hr : Run env st n) (h : n.Step env n') : Run env st n'

/-- Continuations. -/
inductive Net.Steps (env : Env) (n : Net) : Net → Prop where
  | refl : Steps env n n
  | step {n' n'' : Net} (hr : Steps env n n') (h : n'.Step env n'') : Steps env n n''

/-- The public signature key of `p`. -/
def sigKey (env : Env) (st : Bool → CStart) (p : Bool) : Bytes := env.cr.edPublic (st p).sigSeed

/-- Both parties may or may not expect each other's signature key, the key agreement works, and the first four bytes of
the keystream are not all zero (see C03). -/
structure Honest (env : Env) (st : Bool → CStart) : Prop where
  expected : ∀ p, (st p).expected = none ∨ (st p).expected = some (sigKey env st (!p))
  agree : (env.cr.xAgree (st true).random (env.cr.xPublic (st false).random)).isSome = true
  keystream : ∀ k, sessionKey env.cr (st true).random (env.cr.xPublic (st true).random)
    (env.cr.xPublic (st false).random) = some k → ¬ ∀ i < 4, env.cr.keystream k.key k.nonce i = 0

/-- At no time more than 10000 later user messages have arrived before a given one. -/
def Net.Fair (n : Net) : Prop :=
  ∀ p m, (overtakers ((usersOf (n.arrived p)).map Prod.fst) m).length ≤ 10000

end Pkstl.Spec

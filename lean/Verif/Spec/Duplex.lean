import Verif.Spec.Net
/-
The system of `Spec/Net.lean` for applications that read and write at the same time: once negotiated, an application may
clone its layer (`try_clone`) and use one of the two for writing and the other one for reading, each in a thread of its
own.  Calls of the two threads interleave arbitrarily.
-/
namespace Pkstl.Spec

/-- The layers of one party: a single one, or one that writes and one that reads. -/
inductive Ends where
  | one (s : SecureLayer)
  | two (writing reading : SecureLayer)

/-- The layer used for writing (`true`) or for reading (`false`). -/
def Ends.at : Ends → Bool → SecureLayer
  | .one s, _ => s
  | .two w _, true => w
  | .two _ r, false => r

/-- The state of one of the layers changes. -/
def Ends.put : Ends → Bool → SecureLayer → Ends
  | .one _, _, s => .one s
  | .two _ r, true, s => .two s r
  | .two w _, false, s => .two w s

/-- The whole system; see `Net`. -/
structure Duplex where
  ends : Bool → Ends
  wire : Bool → List Flight
  wrote : Bool → List Sent
  log : Bool → List (Flight × Res (List BinMessage))

namespace Duplex

/-- The same system with the reading layers of divided parties left out: for the notions of `Spec/Net.lean` that do not
depend on the layers. -/
def flat (n : Duplex) : Net := ⟨fun p => (n.ends p).at true, n.wire, n.wrote, n.log⟩

/-- `p` has divided its layer. -/
def divided (n : Duplex) (p : Bool) : Prop := ∃ w r, n.ends p = .two w r

def arrived (n : Duplex) (p : Bool) : List Sent := n.flat.arrived p
def delivered (n : Duplex) (p : Bool) : List BinMessage := n.flat.delivered p
def ready (n : Duplex) (p : Bool) : Prop := n.flat.ready p
def Fair (n : Duplex) : Prop := n.flat.Fair

/-- The outcome of a writing call on the layer `e` of `p`. -/
def sent (n : Duplex) (p e : Bool) (x : Sent) (w : BufW) (o : SecureLayer × BufW × Res Unit) : Duplex where
  ends := Function.update n.ends p ((n.ends p).put e o.1)
  wire := Function.update n.wire (!p) (n.wire (!p) ++
    if o.2.1.stream.drop w.stream.length = [] then [] else [⟨x, o.2.1.stream.drop w.stream.length⟩])
  wrote := Function.update n.wrote p (n.wrote p ++ if o.2.2 = .ok () then [x] else [])
  log := n.log

/-- `x` arrives at the reading layer of `p`; `rest` stays under way. -/
def received (n : Duplex) (env : Env) (p : Bool) (x : Flight) (rest : List Flight) : Duplex where
  ends := Function.update n.ends p ((n.ends p).put false (((n.ends p).at false).readBin env x.bytes).1)
  wire := Function.update n.wire p rest
  wrote := n.wrote
  log := Function.update n.log p (n.log p ++ [(x, (((n.ends p).at false).readBin env x.bytes).2)])

/-- The single layer `s` is to be divided; the clone reads, or writes if `swap`.  Nothing happens if `try_clone` fails. -/
def divide (swap : Bool) (s : SecureLayer) : Ends :=
  match s.tryClone with
  | (s', .ok c) => if swap then .two c s' else .two s' c
  | (s', _) => .one s'

/-- One call by one of the applications.  Besides the calls of `Net.Step`: `try_clone` may be attempted at any time, and
CONNECT, ACK and change of configuration may be attempted on either layer.  A layer of a divided party may be cloned
again; either the clone is dropped or it takes the place of the layer. -/
inductive Step (env : Env) (n : Duplex) : Duplex → Prop where
  | connect (p e : Bool) (d : Option Bytes) (w : BufW) (hf : Fits w (((n.ends p).at e).writeConnectBin env d w)) :
      Step env n (n.sent p e (.connect d) w (((n.ends p).at e).writeConnectBin env d w))
  | ack (p e : Bool) (d : Option Bytes) (w : BufW) (hf : Fits w (((n.ends p).at e).writeAckBin env d w)) :
      Step env n (n.sent p e (.ack d) w (((n.ends p).at e).writeAckBin env d w))
  | user (p : Bool) (d : Bytes) (w : BufW) (hf : Fits w (((n.ends p).at true).writeBin env d w)) (hcap : 16 < w.cap)
      (hn : (usersOf (n.wrote p)).length + 1 < 2 ^ 64) (hr : n.ready p) :
      Step env n (n.sent p true (.user (usersOf (n.wrote p)).length d) w (((n.ends p).at true).writeBin env d w))
  | config (p e : Bool) (c : Config) :
      Step env n { n with
        ends := Function.update n.ends p ((n.ends p).put e (((n.ends p).at e).changeConfig c).1) }
  | deliver (p : Bool) (x : Flight) (l1 l2 : List Flight) (hx : n.wire p = l1 ++ x :: l2) :
      Step env n (n.received env p x (l1 ++ l2))
  | divide (p swap : Bool) (s : SecureLayer) (hs : n.ends p = .one s) :
      Step env n { n with ends := Function.update n.ends p (Duplex.divide swap s) }
  | spare (p e : Bool) (hd : n.divided p) :
      Step env n { n with ends := Function.update n.ends p ((n.ends p).put e ((n.ends p).at e).tryClone.1) }
  | renew (p e : Bool) (hd : n.divided p) (c : SecureLayer) (hc : ((n.ends p).at e).tryClone.2 = .ok c) :
      Step env n { n with ends := Function.update n.ends p ((n.ends p).put e c) }

/-- The reachable states of the system. -/
inductive Run (env : Env) (st : Bool → CStart) : Duplex → Prop where
  | init {n : Duplex} (h : n.flat.Init env st) (h1 : ∀ p, ¬ n.divided p) : Run env st n
  | step {n n' : Duplex} (hr : Run env st n) (h : n.Step env n') : Run env st n'

end Duplex
end Pkstl.Spec

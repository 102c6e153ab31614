import Verif.Model.Minimal
/-
Histories of API calls on one `MinimalSecureLayer` (and along the lineage of its clones).
Arguments and incoming bytes are arbitrary; a call that panics may be caught and the layer used again.
-/
namespace Pkstl.Spec

/-- One API call together with everything the caller observes. -/
inductive Event where
  /-- `read` -/
  | read (incoming : Bytes) (r : Res (Option Message))
  /-- `take_ack_msg_recv_too_early` -/
  | takeAck (r : Res (Option Message))
  /-- `drain_tmp_stack_user_msgs` -/
  | drain (r : Res (List Message))
  /-- `create_connect_message` -/
  | connect (pubkey : Bytes) (data : Option Bytes) (r : Res Bytes)
  /-- `create_ack_message` -/
  | ack (data : Option Bytes) (r : Res Bytes)
  /-- `write_message`: payload, writer before and after -/
  | write (data : Bytes) (before after : BufW) (r : Res Unit)
  /-- `try_clone`, seen from the original or from the clone -/
  | clone (r : Res Unit)
  /-- `change_config` -/
  | config (c : Config) (r : Res Unit)
  deriving DecidableEq

/-- The calls. -/
inductive Op where
  | read (incoming : Bytes)
  | takeAck
  | drain
  | connect (pubkey : Bytes) (data : Option Bytes)
  | ack (data : Option Bytes)
  | write (data : Bytes) (w : BufW)
  | clone
  | config (c : Config)

/-- Forget the value of a result. -/
def unitRes {α : Type} : Res α → Res Unit
  | .ok _ => .ok ()
  | .err e => .err e
  | .panic p => .panic p

/-- Perform a call. -/
def step (env : Env) (s : Layer) : Op → Layer × Event
  | .read b => let r := s.read env b; (r.1, .read b r.2)
  | .takeAck => let r := s.takeAck env; (r.1, .takeAck r.2)
  | .drain => let r := s.drainTmpStack env; (r.1, .drain r.2)
  | .connect pk d => let r := s.createConnect env pk d; (r.1, .connect pk d r.2)
  | .ack d => let r := s.createAck env d; (r.1, .ack d r.2)
  | .write d w => let r := s.writeMessage env d w; (r.1, .write d w r.2.1 r.2.2)
  | .clone => let r := s.tryClone; (r.1, .clone (unitRes r.2))
  | .config c => let r := s.changeConfig c; (r.1, .config c r.2)

/-- How a layer was created. -/
structure Start where
  config : Config
  /-- `expected_remote_sig_public_key` -/
  expected : Option Bytes
  /-- the randomness drawn for the ephemeral key -/
  random : Bytes

/-- `Run env st h s`: a layer created as `st` is in state `s` after the history `h`; a clone inherits the
history of the layer it was cloned from. -/
inductive Run (env : Env) (st : Start) : List Event → Layer → Prop where
  | init {s : Layer} (h : Layer.create env.cr st.config st.expected (some st.random) = .ok s) :
      Run env st [] s
  | call {h : List Event} {s : Layer} (hr : Run env st h s) (op : Op) :
      Run env st (h ++ [(step env s op).2]) (step env s op).1
  | cloned {h : List Event} {s c : Layer} (hr : Run env st h s) (hc : s.tryClone.2 = .ok c) :
      Run env st (h ++ [.clone (.ok ())]) c

/-- The messages a call hands to the application. -/
def Event.delivers : Event → List Message
  | .read _ (.ok (some m)) => [m]
  | .takeAck (.ok (some m)) => [m]
  | .drain (.ok ms) => ms
  | _ => []

/-- All messages handed to the application, in order. -/
def deliveries (h : List Event) : List Message := h.flatMap Event.delivers

/-- The byte strings presented to `read`. -/
def inputs (h : List Event) : List Bytes :=
  h.filterMap fun e => match e with
    | .read b _ => some b
    | _ => none

/-- User payloads among messages. -/
def userPayloads (ms : List Message) : List (Option Bytes) :=
  ms.filterMap fun m => match m with
    | .message d => some d
    | _ => none

/-- The call panicked. -/
def Event.panicked : Event → Prop
  | .read _ (.panic _) => True
  | .takeAck (.panic _) => True
  | .drain (.panic _) => True
  | .connect _ _ (.panic _) => True
  | .ack _ (.panic _) => True
  | .write _ _ _ (.panic _) => True
  | .clone (.panic _) => True
  | .config _ (.panic _) => True
  | _ => False

/-- The call panicked for this reason. -/
def Event.panickedWith (p : Panic) : Event → Prop
  | .read _ r => r = .panic p
  | .takeAck r => r = .panic p
  | .drain r => r = .panic p
  | .connect _ _ r => r = .panic p
  | .ack _ r => r = .panic p
  | .write _ _ _ r => r = .panic p
  | .clone r => r = .panic p
  | .config _ r => r = .panic p

/-- The call returned this error. -/
def Event.failedWith (e : Error) : Event → Prop
  | .read _ r => r = .err e
  | .takeAck r => r = .err e
  | .drain r => r = .err e
  | .connect _ _ r => r = .err e
  | .ack _ r => r = .err e
  | .write _ _ _ r => r = .err e
  | .clone r => r = .err e
  | .config _ r => r = .err e

/-- At most one element satisfies `P`. -/
def AtMostOne {α : Type} (P : α → Prop) (l : List α) : Prop :=
  l.Pairwise fun a b => ¬(P a ∧ P b)

/-- `inc` is a clear message of type CONNECT that announces the ephemeral key `epk` and the signature key
`k` and ends with a signature by `k` over everything before the signature. -/
def SignedConnect (cr : Crypto) (inc epk k : Bytes) : Prop :=
  inc.take 4 = [0xE2, 0xC2, 0xE2, 0xD2] ∧ (inc.drop 16).take 2 = [0, 1] ∧
  (inc.drop 18).take 32 = epk ∧ (inc.drop 54).take 32 = k ∧
  ∃ body sig, inc = body ++ sig ∧ cr.edVerify k body sig = true

/-- `inc` is a clear message of type ACK that carries the challenge `c` and ends with a signature by `k`
over everything before the signature. -/
def SignedAck (cr : Crypto) (inc c k : Bytes) : Prop :=
  inc.take 4 = [0xE2, 0xC2, 0xE2, 0xD2] ∧ (inc.drop 16).take 2 = [0, 2] ∧
  (inc.drop 18).take 32 = c ∧
  ∃ body sig, inc = body ++ sig ∧ cr.edVerify k body sig = true

/-- A CONNECT message handed to the application. -/
def isConnect : Message → Bool
  | .connect .. => true
  | _ => false

/-- An ACK message handed to the application. -/
def isAck : Message → Bool
  | .ack .. => true
  | _ => false

/-- A user message handed to the application. -/
def isUser : Message → Bool
  | .message .. => true
  | _ => false

/-- `create_connect_message` returned a message. -/
def Event.createsConnect : Event → Bool
  | .connect _ _ (.ok _) => true
  | _ => false

/-- `create_ack_message` returned a message. -/
def Event.createsAck : Event → Bool
  | .ack _ (.ok _) => true
  | _ => false

/-- `write_message` returned `Ok`. -/
def Event.writes : Event → Bool
  | .write _ _ _ (.ok _) => true
  | _ => false

/-- `read` was given a correctly signed CONNECT and delivered it, or reported that no key agreement is
possible with the announced ephemeral key, or panicked because the length field is too small. -/
def Event.acceptsConnect (cr : Crypto) : Event → Prop
  | .read inc r => (∃ epk k, SignedConnect cr inc epk k) ∧
      ((∃ a k d, r = .ok (some (.connect a k d))) ∨ r = .err .failToComputeAgreement ∨
        r = .panic .drainRange)
  | _ => False

/-- A correctly signed ACK was delivered, by `read` or by `take_ack_msg_recv_too_early`, or the call
panicked because the length field is too small. -/
def Event.acceptsAck (cr : Crypto) : Event → Prop
  | .read inc r => (∃ c k, SignedAck cr inc c k) ∧
      ((∃ d, r = .ok (some (.ack d))) ∨ r = .panic .drainRange)
  | .takeAck r => (∃ d, r = .ok (some (.ack d))) ∨ r = .panic .drainRange
  | _ => False

/-- Continuations: calls on the layer and passing over to a clone. -/
inductive Steps (env : Env) : Layer → List Event → Layer → Prop where
  | refl (s : Layer) : Steps env s [] s
  | call {s s' : Layer} {h : List Event} (hr : Steps env s h s') (op : Op) :
      Steps env s (h ++ [(step env s' op).2]) (step env s' op).1
  | cloned {s s' c : Layer} {h : List Event} (hr : Steps env s h s') (hc : s'.tryClone.2 = .ok c) :
      Steps env s (h ++ [.clone (.ok ())]) c

theorem Run.steps {env : Env} {st : Start} {h h' : List Event} {s s' : Layer} (hr : Run env st h s)
    (hs : Steps env s h' s') : Run env st (h ++ h') s' := by
  induction hs with
  | refl => simpa using hr
  | call _ op ih => rw [← List.append_assoc]; exact .call ih op
  | cloned _ hc ih => rw [← List.append_assoc]; exact .cloned ih hc

/-- Every history starts with `create`. -/
theorem Run.start {env : Env} {st : Start} {h : List Event} {s : Layer} (hr : Run env st h s) :
    ∃ s0, Run env st [] s0 ∧ Steps env s0 h s := by
  induction hr with
  | init h => exact ⟨_, .init h, .refl _⟩
  | call _ op ih => obtain ⟨s0, h1, h2⟩ := ih; exact ⟨s0, h1, .call h2 op⟩
  | cloned _ hc ih => obtain ⟨s0, h1, h2⟩ := ih; exact ⟨s0, h1, .cloned h2 hc⟩

/-- Every prefix of a history is a history. -/
theorem Run.prefix {env : Env} {st : Start} {h : List Event} {s : Layer} (hr : Run env st h s) :
    ∀ h1 h2, h = h1 ++ h2 → ∃ s1, Run env st h1 s1 ∧ Steps env s1 h2 s := by
  induction hr with
  | init h =>
    intro h1 h2 he
    have := List.append_eq_nil_iff.mp he.symm
    obtain ⟨rfl, rfl⟩ := this
    exact ⟨_, .init h, .refl _⟩
  | @call h s hr op ih =>
    intro h1 h2 he
    rcases List.eq_nil_or_concat h2 with rfl | ⟨l, e, rfl⟩
    · rw [List.append_nil] at he
      subst he
      exact ⟨_, .call hr op, .refl _⟩
    · rw [List.concat_eq_append, ← List.append_assoc] at he
      obtain ⟨he1, he2⟩ := List.append_inj' he rfl
      obtain ⟨s1, hr1, hs1⟩ := ih h1 l he1
      refine ⟨s1, hr1, ?_⟩
      rw [List.concat_eq_append, ← he2]
      exact .call hs1 op
  | @cloned h s c hr hc ih =>
    intro h1 h2 he
    rcases List.eq_nil_or_concat h2 with rfl | ⟨l, e, rfl⟩
    · rw [List.append_nil] at he
      subst he
      exact ⟨_, .cloned hr hc, .refl _⟩
    · rw [List.concat_eq_append, ← List.append_assoc] at he
      obtain ⟨he1, he2⟩ := List.append_inj' he rfl
      obtain ⟨s1, hr1, hs1⟩ := ih h1 l he1
      refine ⟨s1, hr1, ?_⟩
      rw [List.concat_eq_append, ← he2]
      exact .cloned hs1 hc

end Pkstl.Spec

import Verif.Spec.Errors
import Verif.Spec.CHistory
/- How far the negotiation has come and whether the session has ended, as far as an application can tell from the answers
it got.  Nothing here refers to the state of a layer. -/
namespace Pkstl.Spec

/-- The four steps of the negotiation. -/
structure Progress where
  /-- the own CONNECT was written -/
  sent : Bool
  /-- the peer's CONNECT was handed over -/
  heard : Bool
  /-- the own ACK was written -/
  answered : Bool
  /-- the peer's ACK was handed over -/
  confirmed : Bool
  deriving DecidableEq

/-- All four steps are done. -/
def Progress.complete (p : Progress) : Bool := p.sent && p.heard && p.answered && p.confirmed

/-! ## Minimal mode -/

/-- The progress after a history. -/
def Progress.of (h : List Event) : Progress :=
  ⟨h.any Event.createsConnect, (deliveries h).any isConnect, h.any Event.createsAck, (deliveries h).any isAck⟩

/-- A read function answered with an error that is not one of the five non-fatal ones, or `write_message` with any
error. -/
def Event.ends : Event → Bool
  | .read _ (.err e) => !nonFatal e
  | .takeAck (.err e) => !nonFatal e
  | .drain (.err e) => !nonFatal e
  | .write _ _ _ (.err _) => true
  | _ => false

/-- Some call has ended the session. -/
def ended (h : List Event) : Bool := h.any Event.ends

/-- The call may have processed a negotiation message without handing it over: it panicked or no key agreement was
possible. -/
def Event.hides (e : Event) : Prop := e.panicked ∨ e.failedWith .failToComputeAgreement

/-- No negotiation message got lost to the application before all four steps were done. -/
def Smooth (h : List Event) : Prop :=
  ∀ h1 e h2, h = h1 ++ e :: h2 → e.hides → (Progress.of h1).complete = true

/-- `try_clone` succeeded. -/
def Event.clones : Event → Bool
  | .clone (.ok _) => true
  | _ => false

/-- What `create_connect_message` answers. -/
def connectAnswer (p : Progress) (over : Bool) : Res Unit :=
  if over then .err .connectionHadFail else if p.sent then .err .connectMsgAlreadyWritten else .ok ()

/-- What `create_ack_message` answers. -/
def ackAnswer (p : Progress) (over : Bool) : Res Unit :=
  if over then .err .connectionHadFail
  else if p.heard && !p.answered then .ok () else .err .forbidWriteAckMsgNow

/-- What `write_message` answers, given a writer that takes everything. -/
def writeAnswer (p : Progress) (over : Bool) : Res Unit :=
  if over then .err .connectionHadFail
  else if p.complete then .ok () else .err .negoMustHaveBeenSuccessful

/-- What `try_clone` answers. -/
def cloneAnswer (p : Progress) (over : Bool) : Res Unit :=
  if !over && p.complete then .ok () else .err .negoMustHaveBeenSuccessful

/-- What `change_config` answers. -/
def configAnswer (cloned : Bool) : Res Unit :=
  if cloned then .err .forbidChangeConfAfterClone else .ok ()

/-! ## Complete mode -/

section
variable {M : Type}

/-- The progress after a history of the complete mode. -/
def Progress.ofC (h : List (CEvent M)) : Progress :=
  ⟨h.any CEvent.consumesConnect, (ckinds h).contains .connect, h.any CEvent.consumesAck, (ckinds h).contains .ack⟩

/-- Errors of `read` that say that a message could not be decoded. -/
def undecodable : Error → Bool
  | .serdeError _ => true
  | .recvInvalidMsg .messageTooShort => true
  | .recvInvalidMsg .unknownMessageFormat => true
  | _ => false

/-- `read_bin` or `read` answered with an error that is not one of the five non-fatal ones nor about the content of a
message, or `write_bin` or `write` with an error that is not about the encoding. -/
def CEvent.ends : CEvent M → Bool
  | .readBin _ (.err e) => !nonFatal e && e ≠ .zipError
  | .readSer _ _ (.err e) => !nonFatal e && e ≠ .zipError && !undecodable e
  | .writeBin _ _ _ (.err _) => true
  | .writeSer _ _ _ _ (.err e) => !undecodable e
  | _ => false

/-- Some call has ended the session. -/
def cended (h : List (CEvent M)) : Bool := h.any CEvent.ends

/-- `read_bin` or `read` answered that there is nothing to hand over: an ACK or a user message that is too early is
kept. -/
def CEvent.keeps : CEvent M → Bool
  | .readBin _ (.ok []) => true
  | .readSer _ _ (.ok []) => true
  | _ => false

/-- Answers of the read functions that may belong to a negotiation message that is processed without being handed over:
panics, errors about the key agreement or about the content of the message, and, if something was kept before, the non-fatal
errors, which may be about that. -/
def hidingAnswer {α : Type} (kept : Bool) : Res α → Prop
  | .ok _ => False
  | .panic _ => True
  | .err e => e = .failToComputeAgreement ∨ e = .zipError ∨ undecodable e = true ∨
      kept = true ∧ nonFatal e = true

/-- The call may have processed a negotiation message without handing it over. -/
def CEvent.hides (kept : Bool) : CEvent M → Prop
  | .readBin _ r => hidingAnswer kept r
  | .readSer _ _ r => hidingAnswer kept r
  | _ => False

/-- No negotiation message got lost to the application before all four steps were done. -/
def CSmooth (h : List (CEvent M)) : Prop :=
  ∀ h1 e h2, h = h1 ++ e :: h2 → e.hides (h1.any CEvent.keeps) → (Progress.ofC h1).complete = true

/-- `try_clone` succeeded. -/
def CEvent.clones : CEvent M → Bool
  | .clone (.ok _) => true
  | _ => false

end

end Pkstl.Spec

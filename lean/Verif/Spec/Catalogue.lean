import Verif.Spec.Complete
/- C74: which errors which function can return. -/
namespace Pkstl.Spec

/-- The functions of the minimal mode. -/
inductive Fn where
  | read
  | takeAck
  | drain
  | connect
  | ack
  | write
  | clone
  | config
  deriving DecidableEq, Repr

def Event.fn : Event → Fn
  | .read _ _ => .read
  | .takeAck _ => .takeAck
  | .drain _ => .drain
  | .connect _ _ _ => .connect
  | .ack _ _ => .ack
  | .write _ _ _ _ => .write
  | .clone _ => .clone
  | .config _ _ => .config

/-- The error in a result. -/
def errorIn {α : Type} : Res α → Option Error
  | .err e => some e
  | _ => none

/-- The error that a call returned. -/
def Event.error : Event → Option Error
  | .read _ r => errorIn r
  | .takeAck r => errorIn r
  | .drain r => errorIn r
  | .connect _ _ r => errorIn r
  | .ack _ r => errorIn r
  | .write _ _ _ r => errorIn r
  | .clone r => errorIn r
  | .config _ r => errorIn r

/-- Errors about a message read. -/
def readErrors : Error → Bool
  | .connectionHadFail => true
  | .failToComputeAgreement => true
  | .failToDecryptData => true
  | .tooManyUnorderedMsgs => true
  | .unexpectedRemoteSigPubKey => true
  | .recvInvalidMsg .messageTooShort => false
  | .recvInvalidMsg .unknownMessageFormat => false
  | .recvInvalidMsg _ => true
  | _ => false

/-- Errors about a user message to be written. -/
def writeErrors : Error → Bool
  | .connectionHadFail => true
  | .negoMustHaveBeenSuccessful => true
  | .failToEncryptData _ => true
  | _ => false

/-- The errors of every function of the minimal mode. -/
def errorsOf : Fn → Error → Bool
  | .read, e => readErrors e
  | .takeAck, .connectionHadFail => true
  | .takeAck, .recvInvalidMsg .invalidHashOrSig => true
  | .takeAck, .recvInvalidMsg .unexpectedAckMsg => true
  | .drain, .connectionHadFail => true
  | .drain, .tooManyUnorderedMsgs => true
  | .drain, .recvInvalidMsg .invalidHashOrSig => true
  | .drain, .recvInvalidMsg .invalidNonce => true
  | .connect, .connectionHadFail => true
  | .connect, .connectMsgAlreadyWritten => true
  | .ack, .connectionHadFail => true
  | .ack, .forbidWriteAckMsgNow => true
  | .write, e => writeErrors e
  | .clone, .negoMustHaveBeenSuccessful => true
  | .config, .forbidChangeConfAfterClone => true
  | _, _ => false

/-- The functions of the complete mode. -/
inductive CFn where
  | readBin
  | readSer
  | connectBin
  | connectSer
  | ackBin
  | ackSer
  | writeBin
  | writeSer
  | clone
  | config
  deriving DecidableEq, Repr

variable {M : Type}

def CEvent.fn : CEvent M → CFn
  | .readBin _ _ => .readBin
  | .readSer _ _ _ => .readSer
  | .connectBin _ _ _ _ => .connectBin
  | .connectSer _ _ _ _ _ => .connectSer
  | .ackBin _ _ _ _ => .ackBin
  | .ackSer _ _ _ _ _ => .ackSer
  | .writeBin _ _ _ _ => .writeBin
  | .writeSer _ _ _ _ _ => .writeSer
  | .clone _ => .clone
  | .config _ _ => .config

/-- The error that a call returned. -/
def CEvent.error : CEvent M → Option Error
  | .readBin _ r => errorIn r
  | .readSer _ _ r => errorIn r
  | .connectBin _ _ _ r => errorIn r
  | .connectSer _ _ _ _ r => errorIn r
  | .ackBin _ _ _ r => errorIn r
  | .ackSer _ _ _ _ r => errorIn r
  | .writeBin _ _ _ r => errorIn r
  | .writeSer _ _ _ _ r => errorIn r
  | .clone r => errorIn r
  | .config _ r => errorIn r

/-- A configuration that can be written down in a build with the features `f`. -/
def Config.Has (f : Features) (c : Config) : Prop := c.messageFormat.enabled f = true

/-- A call that can be written down in a build with the features `f`. -/
def CEvent.Has (f : Features) : CEvent M → Prop
  | .config c _ => Config.Has f c
  | _ => True

/-- Errors of the codecs of a build. -/
def codecErrors (f : Features) : Error → Bool
  | .serdeError .bincodeError => f.bin
  | .serdeError .cborError => f.cbor
  | .serdeError .jsonError => f.json
  | .serdeError .useSuffixedBinFunctions => true
  | _ => false

/-- Errors about the own CONNECT message. -/
def connectErrors : Error → Bool
  | .connectionHadFail => true
  | .connectMsgAlreadyWritten => true
  | .bufferFlushError => true
  | _ => false

/-- Errors about the own ACK message; `ConnectMsgAlreadyWritten` is the answer of a clone. -/
def ackErrors : Error → Bool
  | .connectionHadFail => true
  | .connectMsgAlreadyWritten => true
  | .forbidWriteAckMsgNow => true
  | .bufferFlushError => true
  | _ => false

/-- Errors about the content of a message read with the serde API. -/
def contentErrors (f : Features) : Error → Bool
  | .recvInvalidMsg .messageTooShort => true
  | .recvInvalidMsg .unknownMessageFormat => true
  | e => codecErrors f e

/-- The errors of every function of the complete mode, in a build with the features `f`.  Without any codec `write` never
gets as far as writing. -/
def cerrorsOf (f : Features) : CFn → Error → Bool
  | .readBin, e => readErrors e || decide (e = .zipError)
  | .readSer, e => readErrors e || decide (e = .zipError) || contentErrors f e
  | .connectBin, e => connectErrors e
  | .connectSer, e => connectErrors e || codecErrors f e
  | .ackBin, e => ackErrors e
  | .ackSer, e => ackErrors e || codecErrors f e
  | .writeBin, e => writeErrors e
  | .writeSer, e => codecErrors f e || (f.bin || f.cbor || f.json) && writeErrors e
  | .clone, e => decide (e = .negoMustHaveBeenSuccessful)
  | .config, e => decide (e = .forbidChangeConfAfterClone)

end Pkstl.Spec

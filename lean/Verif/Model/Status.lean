import Verif.Model.Base
namespace Pkstl

/-- src/lib.rs:70-75 -/
inductive LocalNego where
  | created
  | connectMsgSent
  | validAckMsgReceived
  deriving DecidableEq, Repr

/-- src/lib.rs:77-82 -/
inductive RemoteNego where
  | waitConnectMsg
  | validConnectMsgReceived
  | ackMsgSent
  deriving DecidableEq, Repr

/-- src/lib.rs:84-89 -/
inductive MsgType where
  | connect
  | ack
  | userMsg
  deriving DecidableEq, Repr

/-- src/lib.rs:91-95 -/
inductive Action where
  | create (t : MsgType)
  | receive (t : MsgType)
  deriving DecidableEq, Repr

/-- src/lib.rs:97-100 -/
inductive SideEffect where
  | pushUserMsgIntoTmpStack
  deriving DecidableEq, Repr

/-- src/status.rs:22-33 -/
inductive Status where
  | fail
  | ongoing (loc : LocalNego) (rem : RemoteNego)
  | success
  deriving DecidableEq, Repr

/-- src/status.rs:36-41 -/
def Status.init : Status := .ongoing .created .waitConnectMsg

/-- src/status.rs:42-126 -/
def Status.applyAction (s : Status) (a : Action) : Status × Res (Option SideEffect) :=
  match s with
  | .fail => (.fail, .err .connectionHadFail)                                          -- 44
  | .ongoing loc rem =>
    match a with
    | .create .connect =>                                                              -- 47-54
      if loc = .created then (.ongoing .connectMsgSent rem, .ok none)
      else (.ongoing loc rem, .err .connectMsgAlreadyWritten)
    | .create .ack =>                                                                  -- 55-66
      if rem = .validConnectMsgReceived then
        if loc = .validAckMsgReceived then (.success, .ok none)
        else (.ongoing loc .ackMsgSent, .ok none)
      else (.ongoing loc rem, .err .forbidWriteAckMsgNow)
    | .create .userMsg => (.fail, .err .negoMustHaveBeenSuccessful)                    -- 67-70
    | .receive .connect =>                                                             -- 73-81
      if rem = .waitConnectMsg then (.ongoing loc .validConnectMsgReceived, .ok none)
      else (.fail, invalidMsg .unexpectedConnectMsg)
    | .receive .ack =>                                                                 -- 82-94
      if loc = .connectMsgSent then
        if rem = .ackMsgSent then (.success, .ok none)
        else (.ongoing .validAckMsgReceived rem, .ok none)
      else (.fail, invalidMsg .unexpectedAckMsg)
    | .receive .userMsg =>                                                             -- 95-104
      if rem = .ackMsgSent ∧ loc = .connectMsgSent then
        (.ongoing loc rem, .ok (some .pushUserMsgIntoTmpStack))
      else (.fail, invalidMsg .unexpectedMessage)
  | .success =>
    match a with
    | .create .connect => (.success, .err .connectMsgAlreadyWritten)                   -- 109
    | .create .ack => (.success, .err .forbidWriteAckMsgNow)                           -- 110
    | .create .userMsg => (.success, .ok none)                                         -- 111
    | .receive .connect => (.fail, invalidMsg .unexpectedConnectMsg)                   -- 114-117
    | .receive .ack => (.fail, invalidMsg .unexpectedAckMsg)                           -- 118-121
    | .receive .userMsg => (.success, .ok none)                                        -- 122

end Pkstl

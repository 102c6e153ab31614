import Verif.Lemmas.Agree
import Verif.Lemmas.BufWriter
import Verif.Lemmas.Bytes
import Verif.Lemmas.CConf
import Verif.Lemmas.CEval
import Verif.Lemmas.CFrame
import Verif.Lemmas.CKeep
import Verif.Lemmas.CLower
import Verif.Lemmas.CWrite
import Verif.Lemmas.Clone
import Verif.Lemmas.Codec
import Verif.Lemmas.Complete
import Verif.Lemmas.Conf
import Verif.Lemmas.Config
import Verif.Lemmas.Crypto
import Verif.Lemmas.Debug
import Verif.Lemmas.Delivered
import Verif.Lemmas.DevPanics
import Verif.Lemmas.DuplexSim
import Verif.Lemmas.Early
import Verif.Lemmas.Eval
import Verif.Lemmas.FatalRead
import Verif.Lemmas.Frame
import Verif.Lemmas.NetInv
import Verif.Lemmas.NetLive
import Verif.Lemmas.NetParty
import Verif.Lemmas.NetRead
import Verif.Lemmas.Nonce
import Verif.Lemmas.PanicRead
import Verif.Lemmas.Panics
import Verif.Lemmas.Poly1305
import Verif.Lemmas.Poly1305Prime
import Verif.Lemmas.ReadCase
import Verif.Lemmas.Reader
import Verif.Lemmas.Refuse
import Verif.Lemmas.SNetSim
import Verif.Lemmas.Script
import Verif.Lemmas.Seen
import Verif.Lemmas.Session
import Verif.Lemmas.Sign
import Verif.Lemmas.Trace
import Verif.Lemmas.Track
import Verif.Lemmas.Wf
import Verif.Lemmas.Window
import Verif.Lemmas.WindowSpec
import Verif.Lemmas.WriteEval
import Verif.Lemmas.Zip
import Verif.Model.Debug
import Verif.Model.Serde
import Verif.Props.Agreement
import Verif.Props.Alike
import Verif.Props.Answer
import Verif.Props.Api
import Verif.Props.Auth
import Verif.Props.Availability
import Verif.Props.Boundaries
import Verif.Props.Builds
import Verif.Props.CAvailability
import Verif.Props.CDrain
import Verif.Props.CSplit
import Verif.Props.Calls
import Verif.Props.Catalogue
import Verif.Props.Channel
import Verif.Props.Clone
import Verif.Props.Codec
import Verif.Props.Complete
import Verif.Props.CompleteHistory
import Verif.Props.Cut
import Verif.Props.CutSer
import Verif.Props.Debug
import Verif.Props.DrainExact
import Verif.Props.Duplex
import Verif.Props.Early
import Verif.Props.EarlyAck
import Verif.Props.Eavesdrop
import Verif.Props.Forge
import Verif.Props.Forward
import Verif.Props.InForce
import Verif.Props.Interop
import Verif.Props.Negotiation
import Verif.Props.Net
import Verif.Props.Panics
import Verif.Props.Receiver
import Verif.Props.ReceiverSer
import Verif.Props.Robust
import Verif.Props.SNet
import Verif.Props.Serde
import Verif.Props.Sessions
import Verif.Props.Sizes
import Verif.Props.Vary
import Verif.Props.Window
import Verif.Props.Writer
import Verif.Spec.Answer
import Verif.Spec.Api
import Verif.Spec.Boundaries
import Verif.Spec.CFatal
import Verif.Spec.CHistory
import Verif.Spec.CSplit
import Verif.Spec.Catalogue
import Verif.Spec.Complete
import Verif.Spec.Cut
import Verif.Spec.Debug
import Verif.Spec.Drain
import Verif.Spec.Duplex
import Verif.Spec.Errors
import Verif.Spec.Fatal
import Verif.Spec.Format
import Verif.Spec.Forward
import Verif.Spec.History
import Verif.Spec.InForce
import Verif.Spec.Interop
import Verif.Spec.Net
import Verif.Spec.Poly1305
import Verif.Spec.Receiver
import Verif.Spec.ReceiverSer
import Verif.Spec.SNet
import Verif.Spec.Split
import Verif.Spec.ToyComplete
import Verif.Spec.ToyHistory
import Verif.Spec.ToySession
import Verif.Spec.Unforged
import Verif.Spec.Vary
import Verif.Spec.Window

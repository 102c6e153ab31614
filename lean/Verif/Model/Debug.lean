import Mathlib.Data.Finset.Sort
import Verif.Model.Complete
/-
`{:?}` of a layer.  All types of the crate derive `Debug`; the text is the one that `derive(Debug)` and std write without the
`#` flag.  Texts are lists of characters.
-/
namespace Pkstl

/-- The `Debug` implementations of `ring` are parameters: `agreement::PublicKey`, `agreement::EphemeralPrivateKey` (of the
private key) and `signature::Ed25519KeyPair` (of the seed). -/
structure RingDebug where
  publicKey : Bytes → List Char
  privateKey : Bytes → List Char
  keyPair : Bytes → List Char

namespace Debug

/-- std: integers. -/
def nat (n : Nat) : List Char := Nat.toDigits 10 n

/-- std: `bool`. -/
def bool (b : Bool) : List Char := if b then "true".toList else "false".toList

/-- The elements of a sequence, separated by commas. -/
def items {α : Type} (f : α → List Char) : List α → List Char
  | [] => []
  | [a] => f a
  | a :: l => f a ++ ", ".toList ++ items f l

/-- std: `Vec`, slices and arrays. -/
def seq {α : Type} (f : α → List Char) (l : List α) : List Char := "[".toList ++ items f l ++ "]".toList

/-- std: `BTreeSet`. -/
def set {α : Type} (f : α → List Char) (l : List α) : List Char := "{".toList ++ items f l ++ "}".toList

/-- std: `Option`. -/
def opt {α : Type} (f : α → List Char) : Option α → List Char
  | none => "None".toList
  | some a => "Some(".toList ++ f a ++ ")".toList

/-- std: bytes. -/
def bytes (b : Bytes) : List Char := seq (fun x => nat x.toNat) b

/-- derive: a struct with named fields. -/
def struct (name : String) (fields : List (String × List Char)) : List Char :=
  name.toList ++ " { ".toList ++ items (fun x => x.1.toList ++ ": ".toList ++ x.2) fields ++ " }".toList

/-- derive: a tuple struct or tuple variant with one field. -/
def tuple (name : String) (field : List Char) : List Char := name.toList ++ "(".toList ++ field ++ ")".toList

/-- src/format.rs:34-49 -/
def format : MessageFormat → List Char
  | .rawBinary => "RawBinary".toList
  | .utf8PlainText => "Utf8PlainText".toList
  | .utf8Json => "Utf8Json".toList
  | .cbor => "Cbor".toList
  | .bincode => "Bincode".toList

/-- src/encryption.rs:25-29 -/
def algo : EncryptAlgo → List Char
  | .chacha20Poly1305Aead => "Chacha20Poly1305Aead".toList

/-- src/config.rs:27-41; `flate2::Compression` is a tuple struct that derives `Debug`, and `message_format` exists with the
cargo feature `ser` only. -/
def config (ser : Bool) (c : Config) : List Char :=
  struct "SecureLayerConfig" ([("compression", tuple "Compression" (nat c.compression)),
    ("compression_min_size", nat c.compressionMinSize)] ++
    (if ser then [("message_format", format c.messageFormat)] else []) ++ [("encrypt_algo", algo c.encryptAlgo)])

/-- src/encryption/chacha20_poly1305_aead.rs:25-32 -/
def secretKey (k : SecretKey) : List Char :=
  struct "SecretKey" [("key", bytes k.key), ("nonce", bytes k.nonce), ("aad", bytes k.aad)]

/-- src/encryption.rs:45-48 -/
def algoWithSecretKey (k : SecretKey) : List Char := tuple "Chacha20Poly1305Aead" (secretKey k)

/-- src/agreement.rs:68-70 -/
def ephemeralPublicKey (r : RingDebug) (b : Bytes) : List Char := tuple "EphemeralPublicKey" (r.publicKey b)

/-- src/agreement.rs:79-83 -/
def ephemeralKeyPair (r : RingDebug) (kp : EphemeralKeyPair) : List Char :=
  struct "EphemeralKeyPair" [("privkey", r.privateKey kp.privkey), ("pubkey", ephemeralPublicKey r kp.pubkey)]

/-- src/lib.rs:70-75 -/
def localNego : LocalNego → List Char
  | .created => "Created".toList
  | .connectMsgSent => "ConnectMsgSent".toList
  | .validAckMsgReceived => "ValidAckMsgReceived".toList

/-- src/lib.rs:77-82 -/
def remoteNego : RemoteNego → List Char
  | .waitConnectMsg => "WaitConnectMsg".toList
  | .validConnectMsgReceived => "ValidConnectMsgReceived".toList
  | .ackMsgSent => "AckMsgSent".toList

/-- src/status.rs:22-33 -/
def status : Status → List Char
  | .fail => "Fail".toList
  | .ongoing loc rem => struct "OngoingNegotiation" [("local", localNego loc), ("remote", remoteNego rem)]
  | .success => "NegotiationSuccessful".toList

end Debug

open Debug

/-- src/minimal.rs:33-51: `{:?}` of a `MinimalSecureLayer`. -/
def Layer.debug (r : RingDebug) (ser : Bool) (s : Layer) : List Char :=
  struct "MinimalSecureLayer" [
    ("ack_msg_recv_too_early", opt bytes s.ackMsgRecvTooEarly),
    ("cloned", bool s.cloned),
    ("config", Debug.config ser s.config),
    ("encrypt_algo_with_secret", opt algoWithSecretKey s.secret),
    ("ephemeral_kp", opt (ephemeralKeyPair r) s.ephemeralKp),
    ("ephemeral_pubkey", ephemeralPublicKey r s.ephemeralPubkey),
    ("next_nonce_expected", nat s.nextNonceExpected),
    ("next_nonce_sent", nat s.nextNonceSent),
    ("orphan_nonce_list", Debug.set nat (s.orphanNonces.sort (· ≤ ·))),
    ("peer_epk", opt bytes s.peerEpk),
    ("peer_sig_pubkey", opt bytes s.peerSigPubkey),
    ("status", Debug.status s.status),
    ("tmp_stack_user_msgs", seq bytes s.tmpStack)]

/-- src/complete.rs:40-44: `{:?}` of a `SecureLayer`. -/
def SecureLayer.debug (r : RingDebug) (ser : Bool) (s : SecureLayer) : List Char :=
  struct "SecureLayer" [("minimal_secure_layer", s.minimal.debug r ser), ("sig_key_pair", opt r.keyPair s.sigSeed)]

end Pkstl

import Verif.Model.Base
namespace Pkstl

/-- src/constants.rs:19 -/
def SIG_ALGO_LEN : Nat := 4
/-- src/constants.rs:22 -/
def CURRENT_VERSION : Bytes := [0, 0, 0, 1]
/-- src/constants.rs:25 -/
def CHALLENGE_SIZE : Nat := 32
/-- src/constants.rs:28 -/
def HASH_SIZE : Nat := 32
/-- src/constants.rs:31 -/
def EPK_SIZE : Nat := 32
/-- src/constants.rs:34 -/
def MAGIC_VALUE : Bytes := [0xE2, 0xC2, 0xE2, 0xD2]
/-- src/constants.rs:37 -/
def MSG_TYPE_LEN : Nat := 2
/-- src/constants.rs:40 -/
def USER_MSG_TYPE : Bytes := [0, 0]
/-- src/constants.rs:43 -/
def CONNECT_MSG_TYPE : Bytes := [0, 1]
/-- src/constants.rs:46 -/
def ACK_MSG_TYPE : Bytes := [0, 2]
/-- src/constants.rs:49 -/
def SIG_PUBKEY_BEGIN : Nat := MSG_TYPE_LEN + EPK_SIZE + SIG_ALGO_LEN
/-- src/constants.rs:52 -/
def MAX_ORPHAN_NONCES : Nat := 10000
/-- src/reader.rs:26 -/
def MAGIC_VALUE_END : Nat := 4
/-- src/reader.rs:27 -/
def VERSION_END : Nat := 8
/-- src/reader.rs:28 -/
def ENCAPSULED_MSG_BEGIN : Nat := 16
/-- src/reader.rs:29 -/
def NONCE_SIZE : Nat := 8
/-- src/signature.rs:21 and 24 -/
def SIG_ALGO_ED25519 : Bytes := [0, 0, 0, 0]
/-- src/encryption/chacha20_poly1305_aead.rs:23 -/
def CHACHA20_TAG_SIZE : Nat := 16
/-- src/agreement.rs:23 -/
def ITERATIONS : Nat := 3
/-- src/complete/serde.rs:24 -/
def HEADER_FORMAT_LEN : Nat := 4
/-- src/config.rs:21 -/
def DEFAULT_COMPRESSION_MIN_SIZE : Nat := 8192

end Pkstl

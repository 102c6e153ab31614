# Formal model of librelois/pkstl in Lean 4 — design

Source: `/repo` at the pinned commit (3783 lines of Rust with tests).  Everything below is about that text; nothing was
compiled or run.

## Layout

* `lean/Verif/Model/*`  the model: one Lean definition per Rust function (or per branch of a long function), each citing
  file and lines.
* `lean/Verif/Spec/*`   small specifications the theorems are stated against: wire format (`Wire`), message formats
  (`Format`), histories of calls (`History`, `Complete`, `CHistory`), session key (`Session`), abstract replay window (`Window`),
  malformed inputs (`Malformed`), error classes (`Errors`), two-party network (`Net`), replaced primitives (`Vary`), unforgeability of inputs (`Unforged`), toy instances
  (`Toy*`).  They
  mention the model's data types and API functions, not the model's helper functions.
* `lean/Verif/Lemmas/*` helper lemmas.
* `lean/Verif/Props/*`  the property theorems, named `Cnn_…`, each followed by an `example` that shows that the hypotheses
  are met by a concrete non-trivial case (usually the toy session of `Spec/Toy*.lean`).
* `properties.jsonl` the properties, `MANIFEST.json` property → status → theorems, `seeded/LOG.jsonl` wrong programs.

## How code becomes model

| code | model |
|---|---|
| `&mut self` methods of `MinimalSecureLayer` / `SecureLayer` | functions `Layer → args → Layer × Res α` |
| `Result` / panic | `Res α = ok \| err Error \| panic Panic`; the state at the panic point is kept, so a history may go on after a caught panic |
| slices, `Vec<u8>` | `List UInt8`; out-of-range slicing is an explicit panic |
| `u64`/`usize` arithmetic | `Nat` with explicit overflow check: panic if `env.overflowChecks`, else wrap at 2^64 (64-bit target) |
| `BTreeSet<u64>` | `Finset Nat` |
| user supplied `BufWriter<W>` | std's buffering rules over an arbitrary scripted inner writer: every call of the inner `write` takes some bytes, is interrupted, or fails; when the script ends it takes everything |
| internal `BufWriter<Vec<u8>>` | byte list (a `Vec` never writes short) |
| SHA-256, Ed25519, X25519, PBKDF2, ChaCha20, Poly1305, DEFLATE | fields of a record `Crypto`; what is used about them are the fields of `Crypto.Lawful`, always an explicit hypothesis |
| serde codecs (bincode, CBOR, JSON) | record `Codec M`, round-trip laws in `Codec.Lawful` |
| randomness (`SystemRandom`) | argument of `create`, may fail |
| cargo features `bin`, `cbor`, `json`; overflow checks | records `Features`, `Env`; all theorems hold for all values |

ChaCha20Poly1305 is modelled as what it is: XOR with a keystream that depends on key and nonce only, and a tag over (key,
nonce, aad, ciphertext).  `encrypt_read` writes the ciphertext in chunks of unspecified sizes (`Crypto.chunks`, law: they
concatenate to the ciphertext).

`Crypto.Lawful` consists of 13 laws: output lengths of SHA-256, Ed25519 public keys and signatures, X25519 public keys and
shared secrets, PBKDF2 and Poly1305; an accepted signature has 64 bytes; own signatures verify; X25519 agreement is
symmetric; inflate undoes deflate; deflate output is not empty; chunks concatenate.  No cryptographic hardness is assumed or
needed: the authenticity theorems (C11, C12, C23, …) say exactly which byte string was verified under which key.
`Toy.lawful` proves that the laws are consistent.  Only C69 looks into a primitive: it assumes that tags are those of RFC 7539
(`UsesPoly1305`, defined from the RFC in `Spec/Poly1305` and checked there against the RFC's test vectors) and uses that
2^130 - 5 is prime (`prime_p1305`, a Pratt certificate checked by the kernel).

## What is modelled, file by file

| file | modelled | not modelled |
|---|---|---|
| `agreement.rs` | all of `generate`, `compute_shared_secret`, `derive`, lengths; `Debug` of the key pair up to `ring`'s | |
| `complete.rs` | `create`, `try_clone`, `change_config`, `compress`, `uncompress`, `read_bin`, `read`, `write_connect_msg[_bin]`, `write_ack_msg[_bin]`, `write`, `write_bin`, `{:?}` of the layer | capacity hints; `split` is commented out in the source |
| `complete/message.rs`, `complete/serde.rs` | message and error types | payloads of external errors |
| `complete/writer.rs` | all four functions, including the ignored length of `write` | `log` calls |
| `complete/serde/*.rs` | all functions | the codecs themselves (parameters) |
| `config.rs`, `constants.rs`, `digest.rs`, `signature.rs` | all | |
| `encryption.rs`, `encryption/chacha20_poly1305_aead.rs` | all | ChaCha20's 256 GiB limit |
| `errors.rs` | all variants that the code constructs | payloads of I/O errors, texts |
| `format.rs` | all | |
| `lib.rs` | state and action types | |
| `message.rs` | all | `Debug`; failure of writes into a `Vec` |
| `minimal.rs` | all, including `{:?}` of the layer | logging; `{:#?}` |
| `reader.rs` | all | |
| `seeds.rs` | sizes; `Seed32::random` as argument of `create` | zeroisation |
| `status.rs` | all | |

Simplifications that matter when reading a theorem:

* One layer value is used by one thread at a time (the Rust API needs `&mut self`), so a history is a sequence of calls.
* An input is one byte string handed to `read`; the framing of a stream into such byte strings is the application's job in
  the code and stays outside the model.
* `usize` is 64 bits.
* `Ed25519KeyPair` is represented by its seed.
* Allocation failure, timing and zeroisation are not modelled.  `{:?}` of the two layers is modelled character by
  character (`Model/Debug`, C65); what `ring` prints for its own types is a parameter (`RingDebug`).

## Histories

`Spec.Run env st h s`: the layer `s` came out of `create` by the calls listed in `h` (with arguments and results), in any
order, with any arguments, by an application that may ignore errors, go on after a caught panic, and replace the layer by a
clone.  `Spec.CRun` is the same for the complete layer (`SecureLayer`), and `CRun.lower` maps such a history to one of the
minimal layer inside, so facts about `Run` carry over.  Theorems over `Run`/`CRun` hold for all histories; there is no bound
on length, sizes or numbers except where a 64-bit counter is about to wrap, and then the hypothesis says so.

`Spec.Net` is a transition system of two complete layers and a network that delays and reorders arbitrarily but neither
loses, duplicates nor forges (C15, C21).  The applications may attempt `write_connect_msg_bin`, `write_ack_msg_bin` and
`change_config` at any time, in any order and repeatedly, and write user messages once they have written their ACK and were
handed the peer's (`ready`).  Hypotheses: `Honest` (an expected key, if configured, is the peer's; key agreement succeeds; the
keystream does not start with four zero bytes), `Fits` (writers that take everything, messages below 2^64 bytes), `Fair` (at
most 10000 later user messages arrive before a given one).  All interleavings are covered.

`Spec.SNet` is the same system with the serde API (C64): `write_connect_msg`, `write_ack_msg`, `write` and `read` with one
lawful codec, a feature set for each party, and the hypothesis that what is written is in a format that the peer's build
knows.  It is proved to be a `Net` whose data are encoded values.  `Spec.readSers` and `Spec.PostedValue` describe a lossy
network for the serde API (C62), `Spec.inForce` the configuration that a history leaves in force (C35).

## Properties the code violates

If the expected property is false for the code, its negation is proved (`Cnn_refuted…`, for every lawful crypto where
possible, not for one literal), the part that does hold is proved as `Cnn_…_partial`, and the manifest says `partial`.

| id | what happens |
|---|---|
| C24 | key and nonce of ChaCha20 are fixed for a session and the same in both directions: the XOR of two ciphertexts is the XOR of the plaintexts |
| C25 | both directions share key and numbering: a layer accepts its own messages back and can negotiate with itself |
| C26 | the session key is not bound to identities: an attacker that re-signs CONNECT and ACK makes A talk to B while B believes it talks to M |
| C27 | a replayed CONNECT of an old session plus a fresh ACK: A is negotiated with a secret B no longer has |
| C28 | malformed inputs make `read` panic: fewer than 4 bytes, truncated headers, ciphertexts shorter than the tag, absurd length fields |
| C30 | a CONNECT with a wrong signature pins the announced key; a CONNECT whose key agreement fails uses up the step |
| C31 | the stack of early messages grows without bound |
| C32 | one duplicate among the early messages loses all of them |
| C47 | CONNECT, ACK and signatures longer than the buffer can be cut although `Ok` is returned (`write` instead of `write_all`) |
| C49 | at 2^64 messages a number is reused: with overflow checks after a caught panic, without them by wrapping |
| C51 | while the peer's key is unknown a forged early ACK is kept unchecked and spoils the genuine ACK or the delivery of the genuine CONNECT |
| C60 | unauthenticated bytes (another version number, junk of 16 bytes, a wrong tag) and repeated deliveries of the peer's CONNECT or ACK end a session for good |
| C65 | `{:?}` of a layer prints the session key (`derive(Debug)` down to `SecretKey`): a log line is enough to read and forge all messages of the session |
| C69 | key and nonce are fixed, so one Poly1305 one-time key makes all tags of a session: two recorded messages and the content of one of them are enough to forge (a few candidates per 16 bytes); C55 and C61, which assume that only holders of the session key can seal, therefore do not protect against an attacker with known plaintext |

Further findings, proved in positive theorems: if the first four bytes of the keystream are zero, a
ciphertext looks like a clear message and is not decrypted (hypothesis `¬ ∀ i < 4, keystream i = 0` of C03 and others); `Some([])` arrives as `None` in minimal mode
(C01–C03 `present`), not in complete mode (C37); a failed decompression loses the ACK and the messages behind it (C42); one
value that cannot be deserialised loses the whole batch of a `read` (C45); data with the tag of `Utf8PlainText` panic the
receiver (C45); writing a user message before the negotiation is complete fails the layer (C50); one lost user message
ends the session of the receiver once 10001 different later ones have arrived (C62); SIG_ALGO of Ed25519 is 0,
the README says 1 (C04).

## How the theorems were tested

* Wrong programs: in a scratch copy a definition of the model is edited as a realistic bug would.  Either the proofs are
  rebuilt and the failing theorems noted (m01–m10), or, stricter, all proofs are dropped and the *negation of the theorem's
  statement* is proved on the edited model (m11 and up): then the statement itself, not only its proof, excludes the bug.
  Where a statement survived a bug that makes its English claim false it was tightened.  All in `seeded/LOG.jsonl`.
* Non-vacuity: the `example` beside each theorem.

## Trusted base

* Lean's kernel (`lake build`, replayed by `vcheck`).
* Axioms: `propext`, `Classical.choice`, `Quot.sound` at most; no `sorry`, no `native_decide`, no `bv_decide`, no own axiom.
  Per theorem below, from `#print axioms`.
* That the definitions in `Model/` say what the Rust code says (read by hand, line references in each definition), and that
  the statements in `Props/` with `Spec/` say what `properties.jsonl` says.
* That the external crates satisfy `Crypto.Lawful` / `Codec.Lawful`, for the theorems marked L / C below.
* std's `BufWriter` as described in `Model/BufWriter.lean`.

## Theorems, axioms, assumptions

P = `propext`, C = `Classical.choice`, Q = `Quot.sound`.  "laws" says whether the statement assumes `Crypto.Lawful` (L) or
`Codec.Lawful` (C).

| property | theorem | axioms | laws |
|---|---|---|---|
| C01 | `C01_connect_roundtrip` | PCQ | L |
| C02 | `C02_ack_roundtrip` | PCQ | L |
| C03 | `C03_user_roundtrip` | PCQ | L |
| C04 | `C04_layout_clear` | PCQ | – |
| C04 | `C04_layout_user` | PCQ | L |
| C05 | `C05_canonical` | PCQ | L |
| C06 | `C06_injective` | PCQ | L |
| C06 | `C06_signed` | PCQ | L |
| C06 | `C06_user` | PCQ | L |
| C07 | `C07_complete_before_use` | PCQ | – |
| C07 | `C07_delivered_before_use` | PCQ | – |
| C08 | `C08_once_each` | PCQ | – |
| C09 | `C09_fail_forever` | PCQ | – |
| C10 | `C10_no_user_data_before_negotiation` | PCQ | – |
| C10 | `C10_user_data_after_negotiation` | PCQ | – |
| C11 | `C11_connect_authentic` | PCQ | – |
| C12 | `C12_ack_possession` | PCQ | – |
| C13 | `C13_same_secret` | PCQ | L |
| C14 | `C14_secret_stable` | PCQ | – |
| C14 | `C14_peer_stable` | PCQ | – |
| C15 | `C15_no_error` | PCQ | L |
| C15 | `C15_progress` | PCQ | L |
| C15 | `C15_status` | PCQ | L |
| C15 | `C15_delivered` | PCQ | L |
| C15 | `C15_negotiated` | PCQ | L |
| C15 | `C15_completable` | PCQ | L |
| C16 | `C16_dev_panics` | PCQ | – |
| C16 | `C16_encrypt_without_secret` | PCQ | – |
| C16 | `C16_witness` | PCQ | L |
| C17 | `C17_at_most_once` | PCQ | – |
| C17 | `C17_no_replay` | PCQ | L |
| C18 | `C18_window` | PCQ | L |
| C18 | `C18_sequence` | PCQ | L |
| C18 | `C18_permutation` | PCQ | L |
| C19 | `C19_drain` | PCQ | – |
| C19 | `C19_only` | PCQ | – |
| C19 | `C19_bounded` | PCQ | – |
| C19 | `C19_overflow` | PCQ | – |
| C20 | `C20_numbering` | PCQ | L |
| C20 | `C20_no_repetition` | PCQ | – |
| C21 | `C21_at_most_once` | PCQ | L |
| C21 | `C21_arrival_order` | PCQ | L |
| C21 | `C21_exactly_once` | PCQ | L |
| C21 | `C21_window_exact` | PCQ | L |
| C22 | `C22_taken` | PCQ | L |
| C22 | `C22_drain_too_early` | PCQ | – |
| C22 | `C22_delivered` | PCQ | L |
| C23 | `C23_authentic` | PCQ | – |
| C23 | `C23_only_written` | PCQ | – |
| C24 | `C24_refuted_known` | PCQ | L |
| C24 | `C24_refuted` | PCQ | L |
| C24 | `C24_single_partial` | PCQ | L |
| C25 | `C25_refuted_reflection` | PCQ | L |
| C25 | `C25_refuted_self` | PCQ | L |
| C25 | `C25_own_connect_partial` | PCQ | L |
| C26 | `C26_refuted` | PCQ | L |
| C26 | `C26_expected_partial` | PCQ | – |
| C27 | `C27_refuted` | PCQ | L |
| C27 | `C27_signed_partial` | PCQ | – |
| C28 | `C28_panic_iff` | PCQ | L |
| C28 | `C28_refuted_short` | PCQ | – |
| C28 | `C28_refuted_magic` | PCQ | – |
| C28 | `C28_refuted_length` | PCQ | L |
| C28 | `C28_refuted_tag` | PCQ | L |
| C28 | `C28_connect_partial` | PCQ | – |
| C28 | `C28_ack_partial` | PCQ | – |
| C28 | `C28_user_partial` | PCQ | L |
| C29 | `C29_fatal` | PCQ | – |
| C29 | `C29_nonfatal` | PCQ | – |
| C30 | `C30_unchanged_partial` | PCQ | – |
| C30 | `C30_changed_iff_partial` | PCQ | – |
| C30 | `C30_refuted_pin` | PCQ | – |
| C30 | `C30_refuted_agreement` | PCQ | – |
| C31 | `C31_refuted` | PCQ | L |
| C31 | `C31_stored_partial` | PCQ | – |
| C32 | `C32_complete_partial` | PCQ | L |
| C32 | `C32_outcome_partial` | PCQ | L |
| C32 | `C32_refuted` | PCQ | L |
| C32 | `C32_all_partial` | PCQ | – |
| C33 | `C33_iff` | PQ | – |
| C33 | `C33_same` | PQ | – |
| C33 | `C33_alike` | PCQ | – |
| C34 | `C34_complete` | PCQ | – |
| C34 | `C34_split` | PCQ | – |
| C35 | `C35_frozen` | PCQ | – |
| C35 | `C35_free` | PCQ | – |
| C35 | `C35_complete` | PCQ | – |
| C36 | `C36_collide` | PCQ | L |
| C36 | `C36_one_delivered` | PCQ | L |
| C36 | `C36_replay` | PCQ | – |
| C37 | `C37_connect` | PCQ | L |
| C37 | `C37_ack` | PCQ | L |
| C37 | `C37_user` | PCQ | L |
| C38 | `C38_user` | PCQ | L |
| C38 | `C38_connect` | PCQ | L |
| C38 | `C38_ack` | PCQ | L |
| C38 | `C38_receiver` | PCQ | – |
| C39 | `C39_signed` | PCQ | L |
| C39 | `C39_connect` | PCQ | L |
| C39 | `C39_ack` | PCQ | L |
| C40 | `C40_refused` | PCQ | – |
| C40 | `C40_user` | PCQ | – |
| C41 | `C41_delivered` | PCQ | L |
| C41 | `C41_second` | PCQ | L |
| C42 | `C42_zip` | PCQ | – |
| C42 | `C42_user_consumed` | PCQ | L |
| C42 | `C42_connect_lost` | PCQ | – |
| C42 | `C42_ack_stuck` | PCQ | L |
| C42 | `C42_drain_lost` | PCQ | L |
| C43 | `C43_injective` | – | – |
| C43 | `C43_tag` | – | – |
| C43 | `C43_decode` | P | – |
| C43 | `C43_reject` | PQ | – |
| C44 | `C44_serialize` | PQ | – |
| C44 | `C44_deserialize` | P | – |
| C44 | `C44_read` | PCQ | – |
| C44 | `C44_connect` | PCQ | L C |
| C44 | `C44_ack` | PCQ | L C |
| C44 | `C44_user` | PCQ | L C |
| C45 | `C45_raw` | PQ | – |
| C45 | `C45_text` | PQ | – |
| C45 | `C45_none` | PQ | – |
| C45 | `C45_read` | PCQ | – |
| C46 | `C46_ok_written_ser` | PCQ | L |
| C46 | `C46_ok_written` | PCQ | L |
| C46 | `C46_any_outcome` | PCQ | L |
| C46 | `C46_ok_written_bin` | PCQ | L |
| C46 | `C46_small_buffer` | PCQ | L |
| C47 | `C47_connect_cut_partial` | PCQ | L |
| C47 | `C47_ack_cut_partial` | PCQ | L |
| C47 | `C47_connect_ser_partial` | PCQ | L |
| C47 | `C47_ack_ser_partial` | PCQ | L |
| C47 | `C47_connect_ser_cut_partial` | PCQ | L |
| C47 | `C47_ack_ser_cut_partial` | PCQ | L |
| C47 | `C47_connect_partial` | PCQ | L |
| C47 | `C47_ack_partial` | PCQ | L |
| C47 | `C47_refuted_connect` | PCQ | – |
| C47 | `C47_refuted_ack` | PCQ | – |
| C47 | `C47_refuted_signature` | PQ | L |
| C48 | `C48_write_error` | PCQ | – |
| C48 | `C48_number_not_reused` | PCQ | L |
| C48 | `C48_connect_consumed` | PCQ | – |
| C48 | `C48_ack_consumed` | PCQ | – |
| C49 | `C49_last_checked` | PCQ | L |
| C49 | `C49_last_unchecked` | PCQ | L |
| C49 | `C49_refuted_checked` | PCQ | L |
| C49 | `C49_refuted_unchecked` | PCQ | L |
| C49 | `C49_below_partial` | PCQ | L |
| C49 | `C49_refuted_receiver` | PCQ | L |
| C49 | `C49_receiver_checked` | PCQ | L |
| C50 | `C50_minimal` | PQ | – |
| C50 | `C50_write` | PQ | – |
| C50 | `C50_complete` | PCQ | – |
| C51 | `C51_effect_ser_partial` | PCQ | L |
| C51 | `C51_refuted_second` | PCQ | L |
| C51 | `C51_refuted_swallowed` | PCQ | L |
| C51 | `C51_pinned_partial` | PCQ | L |
| C51 | `C51_effect_partial` | PCQ | L |
| C51 | `C51_refuted_panic` | PCQ | L |
| C52 | `C52_negotiated` | PCQ | – |
| C52 | `C52_user` | PCQ | – |
| C52 | `C52_complete` | PCQ | – |
| C52 | `C52_complete_user` | PCQ | – |
| C53 | `C53_once_each` | PCQ | – |
| C53 | `C53_order` | PCQ | – |
| C54 | `C54_genuine` | PCQ | – |
| C55 | `C55_at_most_once` | PCQ | – |
| C55 | `C55_only_written` | PCQ | – |
| C56 | `C56_fail_forever` | PCQ | – |
| C56 | `C56_fatal` | PCQ | – |
| C56 | `C56_sound` | PCQ | – |
| C57 | `C57_agreement` | PCQ | – |
| C57 | `C57_unused` | PCQ | – |
| C57 | `C57_complete` | PCQ | – |
| C58 | `C58_signatures` | PCQ | – |
| C59 | `C59_peer` | PCQ | L |
| C59 | `C59_shared` | PCQ | L |
| C60 | `C60_fatal_iff_partial` | PCQ | L |
| C60 | `C60_final_partial` | PCQ | L |
| C60 | `C60_refuted_version` | PCQ | – |
| C60 | `C60_refuted_junk` | PCQ | L |
| C60 | `C60_refuted_tag` | PCQ | L |
| C60 | `C60_refuted_connect_twice` | PCQ | L |
| C60 | `C60_refuted_ack_twice` | PCQ | L |
| C60 | `C60_complete_iff_partial` | PCQ | L |
| C60 | `C60_refuted_complete` | PCQ | L |
| C60 | `C60_complete_all_partial` | PCQ | L |
| C60 | `C60_complete_ser_partial` | PCQ | L |
| C61 | `C61_origin` | PCQ | L |
| C61 | `C61_peer` | PCQ | L |
| C61 | `C61_values` | PCQ | L C |
| C62 | `C62_receiver` | PCQ | L |
| C62 | `C62_lossy` | PCQ | L |
| C62 | `C62_one_lost` | PCQ | L |
| C62 | `C62_peer` | PCQ | L |
| C62 | `C62_values` | PCQ | L C |
| C63 | `C63_simulation` | PCQ | L |
| C63 | `C63_alike` | PCQ | L |
| C64 | `C64_no_error` | PCQ | L C |
| C64 | `C64_progress` | PCQ | L C |
| C64 | `C64_status` | PCQ | L C |
| C64 | `C64_delivered` | PCQ | L C |
| C64 | `C64_negotiated` | PCQ | L C |
| C64 | `C64_at_most_once` | PCQ | L C |
| C64 | `C64_arrival_order` | PCQ | L C |
| C64 | `C64_exactly_once` | PCQ | L C |
| C64 | `C64_completable` | PCQ | L C |
| C65 | `C65_refuted` | PCQ | – |
| C65 | `C65_refuted_minimal` | PCQ | – |
| C65 | `C65_refuted_traffic` | PCQ | L |
| C65 | `C65_refuted_forge` | PCQ | L |
| C65 | `C65_partial` | PCQ | – |
| C66 | `C66_prefix_free` | PCQ | L |
| C66 | `C66_written` | PCQ | L |
| C66 | `C66_decodable` | PCQ | L |
| C66 | `C66_refused` | PCQ | L |
| C66 | `C66_pieces` | PCQ | L |
| C66 | `C66_merged_connect` | PCQ | L |
| C66 | `C66_merged_ack` | PCQ | L |
| C66 | `C66_merged_user` | PCQ | L |
| C67 | `C67_simulated` | PCQ | L |
| C67 | `C67_no_error` | PCQ | L |
| C67 | `C67_divide` | PCQ | L |
| C67 | `C67_writes` | PCQ | L |
| C67 | `C67_refused` | PCQ | L |
| C67 | `C67_delivery` | PCQ | L |
| C67 | `C67_window` | PCQ | L |
| C68 | `C68_read` | PCQ | – |
| C68 | `C68_write` | PQ | – |
| C68 | `C68_history` | PCQ | – |
| C68 | `C68_at_most_once` | PCQ | – |
| C68 | `C68_lost` | PCQ | L |
| C68 | `C68_value_to_bytes` | PCQ | L |
| C68 | `C68_bytes_to_value` | PCQ | L |
| C69 | `C69_refuted` | PCQ | L |
| C69 | `C69_single_partial` | PCQ | L |
| C70 | `C70_checks` | PCQ | – |
| C70 | `C70_checked_run` | PCQ | – |
| C70 | `C70_unchecked_run` | PCQ | – |
| C70 | `C70_features` | PCQ | – |
| C70 | `C70_features_run` | PCQ | – |
| C71 | `C71_connect` | PCQ | – |
| C71 | `C71_ack` | PCQ | – |
| C71 | `C71_write` | PCQ | – |
| C71 | `C71_clone` | PCQ | – |
| C71 | `C71_config` | PCQ | – |
| C71 | `C71_connect_complete` | PCQ | – |
| C71 | `C71_ack_complete` | PCQ | – |
| C71 | `C71_write_complete` | PCQ | – |
| C71 | `C71_clone_complete` | PCQ | – |
| C71 | `C71_config_complete` | PCQ | – |
| C72 | `C72_signature_key` | PCQ | L |
| C72 | `C72_secret` | PCQ | – |
| C72 | `C72_erased` | PCQ | – |
| C72 | `C72_erased_complete` | PCQ | – |
| C73 | `C73_read` | PCQ | L |
| C73 | `C73_complete` | PCQ | L |
| C74 | `C74_minimal` | PCQ | L |
| C74 | `C74_complete` | PCQ | L |
| C75 | `C75_minimal` | PCQ | L |
| C75 | `C75_complete` | PCQ | L |
| C75 | `C75_refuted` | PCQ | L |
| C75 | `C75_stored_partial` | PCQ | L |
| C76 | `C76_connect_to_complete` | PCQ | L |
| C76 | `C76_ack_to_complete` | PCQ | L |
| C76 | `C76_user_to_complete` | PCQ | L |
| C76 | `C76_connect_to_minimal` | PCQ | L |
| C76 | `C76_ack_to_minimal` | PCQ | L |
| C76 | `C76_user_to_minimal` | PCQ | L |
| C76 | `C76_session` | PCQ | L |

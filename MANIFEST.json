{
 "claims": [
  {
   "property": "C01",
   "status": "proved",
   "theorems": [
    "Pkstl.C01_connect_roundtrip"
   ],
   "note": "for every reachable sender and receiver state; needs that key agreement with the sender's ephemeral key succeeds"
  },
  {
   "property": "C02",
   "status": "proved",
   "theorems": [
    "Pkstl.C02_ack_roundtrip"
   ],
   "note": "for every reachable receiver state in which an ACK is due"
  },
  {
   "property": "C03",
   "status": "proved",
   "theorems": [
    "Pkstl.C03_user_roundtrip"
   ],
   "note": "needs BufWriter capacity > 16 (see C46) and that the keystream does not start with four zero bytes (F1)"
  },
  {
   "property": "C04",
   "status": "proved",
   "theorems": [
    "Pkstl.C04_layout_clear",
    "Pkstl.C04_layout_user"
   ],
   "note": "SIG_ALGO of Ed25519 is 0 in the code, 1 in the README; the specification follows the code"
  },
  {
   "property": "C05",
   "status": "proved",
   "theorems": [
    "Pkstl.C05_canonical"
   ],
   "note": "no reachability needed: holds for every layer value and every input"
  },
  {
   "property": "C06",
   "status": "proved",
   "theorems": [
    "Pkstl.C06_injective",
    "Pkstl.C06_signed",
    "Pkstl.C06_user"
   ],
   "note": ""
  },
  {
   "property": "C07",
   "status": "proved",
   "theorems": [
    "Pkstl.C07_complete_before_use",
    "Pkstl.C07_delivered_before_use"
   ],
   "note": "'accepted' CONNECT/ACK: correctly signed input on which read delivered the message, or reported FailToComputeAgreement, or panicked on a too small length field; C07_delivered_before_use is the version for histories without those two events"
  },
  {
   "property": "C08",
   "status": "proved",
   "theorems": [
    "Pkstl.C08_once_each"
   ],
   "note": "at most one of each event along every history"
  },
  {
   "property": "C09",
   "status": "proved",
   "theorems": [
    "Pkstl.C09_fail_forever"
   ],
   "note": ""
  },
  {
   "property": "C10",
   "status": "proved",
   "theorems": [
    "Pkstl.C10_no_user_data_before_negotiation",
    "Pkstl.C10_user_data_after_negotiation"
   ],
   "note": ""
  },
  {
   "property": "C11",
   "status": "proved",
   "theorems": [
    "Pkstl.C11_connect_authentic"
   ],
   "note": ""
  },
  {
   "property": "C12",
   "status": "proved",
   "theorems": [
    "Pkstl.C12_ack_possession"
   ],
   "note": ""
  },
  {
   "property": "C13",
   "status": "proved",
   "theorems": [
    "Pkstl.C13_same_secret"
   ],
   "note": ""
  },
  {
   "property": "C14",
   "status": "proved",
   "theorems": [
    "Pkstl.C14_secret_stable",
    "Pkstl.C14_peer_stable"
   ],
   "note": ""
  },
  {
   "property": "C15",
   "status": "proved",
   "theorems": [
    "Pkstl.C15_no_error",
    "Pkstl.C15_progress",
    "Pkstl.C15_status",
    "Pkstl.C15_delivered",
    "Pkstl.C15_negotiated",
    "Pkstl.C15_completable"
   ],
   "note": "System model Spec/Net: two layers, every interleaving of write_connect_msg_bin/write_ack_msg_bin/change_config attempts at any time, write_bin when ready, and delivery of any message under way. C15_no_error, C15_progress (exactly when each write succeeds), C15_status (negotiated iff own ACK written and peer's ACK handed over; same secret, right keys), C15_delivered, C15_negotiated, C15_completable (no dead end). Hypotheses: lawful crypto, key agreement succeeds, keystream does not start with four zero bytes (F1), reordering of user messages within the 10000 window (Fair), writers that take everything."
  },
  {
   "property": "C16",
   "status": "proved",
   "theorems": [
    "Pkstl.C16_dev_panics",
    "Pkstl.C16_encrypt_without_secret",
    "Pkstl.C16_witness"
   ],
   "note": "the encrypt-without-secret panic is reachable only after read() reported FailToComputeAgreement (finding F6); C16_witness: it is then really reachable, for every layer"
  },
  {
   "property": "C17",
   "status": "proved",
   "theorems": [
    "Pkstl.C17_at_most_once",
    "Pkstl.C17_no_replay"
   ],
   "note": "along any history, including clones, caught panics and drains; histories with fewer than 2^64 inputs"
  },
  {
   "property": "C18",
   "status": "proved",
   "theorems": [
    "Pkstl.C18_window",
    "Pkstl.C18_sequence",
    "Pkstl.C18_permutation"
   ],
   "note": "exact acceptance criterion for fresh numbers"
  },
  {
   "property": "C19",
   "status": "proved",
   "theorems": [
    "Pkstl.C19_drain",
    "Pkstl.C19_only",
    "Pkstl.C19_bounded",
    "Pkstl.C19_overflow"
   ],
   "note": ""
  },
  {
   "property": "C20",
   "status": "proved",
   "theorems": [
    "Pkstl.C20_numbering",
    "Pkstl.C20_no_repetition"
   ],
   "note": "BufWriter capacity > 16 (see C46)"
  },
  {
   "property": "C21",
   "status": "proved",
   "theorems": [
    "Pkstl.C21_at_most_once",
    "Pkstl.C21_arrival_order",
    "Pkstl.C21_exactly_once",
    "Pkstl.C21_window_exact"
   ],
   "note": "Same system as C15. C21_at_most_once, C21_exactly_once (multiset equality once nothing is under way), C21_arrival_order (after the ACK exactly the arrived messages in arrival order, before it none), C21_window_exact (a message outside the window is refused and fails the layer). Clones are not part of this system (see C34-C36)."
  },
  {
   "property": "C22",
   "status": "proved",
   "theorems": [
    "Pkstl.C22_taken",
    "Pkstl.C22_drain_too_early",
    "Pkstl.C22_delivered"
   ],
   "note": ""
  },
  {
   "property": "C23",
   "status": "proved",
   "theorems": [
    "Pkstl.C23_authentic",
    "Pkstl.C23_only_written"
   ],
   "note": ""
  },
  {
   "property": "C24",
   "status": "partial",
   "theorems": [
    "Pkstl.C24_refuted_known",
    "Pkstl.C24_refuted",
    "Pkstl.C24_single_partial"
   ],
   "note": "the code violates the expected property: C24_refuted proves that any two messages of a session share one keystream; C24_refuted_known: who knows the data of one user message and the configuration it was written under computes, without any key, the data of every other user message of the session that is not longer, in either direction; positive part C24_single_partial: a single message alone is hidden up to its length (its bytes on the wire are those of any other message of that length under another keystream)"
  },
  {
   "property": "C25",
   "status": "partial",
   "theorems": [
    "Pkstl.C25_refuted_reflection",
    "Pkstl.C25_refuted_self",
    "Pkstl.C25_own_connect_partial"
   ],
   "note": "the code violates the expected property: refuted by C25_refuted_reflection and C25_refuted_self. Positive part: a layer expecting another key than its own never accepts its own CONNECT (C25_own_connect_partial)"
  },
  {
   "property": "C26",
   "status": "partial",
   "theorems": [
    "Pkstl.C26_refuted",
    "Pkstl.C26_expected_partial"
   ],
   "note": "the code violates the expected property: refuted by C26_refuted. Positive part: with expected keys on both sides the identities agree (C26_expected_partial)"
  },
  {
   "property": "C27",
   "status": "partial",
   "theorems": [
    "Pkstl.C27_refuted",
    "Pkstl.C27_signed_partial"
   ],
   "note": "the code violates the expected property: refuted by C27_refuted. Positive part: the same key signed the CONNECT the secret comes from and an ACK for the fresh ephemeral key (C27_signed_partial)"
  },
  {
   "property": "C28",
   "status": "partial",
   "theorems": [
    "Pkstl.C28_panic_iff",
    "Pkstl.C28_refuted_short",
    "Pkstl.C28_refuted_magic",
    "Pkstl.C28_refuted_length",
    "Pkstl.C28_refuted_tag",
    "Pkstl.C28_connect_partial",
    "Pkstl.C28_ack_partial",
    "Pkstl.C28_user_partial"
   ],
   "note": "the code violates the expected property: refuted by C28_refuted_short, C28_refuted_magic, C28_refuted_length, C28_refuted_tag. C28_panic_iff is the exact set of panicking inputs; positive part: complete encodings never panic (C28_*_partial)"
  },
  {
   "property": "C29",
   "status": "proved",
   "theorems": [
    "Pkstl.C29_fatal",
    "Pkstl.C29_nonfatal"
   ],
   "note": "the list of non-fatal errors is Spec.nonFatal"
  },
  {
   "property": "C30",
   "status": "partial",
   "theorems": [
    "Pkstl.C30_unchanged_partial",
    "Pkstl.C30_changed_iff_partial",
    "Pkstl.C30_refuted_pin",
    "Pkstl.C30_refuted_agreement"
   ],
   "note": "the code violates the expected property: refuted by C30_refuted_pin (forged CONNECT pins the key) and C30_refuted_agreement (CONNECT without key agreement consumes the step). Positive part: C30_unchanged_partial; C30_changed_iff_partial: among the non-fatal rejections these two are exactly the ones that change the layer"
  },
  {
   "property": "C31",
   "status": "partial",
   "theorems": [
    "Pkstl.C31_refuted",
    "Pkstl.C31_stored_partial"
   ],
   "note": "the code violates the expected property: refuted by C31_refuted for every N. Positive part: C31_stored_partial"
  },
  {
   "property": "C32",
   "status": "partial",
   "theorems": [
    "Pkstl.C32_complete_partial",
    "Pkstl.C32_outcome_partial",
    "Pkstl.C32_refuted",
    "Pkstl.C32_all_partial"
   ],
   "note": "the code violates the expected property: refuted by C32_refuted. Positive part: C32_all_partial; C32_outcome_partial gives the outcome of draining for every list of early messages exactly, C32_complete_partial the one of read_bin"
  },
  {
   "property": "C33",
   "status": "proved",
   "theorems": [
    "Pkstl.C33_iff",
    "Pkstl.C33_same",
    "Pkstl.C33_alike"
   ],
   "note": "C33_iff: exact condition; C33_same: same fields; C33_alike: later reads/writes of original and clone behave alike"
  },
  {
   "property": "C34",
   "status": "proved",
   "theorems": [
    "Pkstl.C34_complete",
    "Pkstl.C34_split"
   ],
   "note": "traffic after negotiation: user messages and their ciphertexts; negotiation calls excluded; C34_complete: the same for read_bin/read/write_bin/write of the complete mode"
  },
  {
   "property": "C35",
   "status": "proved",
   "theorems": [
    "Pkstl.C35_frozen",
    "Pkstl.C35_free",
    "Pkstl.C35_complete"
   ],
   "note": "Minimal-mode histories and, with C35_complete, all histories of the complete mode including clones of clones"
  },
  {
   "property": "C36",
   "status": "proved",
   "theorems": [
    "Pkstl.C36_collide",
    "Pkstl.C36_one_delivered",
    "Pkstl.C36_replay"
   ],
   "note": "C36_collide and C36_one_delivered: same number; C36_replay: delivered again by the clone"
  },
  {
   "property": "C37",
   "status": "proved",
   "theorems": [
    "Pkstl.C37_connect",
    "Pkstl.C37_ack",
    "Pkstl.C37_user"
   ],
   "note": "C37_connect, C37_ack, C37_user: for every lawful instance, every history of both layers, every configuration; the early-ACK and pending-early-message variants are C41 and C22"
  },
  {
   "property": "C38",
   "status": "proved",
   "theorems": [
    "Pkstl.C38_user",
    "Pkstl.C38_connect",
    "Pkstl.C38_ack",
    "Pkstl.C38_receiver"
   ],
   "note": "C38_user/_connect/_ack: level by length and threshold; C38_receiver: the receiver's configuration never changes a result; for the sender's configuration see C37, which holds for all of them"
  },
  {
   "property": "C39",
   "status": "proved",
   "theorems": [
    "Pkstl.C39_signed",
    "Pkstl.C39_connect",
    "Pkstl.C39_ack"
   ],
   "note": "over whole histories, raw and serde functions; that the bytes are in the stream needs Spec.Whole (see C47)"
  },
  {
   "property": "C40",
   "status": "proved",
   "theorems": [
    "Pkstl.C40_refused",
    "Pkstl.C40_user"
   ],
   "note": "C40_refused: over all later histories of the clone and of its clones; C40_user: user messages read and write exactly as on the original"
  },
  {
   "property": "C41",
   "status": "proved",
   "theorems": [
    "Pkstl.C41_delivered",
    "Pkstl.C41_second"
   ],
   "note": "C41_delivered: the ACK is kept across any calls while the CONNECT is awaited, then both are delivered in order by one read_bin call with their exact data; C41_second: a second early ACK fails the layer."
  },
  {
   "property": "C42",
   "status": "proved",
   "theorems": [
    "Pkstl.C42_zip",
    "Pkstl.C42_user_consumed",
    "Pkstl.C42_connect_lost",
    "Pkstl.C42_ack_stuck",
    "Pkstl.C42_drain_lost"
   ],
   "note": "C42_zip: whenever read_bin returns ZipError the message was authentic and the layer goes on as if it had been delivered; C42_user_consumed: no message with that number is ever delivered later (up to 2^64 inputs without overflow checks); C42_connect_lost; C42_ack_stuck: the early user messages are never touched again."
  },
  {
   "property": "C43",
   "status": "proved",
   "theorems": [
    "Pkstl.C43_injective",
    "Pkstl.C43_tag",
    "Pkstl.C43_decode",
    "Pkstl.C43_reject"
   ],
   "note": "tags are the format numbers of the specification as 4 bytes; recognised iff known to the build, everything else is UnknownMessageFormat, for all byte strings and feature sets"
  },
  {
   "property": "C44",
   "status": "proved",
   "theorems": [
    "Pkstl.C44_serialize",
    "Pkstl.C44_deserialize",
    "Pkstl.C44_read",
    "Pkstl.C44_connect",
    "Pkstl.C44_ack",
    "Pkstl.C44_user"
   ],
   "note": "C44_serialize/C44_deserialize characterise both directions; C44_connect, C44_ack, C44_user are end to end between two layers with different builds and configurations. External codecs are assumed to round trip (Codec.Lawful)."
  },
  {
   "property": "C45",
   "status": "proved",
   "theorems": [
    "Pkstl.C45_raw",
    "Pkstl.C45_text",
    "Pkstl.C45_none",
    "Pkstl.C45_read"
   ],
   "note": "C45_raw, C45_text: writing; C45_none: without data the format plays no role; C45_read: the first message that cannot be deserialised makes read fail and all messages of that read are lost"
  },
  {
   "property": "C46",
   "status": "proved",
   "theorems": [
    "Pkstl.C46_ok_written_ser",
    "Pkstl.C46_ok_written",
    "Pkstl.C46_any_outcome",
    "Pkstl.C46_ok_written_bin",
    "Pkstl.C46_small_buffer"
   ],
   "note": "for every writer script; C46_small_buffer: with capacity <= 16 the claim really fails"
  },
  {
   "property": "C47",
   "status": "partial",
   "theorems": [
    "Pkstl.C47_connect_cut_partial",
    "Pkstl.C47_ack_cut_partial",
    "Pkstl.C47_connect_ser_partial",
    "Pkstl.C47_ack_ser_partial",
    "Pkstl.C47_connect_ser_cut_partial",
    "Pkstl.C47_ack_ser_cut_partial",
    "Pkstl.C47_connect_partial",
    "Pkstl.C47_ack_partial",
    "Pkstl.C47_refuted_connect",
    "Pkstl.C47_refuted_ack",
    "Pkstl.C47_refuted_signature"
   ],
   "note": "the code violates the expected property: refuted by C47_refuted_connect, C47_refuted_ack, C47_refuted_signature. Positive part: C47_connect_partial, C47_ack_partial (message shorter than the buffer). C47_connect_cut_partial and C47_ack_cut_partial say exactly (if and only if) which answers and which stream contents some writer can cause. The theorems named _ser_ say the same for write_connect_msg and write_ack_msg of the serde API"
  },
  {
   "property": "C48",
   "status": "proved",
   "theorems": [
    "Pkstl.C48_write_error",
    "Pkstl.C48_number_not_reused",
    "Pkstl.C48_connect_consumed",
    "Pkstl.C48_ack_consumed"
   ],
   "note": "along any history, including clones"
  },
  {
   "property": "C49",
   "status": "partial",
   "theorems": [
    "Pkstl.C49_last_checked",
    "Pkstl.C49_last_unchecked",
    "Pkstl.C49_refuted_checked",
    "Pkstl.C49_refuted_unchecked",
    "Pkstl.C49_below_partial",
    "Pkstl.C49_refuted_receiver",
    "Pkstl.C49_receiver_checked"
   ],
   "note": "the code violates the expected property: refuted by C49_refuted_checked, C49_refuted_unchecked, C49_refuted_receiver. Positive part: C49_below_partial (fewer than 2^64 writes), C17 on the receiving side"
  },
  {
   "property": "C50",
   "status": "proved",
   "theorems": [
    "Pkstl.C50_minimal",
    "Pkstl.C50_write",
    "Pkstl.C50_complete"
   ],
   "note": "C50_minimal, C50_write, C50_complete; panics of the serde writers also leave the layer untouched (C45_text)"
  },
  {
   "property": "C51",
   "status": "partial",
   "theorems": [
    "Pkstl.C51_effect_ser_partial",
    "Pkstl.C51_refuted_second",
    "Pkstl.C51_refuted_swallowed",
    "Pkstl.C51_pinned_partial",
    "Pkstl.C51_effect_partial",
    "Pkstl.C51_refuted_panic"
   ],
   "note": "the code violates the expected property: refuted by C51_refuted_second, C51_refuted_swallowed and C51_refuted_panic (all layers that wait for a CONNECT and know no key); positive part C51_pinned_partial: with the peer's key configured a forged ACK has no effect; C51_effect_partial: the immediate effect of a forged ACK in every state, exactly (nothing is delivered, the layer changes iff it knows no key, it ends iff besides an ACK is stored already); C51_effect_ser_partial: the same for read of the serde API"
  },
  {
   "property": "C52",
   "status": "proved",
   "theorems": [
    "Pkstl.C52_negotiated",
    "Pkstl.C52_user",
    "Pkstl.C52_complete",
    "Pkstl.C52_complete_user"
   ],
   "note": "C52_negotiated, C52_user: minimal mode; C52_complete, C52_complete_user: complete mode. Validity of a signature is Ed25519 verification; what a verifying signature says about its maker is a matter of the signature scheme."
  },
  {
   "property": "C53",
   "status": "proved",
   "theorems": [
    "Pkstl.C53_once_each",
    "Pkstl.C53_order"
   ],
   "note": "C53_once_each, C53_order"
  },
  {
   "property": "C54",
   "status": "proved",
   "theorems": [
    "Pkstl.C54_genuine"
   ],
   "note": "C54_genuine: binary and serde API; messages come from the input of the very call, behind an ACK also from earlier inputs"
  },
  {
   "property": "C55",
   "status": "proved",
   "theorems": [
    "Pkstl.C55_at_most_once",
    "Pkstl.C55_only_written"
   ],
   "note": "C55_at_most_once, C55_only_written; the bound of 2^64 inputs is needed only without overflow checks (see C49)"
  },
  {
   "property": "C56",
   "status": "proved",
   "theorems": [
    "Pkstl.C56_fail_forever",
    "Pkstl.C56_fatal",
    "Pkstl.C56_sound"
   ],
   "note": "C56_fatal, C56_fail_forever, C56_sound"
  },
  {
   "property": "C57",
   "status": "proved",
   "theorems": [
    "Pkstl.C57_agreement",
    "Pkstl.C57_unused",
    "Pkstl.C57_complete"
   ],
   "note": "C57_agreement, C57_unused: minimal mode; C57_complete: complete mode"
  },
  {
   "property": "C58",
   "status": "proved",
   "theorems": [
    "Pkstl.C58_signatures"
   ],
   "note": "C58_signatures"
  },
  {
   "property": "C59",
   "status": "proved",
   "theorems": [
    "Pkstl.C59_peer",
    "Pkstl.C59_shared"
   ],
   "note": "C59_peer: any number of sessions of the peer; C59_shared: one session. Unforgeability is a hypothesis about the inputs of this history (Unforged), not about the scheme; that the two layers in C59_peer may differ is the attack of C27"
  },
  {
   "property": "C60",
   "status": "partial",
   "theorems": [
    "Pkstl.C60_fatal_iff_partial",
    "Pkstl.C60_final_partial",
    "Pkstl.C60_refuted_version",
    "Pkstl.C60_refuted_junk",
    "Pkstl.C60_refuted_tag",
    "Pkstl.C60_refuted_connect_twice",
    "Pkstl.C60_refuted_ack_twice",
    "Pkstl.C60_complete_iff_partial",
    "Pkstl.C60_refuted_complete",
    "Pkstl.C60_complete_all_partial",
    "Pkstl.C60_complete_ser_partial"
   ],
   "note": "the code violates the expected property: refuted by C60_refuted_version, C60_refuted_junk, C60_refuted_tag, C60_refuted_connect_twice, C60_refuted_ack_twice, C60_refuted_complete. C60_fatal_iff_partial is the exact set of inputs that end a session of the minimal API; C60_complete_all_partial and C60_complete_ser_partial give it for read_bin and read of the complete API in every state, C60_complete_iff_partial for negotiated layers, where the two sets agree"
  },
  {
   "property": "C61",
   "status": "proved",
   "theorems": [
    "Pkstl.C61_origin",
    "Pkstl.C61_peer",
    "Pkstl.C61_values"
   ],
   "note": "C61_origin: user data; C61_values: values of the serde API; C61_peer: an honest peer under active attack (uses C59_shared). Unforgeability is a hypothesis about the inputs of this history (Sealed, Unforged). Own messages can come back because both directions share key and numbering (C25)"
  },
  {
   "property": "C62",
   "status": "proved",
   "theorems": [
    "Pkstl.C62_receiver",
    "Pkstl.C62_lossy",
    "Pkstl.C62_one_lost",
    "Pkstl.C62_peer",
    "Pkstl.C62_values"
   ],
   "note": "C62_receiver: any negotiated layer no read of which has failed, verdict by verdict; C62_lossy: freshly negotiated, exact condition; C62_peer: in terms of the peer's write_bin calls; C62_one_lost: one lost message ends the session after 10001 later ones; C62_values: the same for values of the serde API, with the formats in force when they were written"
  },
  {
   "property": "C63",
   "status": "proved",
   "theorems": [
    "Pkstl.C63_simulation",
    "Pkstl.C63_alike"
   ],
   "note": "C63_simulation: stepwise simulation of the two-party system with any other assignment of expected keys (apply it twice for both directions); C63_alike: every reachable state of one has an indistinguishable counterpart in the other. Passive observer and honest parties; an active attacker can tell the roles apart by offering another key, which only a client refuses"
  },
  {
   "property": "C64",
   "status": "proved",
   "theorems": [
    "Pkstl.C64_no_error",
    "Pkstl.C64_progress",
    "Pkstl.C64_status",
    "Pkstl.C64_delivered",
    "Pkstl.C64_negotiated",
    "Pkstl.C64_at_most_once",
    "Pkstl.C64_arrival_order",
    "Pkstl.C64_exactly_once",
    "Pkstl.C64_completable"
   ],
   "note": "System model Spec/SNet: like the one of C15 with write_connect_msg/write_ack_msg/write/read of the serde API; both parties use one codec for one message type and may have different feature sets and configurations. Same hypotheses as C15, plus: the codec is lawful (decode after encode gives the value), and every written message is in a format known to the peer's build (otherwise see C45). Proved by simulation in the system of C15"
  },
  {
   "property": "C65",
   "status": "partial",
   "theorems": [
    "Pkstl.C65_refuted",
    "Pkstl.C65_refuted_minimal",
    "Pkstl.C65_refuted_traffic",
    "Pkstl.C65_refuted_forge",
    "Pkstl.C65_partial"
   ],
   "note": "the code violates the expected property: refuted by C65_refuted (the session key is a fixed function of the text, for every layer), C65_refuted_minimal, C65_refuted_traffic (reads every message of the session) and C65_refuted_forge (makes messages that are handed over). C65_partial: the text depends on the ephemeral private key and on the signature seed only through their public keys, if the Debug implementations of ring do (hypothesis Discreet); and no session key is in it before a signed CONNECT has arrived. The texts printed by ring for its own types are parameters"
  },
  {
   "property": "C66",
   "status": "proved",
   "theorems": [
    "Pkstl.C66_prefix_free",
    "Pkstl.C66_written",
    "Pkstl.C66_decodable",
    "Pkstl.C66_refused",
    "Pkstl.C66_pieces",
    "Pkstl.C66_merged_connect",
    "Pkstl.C66_merged_ack",
    "Pkstl.C66_merged_user"
   ],
   "note": "Shape of a message on the wire (WireMsg), Emits and Misread are in Spec/Boundaries.lean, independent of reader and writer. C66_prefix_free, C66_written and C66_decodable: what two layers with the same session key have written, run together, determines the messages. C66_pieces + C66_refused: at the first wrong cut nothing is handed over (binary, serde and minimal mode). C66_merged_connect, C66_merged_ack, C66_merged_user: the exact outcome. Hypothesis Veiled excludes keys of finding F4. An ACK with something behind it that arrives before the peer's CONNECT is kept and refused later (this is C51)."
  },
  {
   "property": "C67",
   "status": "proved",
   "theorems": [
    "Pkstl.C67_simulated",
    "Pkstl.C67_no_error",
    "Pkstl.C67_divide",
    "Pkstl.C67_writes",
    "Pkstl.C67_refused",
    "Pkstl.C67_delivery",
    "Pkstl.C67_window"
   ],
   "note": "system Spec.Duplex; C67_simulated relates it to the system of C15/C21 (Spec.Net) and the rest restates the consequences for the divided system; hypothesis Fair: at most 10000 later messages overtake one (C67_window: what happens otherwise)"
  },
  {
   "property": "C68",
   "status": "proved",
   "theorems": [
    "Pkstl.C68_read",
    "Pkstl.C68_write",
    "Pkstl.C68_history",
    "Pkstl.C68_at_most_once",
    "Pkstl.C68_lost",
    "Pkstl.C68_value_to_bytes",
    "Pkstl.C68_bytes_to_value"
   ],
   "note": "Spec/Api.lean: Views (what read returns where read_bin returns something), Renders/Rendering (the calls of the binary API that a call of the serde API amounts to). C68_lost states the finding: the message is consumed whether or not it could be decoded. C68_at_most_once is C55 for the rendering."
  },
  {
   "property": "C69",
   "status": "partial",
   "theorems": [
    "Pkstl.C69_refuted",
    "Pkstl.C69_single_partial"
   ],
   "note": "Poly1305 and its use in RFC 7539 AEAD are defined in Spec/Poly1305.lean (both test vectors of the RFC checked there); UsesPoly1305 says that the tag of the external crate is this one, with any derivation of the one-time key. The attacker of C69_refuted is a function of hash, compression, the known message and the bytes of another one; keys, ChaCha20 and the derivation of the one-time key are not among its arguments. It produces a small set of candidates (a wrong one ends the session, C60, so there is one attempt per layer; the code does not help to find the right one). C69_single_partial counts the one-time keys with which write_bin would have produced the recorded bytes: with one message recorded the forgery probability is the usual bound of Poly1305. Missing from the expected property: everything from the second message on."
  },
  {
   "property": "C70",
   "status": "proved",
   "theorems": [
    "Pkstl.C70_checks",
    "Pkstl.C70_checked_run",
    "Pkstl.C70_unchecked_run",
    "Pkstl.C70_features",
    "Pkstl.C70_features_run"
   ],
   "note": "Which inputs make the checked build panic with an overflow is C28 (short ciphertexts, length fields near 2^64) and C49 (message numbers at 2^64). The features ser/zip-sign decide which functions exist and are not modelled; the model contains all of them."
  },
  {
   "property": "C71",
   "status": "proved",
   "theorems": [
    "Pkstl.C71_connect",
    "Pkstl.C71_ack",
    "Pkstl.C71_write",
    "Pkstl.C71_clone",
    "Pkstl.C71_config",
    "Pkstl.C71_connect_complete",
    "Pkstl.C71_ack_complete",
    "Pkstl.C71_write_complete",
    "Pkstl.C71_clone_complete",
    "Pkstl.C71_config_complete"
   ],
   "note": "Spec.Smooth and Spec.CSmooth say precisely when a negotiation message may have been lost (panics, failed key agreement, in complete mode also undecodable content and non-fatal errors after something was kept). For layers that were cloned, what write_connect_msg and write_ack_msg answer is C40."
  },
  {
   "property": "C72",
   "status": "proved",
   "theorems": [
    "Pkstl.C72_signature_key",
    "Pkstl.C72_secret",
    "Pkstl.C72_erased",
    "Pkstl.C72_erased_complete"
   ],
   "note": "C72_signature_key is relational: it gives the run with the other key. C72_secret, C72_erased and C72_erased_complete: the private key is not in the state. Zeroisation of freed memory is not modelled; that the session key cannot be computed from public values is a cryptographic assumption outside the model."
  },
  {
   "property": "C73",
   "status": "proved",
   "theorems": [
    "Pkstl.C73_read",
    "Pkstl.C73_complete"
   ],
   "note": "C73_read: the answer of read is the one of the table Spec.Replies, in both directions (so the table is complete and gives one answer). Panics are not told apart. C73_complete: read_bin passes it on; behind a CONNECT or ACK whatever was stored (early ACK, early user messages) is appended."
  },
  {
   "property": "C74",
   "status": "proved",
   "theorems": [
    "Pkstl.C74_minimal",
    "Pkstl.C74_complete"
   ],
   "note": "C74_minimal and C74_complete are equivalences between the list Spec.errorsOf / Spec.cerrorsOf and occurrence in some history. The formats used are those the build contains (a MessageFormat variant of a missing feature cannot be written down). The constructor create is not part of the lists: in the model it never returns an error (its failures are panics)."
  },
  {
   "property": "C75",
   "status": "partial",
   "theorems": [
    "Pkstl.C75_minimal",
    "Pkstl.C75_complete",
    "Pkstl.C75_refuted",
    "Pkstl.C75_stored_partial"
   ],
   "note": "the code violates the expected property: C75_refuted gives the eavesdropper (no key, only the number of bytes); C75_minimal and C75_complete are the exact sizes; positive part C75_stored_partial for uncompressed messages, under the hypothesis that stored data takes an amount of space determined by its length"
  },
  {
   "property": "C76",
   "status": "proved",
   "theorems": [
    "Pkstl.C76_connect_to_complete",
    "Pkstl.C76_ack_to_complete",
    "Pkstl.C76_user_to_complete",
    "Pkstl.C76_connect_to_minimal",
    "Pkstl.C76_ack_to_minimal",
    "Pkstl.C76_user_to_minimal",
    "Pkstl.C76_session"
   ],
   "note": "each of the six message/direction pairs in any reachable states, and a whole mixed negotiation (C76_session)"
  }
 ]
}
{"id": "C01", "title": "CONNECT round trip", "statement": "The bytes returned by create_connect_message(pk, data), followed by the owner's 64-byte Ed25519 signature, are accepted by read() of any layer that still waits for a CONNECT and either expects nobody or expects pk; the message delivered reports exactly pk, the Ed25519 algorithm tag and data (an empty payload is reported as absent), and the reader learns exactly the sender's ephemeral key, provided the key agreement succeeds.", "quantifier": "all 32-byte signature keys, all ephemeral keys, all payloads of any length below 2^64-86, all receiver states that wait for CONNECT", "why_tests_cant": "payload length and content, and the receiver's other state, are unbounded", "anchors": ["src/minimal.rs:create_connect_message", "src/minimal.rs:read_inner", "src/message.rs:MessageRef::to_bytes", "src/reader.rs:read"]}
{"id": "C02", "title": "ACK round trip", "statement": "The bytes returned by create_ack_message(data) followed by the signature of the key the receiver has pinned are accepted by read() of the layer whose ephemeral key the sender had received, once that layer has sent its CONNECT and not yet accepted an ACK; the delivered message carries exactly data (empty = absent).", "quantifier": "all payloads, all pairs of ephemeral keys, all receiver states in which an ACK is due", "why_tests_cant": "unbounded payloads and states", "anchors": ["src/minimal.rs:create_ack_message", "src/minimal.rs:read_inner", "src/message.rs:write_challenge"]}
{"id": "C03", "title": "USER round trip", "statement": "What write_message(data) writes on one negotiated layer is accepted by read() on any negotiated layer holding the same session secret that has not yet accepted that sequence number and has room for it, and delivers exactly data (empty = absent), provided the session keystream does not start with four zero bytes (finding F1).", "quantifier": "all payloads, all session secrets, all sequence numbers, all receiver windows", "why_tests_cant": "unbounded payloads, 2^64 sequence numbers and arbitrary receiver windows", "anchors": ["src/minimal.rs:write_message", "src/minimal.rs:encrypt_and_write", "src/minimal.rs:read_inner", "src/encryption/chacha20_poly1305_aead.rs:encrypt", "src/encryption/chacha20_poly1305_aead.rs:decrypt"]}
{"id": "C04", "title": "Wire layout", "statement": "Every message the library creates has the documented layout: E2C2E2D2, version 00000001, big-endian u64 of (type header + payload) length, 2-byte type (USER 0, CONNECT 1, ACK 2), type fields, payload; USER messages are followed by their SHA-256 and then encrypted as a whole with a 16-byte tag. (The code uses SIG_ALGO 0 for Ed25519 where the README says 1.)", "quantifier": "all messages of the three types, all payload lengths", "why_tests_cant": "layout must hold for every length, including multi-byte length fields", "anchors": ["src/message.rs:MessageRef::to_bytes", "src/message.rs:prepare_message", "src/constants.rs", "README.md"]}
{"id": "C05", "title": "Accepted bytes are canonical", "statement": "Whenever read() delivers a CONNECT, ACK or USER message, the (decrypted) input is byte for byte the documented encoding of exactly the delivered message followed by nothing but its 64-byte signature (resp. 32-byte hash): the length field is exact, there is no trailing data and no alternative encoding.", "quantifier": "all byte strings presented to read(), all layer states", "why_tests_cant": "the input space is every byte string", "anchors": ["src/reader.rs:read", "src/reader.rs:read_type_headers", "src/minimal.rs:read_inner", "src/minimal.rs:verify_sig"]}
{"id": "C06", "title": "Encoding is injective", "statement": "Two messages (type, keys, sequence number, payload) that differ never have the same encoding, so a signature or hash over the encoding commits to every field.", "quantifier": "all pairs of messages", "why_tests_cant": "ranges over all pairs of unbounded payloads", "anchors": ["src/message.rs:MessageRef::to_bytes"]}
{"id": "C07", "title": "Negotiation is complete before use", "statement": "If write_message or try_clone returns Ok on a layer (or on a clone of it) then earlier in that layer's history create_connect_message returned Ok, read() accepted a correctly signed CONNECT, create_ack_message returned Ok and read() or take_ack accepted a correctly signed ACK. The accepted messages were also delivered to the application, unless the accepting call panicked or reported FailToComputeAgreement.", "quantifier": "all finite histories of API calls with arbitrary arguments and arbitrary incoming bytes, including caught panics and cloning", "why_tests_cant": "histories are unbounded and adversarial", "anchors": ["src/status.rs:apply_action", "src/minimal.rs:write_message", "src/minimal.rs:try_clone"]}
{"id": "C08", "title": "One CONNECT and one ACK per layer", "statement": "In any history a layer creates at most one CONNECT and at most one ACK, delivers at most one CONNECT and at most one ACK from its peer, creates the ACK only after having accepted a correctly signed CONNECT and delivers the peer's ACK only after having created its own CONNECT.", "quantifier": "all finite histories", "why_tests_cant": "order and repetition of calls is unbounded", "anchors": ["src/status.rs:apply_action"]}
{"id": "C09", "title": "Failure is permanent", "statement": "Once the layer has failed, no later call ever delivers a message, returns message bytes, writes to a writer or clones the layer; it stays failed for ever.", "quantifier": "all histories that continue a failed layer, with arbitrary inputs", "why_tests_cant": "needs every continuation", "anchors": ["src/status.rs:apply_action", "src/minimal.rs:read_inner", "src/minimal.rs:write_message"]}
{"id": "C10", "title": "No user data before negotiation", "statement": "No user message is delivered and no byte is written by write_message before the negotiation has completed; calling write_message earlier fails the layer for good.", "quantifier": "all finite histories", "why_tests_cant": "all prefixes of all histories", "anchors": ["src/status.rs:apply_action", "src/minimal.rs:write_message", "src/minimal.rs:read_inner", "src/minimal.rs:drain_tmp_stack_user_msgs"]}
{"id": "C11", "title": "CONNECT authenticates its key", "statement": "A delivered CONNECT carries an Ed25519 signature over all its bytes that verifies under the public key it reports, and that key is the expected one whenever one was configured at creation.", "quantifier": "all histories and inputs", "why_tests_cant": "adversarial inputs", "anchors": ["src/minimal.rs:read_inner", "src/minimal.rs:verify_sig", "src/signature.rs:verify_sig"]}
{"id": "C12", "title": "ACK proves possession", "statement": "A delivered ACK echoes SHA-256 of this layer's own ephemeral key and is signed, over all its bytes, by the very key that the delivered CONNECT reported (or the configured one).", "quantifier": "all histories and inputs", "why_tests_cant": "adversarial inputs in every order", "anchors": ["src/minimal.rs:read_inner"]}
{"id": "C13", "title": "Both sides derive the same secret", "statement": "Two layers that each accepted the other's ephemeral key hold the same encryption key, nonce and associated data; the derivation is PBKDF2-HMAC-SHA384 with 3 iterations over the X25519 secret, salted with the lexicographically larger of the two keys, split 32/12/4.", "quantifier": "all pairs of ephemeral key pairs", "why_tests_cant": "all key pairs, both orders of comparison", "anchors": ["src/agreement.rs:compute_shared_secret", "src/agreement.rs:derive", "src/minimal.rs:compute_shared_secret", "src/encryption/chacha20_poly1305_aead.rs:SecretKey::new"]}
{"id": "C14", "title": "The secret and the peer identity never change", "statement": "Once the layer has a session secret, peer ephemeral key or peer signature key, no later call on that layer changes it; the layer's own ephemeral key never changes. A clone has the same secret, but not the peer's keys.", "quantifier": "all continuations of all histories", "why_tests_cant": "unbounded adversarial continuations", "anchors": ["src/minimal.rs:compute_shared_secret", "src/minimal.rs:read_inner"]}
{"id": "C15", "title": "Handshake completes under every schedule", "statement": "Two honest SecureLayers (user messages are written only once negotiated) connected by a network that may delay and reorder messages arbitrarily never see an error from read_bin, and from every state the negotiation can still be completed; whenever both have written CONNECT and ACK and everything was delivered, both are negotiated with the same secret, whatever the interleaving and whichever side pre-configured the other's key.", "quantifier": "all interleavings of both applications and of message delivery", "why_tests_cant": "the schedule space is unbounded", "anchors": ["src/complete.rs:read_bin", "src/complete/writer.rs:write_connect_msg", "src/complete/writer.rs:write_ack_msg", "src/minimal.rs:take_ack_msg_recv_too_early"]}
{"id": "C16", "title": "Internal dev-error panics", "statement": "The library's internal 'dev error' panics cannot be triggered through the API: ACK without peer key and second key computation never happen; encrypting without a secret happens only if the application carries on after read() reported FailToComputeAgreement (finding F6).", "quantifier": "all finite histories", "why_tests_cant": "reachability over all histories", "anchors": ["src/minimal.rs:compute_shared_secret", "src/minimal.rs:encrypt_and_write", "src/message.rs:prepare_message", "src/encryption.rs:build"]}
{"id": "C17", "title": "At-most-once delivery (no replay)", "statement": "In any history of a layer and its clones' lineage the delivered user messages have pairwise different authenticated sequence numbers, so the same ciphertext is never delivered twice, whether directly or through the early-message stack, as long as fewer than 2^64 messages are delivered (always, when overflow checks are on).", "quantifier": "all finite histories with arbitrary incoming bytes", "why_tests_cant": "unbounded adversarial replays and reorderings", "anchors": ["src/minimal.rs:read_inner", "src/minimal.rs:drain_tmp_stack_user_msgs"]}
{"id": "C18", "title": "Exact acceptance window", "statement": "On a negotiated layer an authentic user message with sequence number n is delivered iff n has not been delivered before and (n is the smallest undelivered number or fewer than 10000 larger-than-smallest numbers are pending); hence any permutation of up to 10001 consecutive messages is delivered completely. (Histories in which no call panicked and no draining failed.)", "quantifier": "all sequence numbers, all windows, all permutations", "why_tests_cant": "exponentially many permutations", "anchors": ["src/minimal.rs:read_inner", "src/constants.rs:MAX_ORPHAN_NONCES"]}
{"id": "C19", "title": "Bounded replay state", "statement": "The replay bookkeeping never holds more than 10000 numbers, all strictly above the smallest undelivered one; exceeding the bound fails the layer with TooManyUnorderedMsgs, in read() or while draining early messages, and nothing else reports that error.", "quantifier": "all histories", "why_tests_cant": "needs an inductive invariant", "anchors": ["src/minimal.rs:read_inner"]}
{"id": "C20", "title": "Sender numbering", "statement": "The k-th successful write_message of a layer carries sequence number k-1 (modulo 2^64): no gap, no repetition, failed writes consume nothing.", "quantifier": "all histories", "why_tests_cant": "unbounded histories", "anchors": ["src/minimal.rs:write_message"]}
{"id": "C21", "title": "End-to-end exactly-once", "statement": "Between two honest SecureLayers over a delaying and reordering (not losing) network, every user message written is delivered at most once and, once the network is empty, exactly once, with its exact content, including messages that overtake the ACK.", "quantifier": "all schedules whose reordering stays within the 10000 window", "why_tests_cant": "all schedules, all lengths", "anchors": ["src/complete.rs:read_bin", "src/minimal.rs:drain_tmp_stack_user_msgs"]}
{"id": "C22", "title": "Early user messages are kept", "statement": "User messages that arrive after our ACK but before the peer's ACK are not delivered early and not lost: they are delivered right behind the ACK in arrival order, each exactly once; draining the stack before that delivers nothing and loses nothing.", "quantifier": "any number of early messages in any order", "why_tests_cant": "unbounded number of early messages", "anchors": ["src/minimal.rs:read_inner", "src/minimal.rs:drain_tmp_stack_user_msgs", "src/complete.rs:read_bin"]}
{"id": "C23", "title": "Every delivered user message is authenticated", "statement": "A delivered user message comes from an input that passed Poly1305 verification under the session key and associated data and whose trailing SHA-256 matches; hence if nobody else can produce valid tags, every delivered payload was written by a holder of the session secret.", "quantifier": "all histories with an active network attacker", "why_tests_cant": "adversarial inputs", "anchors": ["src/reader.rs:read", "src/encryption/chacha20_poly1305_aead.rs:decrypt", "src/minimal.rs:read_inner"]}
{"id": "C24", "title": "Keystream is never reused (violated)", "statement": "Expected: two user messages are never encrypted with the same keystream. The code uses one fixed (key, nonce) for the whole session in both directions, so the XOR of any two ciphertexts equals the XOR of the plaintexts.", "quantifier": "all sessions, all pairs of messages", "why_tests_cant": "quantifies over every pair of messages", "anchors": ["src/encryption/chacha20_poly1305_aead.rs:encrypt", "src/encryption/chacha20_poly1305_aead.rs:SecretKey::new"]}
{"id": "C25", "title": "Own messages are not accepted back (violated)", "statement": "Expected: a layer accepts only messages written by its peer. Both directions share key and numbering, so every user message a layer writes is accepted by the same layer when reflected, and a layer without an expected key even completes the whole negotiation with itself.", "quantifier": "all layers, all payloads", "why_tests_cant": "must hold for every state", "anchors": ["src/minimal.rs:read_inner", "src/minimal.rs:write_message"]}
{"id": "C26", "title": "Peers agree on identities (violated)", "statement": "Expected: when A (expecting B) and B are negotiated with the same secret, B's view of its peer is A. An active attacker M can re-sign A's CONNECT and ACK, so that A believes it talks to B while B believes it talks to M, with A and B sharing the secret. Configuring the expected key on both sides prevents it.", "quantifier": "all keys", "why_tests_cant": "an attack trace for every key triple, and its absence for all traces when both sides pin", "anchors": ["src/minimal.rs:read_inner", "src/message.rs:prepare_message"]}
{"id": "C27", "title": "Negotiated implies shared key (violated under replay)", "statement": "Expected: when A is negotiated with B's key pinned, B has computed the same secret. Replaying a CONNECT of an earlier session of B together with a fresh ACK makes A negotiated with a secret B no longer has.", "quantifier": "all keys and sessions", "why_tests_cant": "adversarial traces", "anchors": ["src/minimal.rs:read_inner", "src/message.rs:prepare_message"]}
{"id": "C28", "title": "Malformed input never panics (violated)", "statement": "Expected: read() returns Err on malformed network input. The code panics, already before any authentication, on inputs shorter than 4 bytes, truncated headers, ciphertexts shorter than 16 bytes and length fields beyond the input; the exact set of panicking inputs is characterised, and honest encodings never panic.", "quantifier": "all byte strings, all layer states, overflow checks on and off", "why_tests_cant": "input space is all byte strings", "anchors": ["src/reader.rs:read", "src/reader.rs:read_type_headers", "src/encryption/chacha20_poly1305_aead.rs:decrypt", "src/minimal.rs:verify_sig", "src/minimal.rs:read_inner"]}
{"id": "C29", "title": "Which errors are fatal", "statement": "A read() that returns an error fails the layer permanently, except exactly for: unexpected remote key, invalid hash or signature, invalid challenge, invalid (replayed) sequence number, failed key agreement.", "quantifier": "all inputs and states", "why_tests_cant": "all inputs", "anchors": ["src/minimal.rs:read_inner", "src/status.rs:apply_action"]}
{"id": "C30", "title": "Rejected input has no effect (violated for CONNECT)", "statement": "Expected: an input rejected with a non-fatal error leaves the layer unchanged. True for every such rejection of ACK and USER messages and of CONNECT from an unexpected key; false for a CONNECT with an invalid signature, which pins the forged key so that the genuine peer is then refused, and for a CONNECT with which no key can be agreed, which uses up the negotiation step.", "quantifier": "all inputs and states", "why_tests_cant": "all inputs and states", "anchors": ["src/minimal.rs:read_inner"]}
{"id": "C31", "title": "Bounded early-message memory (violated)", "statement": "Expected: an attacker cannot make the layer store unbounded data. Replaying one recorded user message before the ACK stores a copy each time.", "quantifier": "all n", "why_tests_cant": "for every n", "anchors": ["src/minimal.rs:read_inner"]}
{"id": "C32", "title": "Draining is all-or-nothing (violated)", "statement": "Expected: if draining the early-message stack fails, no message is lost. One replayed early message makes the drain fail and discards every early message, including those already accepted, and the ACK in complete mode. Exactly: everything is handed over if no number comes twice and none is overtaken by more than 10000 others; otherwise the first message that does not fit decides the error, and everything is lost. In complete mode one early message that cannot be unpacked has the same effect.", "quantifier": "all stacks with a duplicate", "why_tests_cant": "all stacks", "anchors": ["src/minimal.rs:drain_tmp_stack_user_msgs", "src/complete.rs:read_bin"]}
{"id": "C33", "title": "try_clone", "statement": "try_clone succeeds iff the layer is negotiated (and not failed); the clone holds the same secret, window, numbering, configuration and pending early messages; cloning changes nothing observable in the original but freezing its configuration.", "quantifier": "all states and histories", "why_tests_cant": "all states", "anchors": ["src/minimal.rs:try_clone"]}
{"id": "C34", "title": "Reader/writer split by cloning", "statement": "Using the original only for writing and the clone only for reading of user messages produces exactly the outputs a single layer would, for every interleaving, up to the first failure.", "quantifier": "all interleavings of reads and writes", "why_tests_cant": "unbounded interleavings", "anchors": ["src/minimal.rs:try_clone", "src/minimal.rs:write_message", "src/minimal.rs:read"]}
{"id": "C35", "title": "Configuration freeze", "statement": "After a successful try_clone, change_config fails on the original, on the clone and on all further clones forever and the configuration never changes; before any clone it always succeeds. In the complete mode the configuration in force at any time is the one of the last successful change_config or else the one given at creation.", "quantifier": "all histories of both modes", "why_tests_cant": "all continuations", "anchors": ["src/minimal.rs:change_config", "src/minimal.rs:try_clone", "src/complete.rs:change_config", "src/complete.rs:try_clone"]}
{"id": "C36", "title": "Clones share one number space", "statement": "If original and clone both write, their messages carry colliding sequence numbers and any receiver delivers at most one message per number; replay protection is per clone: a message delivered by the original is delivered again by the clone.", "quantifier": "all states and payloads", "why_tests_cant": "all states", "anchors": ["src/minimal.rs:try_clone", "src/minimal.rs:write_message"]}
{"id": "C37", "title": "Complete-mode round trip", "statement": "What write_connect_msg_bin/write_ack_msg_bin/write_bin send is delivered by the peer's read_bin with exactly the same custom data; absent, empty and non-empty data are distinguished.", "quantifier": "all payloads, all compression levels and thresholds", "why_tests_cant": "unbounded payloads and configurations", "anchors": ["src/complete.rs:compress", "src/complete.rs:uncompress", "src/complete.rs:read_bin", "src/complete.rs:write_bin"]}
{"id": "C38", "title": "Compression policy", "statement": "Data shorter than compression_min_size is sent uncompressed (level none), anything else at the configured level; changing the configuration never affects what the peer decodes.", "quantifier": "all configurations and lengths", "why_tests_cant": "all lengths and thresholds", "anchors": ["src/complete.rs:compress"]}
{"id": "C39", "title": "Complete mode signs with the announced key", "statement": "write_connect_msg_bin and write_ack_msg_bin output the message followed by a signature over exactly that message which verifies under the key announced in the CONNECT.", "quantifier": "all seeds and payloads", "why_tests_cant": "all keys", "anchors": ["src/complete/writer.rs:sign_bin_msg_and_write_sig", "src/complete/writer.rs:write_connect_msg", "src/complete/writer.rs:write_ack_msg"]}
{"id": "C40", "title": "Complete-mode clones cannot negotiate", "statement": "On a clone write_connect_msg* and write_ack_msg* always write nothing and fail with ConnectMsgAlreadyWritten (or with the serialisation error of their custom data, which is serialised first); user messages are written and delivered exactly as by the original.", "quantifier": "all states", "why_tests_cant": "all states", "anchors": ["src/complete.rs:try_clone", "src/complete/writer.rs:write_connect_msg", "src/complete/writer.rs:write_ack_msg"]}
{"id": "C41", "title": "Early ACK is replayed after CONNECT", "statement": "In complete mode an ACK that arrives before the CONNECT while the peer key is unknown is silently kept and delivered in the same read_bin call as the CONNECT, right after it; a second early ACK fails the layer.", "quantifier": "all payloads and states", "why_tests_cant": "all states", "anchors": ["src/minimal.rs:take_ack_msg_recv_too_early", "src/complete.rs:read_bin"]}
{"id": "C42", "title": "Decompression failure", "statement": "If decompression of an authenticated payload fails, read_bin returns ZipError without failing the layer: the message is consumed (its number cannot be delivered again), and for an ACK the pending early user messages stay undelivered (finding).", "quantifier": "all payloads that do not decompress", "why_tests_cant": "all payloads", "anchors": ["src/complete.rs:read_bin", "src/complete.rs:uncompress"]}
{"id": "C43", "title": "Format tags", "statement": "The 4-byte format tag identifies the format uniquely: tags of different formats differ, decoding a tag yields the format for every enabled feature set, and every other byte string is rejected with UnknownMessageFormat.", "quantifier": "all byte strings and all feature sets", "why_tests_cant": "all byte strings", "anchors": ["src/format.rs"]}
{"id": "C44", "title": "Serde round trip is self-describing", "statement": "A value written with any supported format is deserialised to the same value by any receiver whose build enables that format, regardless of the receiver's own configured format.", "quantifier": "all values, formats and receiver configurations", "why_tests_cant": "all values", "anchors": ["src/complete/serde/serializer.rs:serialize", "src/complete/serde/deserializer.rs:deserialize"]}
{"id": "C45", "title": "Unsupported formats in the serde API", "statement": "With format RawBinary the serde write functions return UseSuffixedBinFunctions, write nothing and leave the layer untouched; Utf8PlainText panics (unimplemented); received data shorter than 4 bytes is MessageTooShort, raw binary data UseSuffixedBinFunctions, plain text a panic; all messages returned by that read are lost (finding).", "quantifier": "all values, states, and inputs", "why_tests_cant": "all states", "anchors": ["src/complete/serde/serializer.rs:serialize_inner", "src/complete/serde/deserializer.rs:deserialize", "src/complete/serde/deserializer.rs:deserialize_inner"]}
{"id": "C46", "title": "Ok means written: user messages", "statement": "If write_message/write_bin returns Ok, the whole ciphertext and tag are in the stream in order, for every underlying writer (short writes, interruptions, errors) as long as the BufWriter capacity exceeds 16 bytes; with a smaller buffer the tag can be silently truncated.", "quantifier": "all underlying writer behaviours, all buffer sizes and contents", "why_tests_cant": "writer schedules are unbounded", "anchors": ["src/encryption/chacha20_poly1305_aead.rs:encrypt", "src/minimal.rs:encrypt_and_write"]}
{"id": "C47", "title": "Ok means written: CONNECT and ACK (violated for large messages)", "statement": "Expected: if write_connect_msg*/write_ack_msg* returns Ok the whole message and signature are in the stream. True when the message is shorter than the BufWriter capacity (and the capacity exceeds 64); false for larger messages over a writer that accepts only part of the data. Exactly which answers and which parts of message and signature can end up in the stream, over all writers, is stated as well.", "quantifier": "all underlying writer behaviours", "why_tests_cant": "writer schedules are unbounded", "anchors": ["src/complete/writer.rs:write_connect_msg", "src/complete/writer.rs:sign_bin_msg_and_write_sig"]}
{"id": "C48", "title": "Writer failure", "statement": "If the writer fails during write_message the layer is failed for good and nothing more is ever written; the sequence number is never reused. If it fails during CONNECT/ACK the negotiation step is consumed: the message cannot be created again.", "quantifier": "all writer failures", "why_tests_cant": "all failure points", "anchors": ["src/minimal.rs:write_message", "src/complete/writer.rs:write_connect_msg"]}
{"id": "C49", "title": "Sequence numbers are never reused (violated at 2^64)", "statement": "Expected: no layer writes two messages under one number and no receiver delivers one message twice, for any number of messages. True for the first 2^64 messages. With overflow checks the write of number 2^64-1 panics after the message was written and the number is not consumed, so every further write reuses it; without overflow checks the sender starts again at 0, and a receiver that has accepted all numbers accepts all of them again.", "quantifier": "all states at the boundary", "why_tests_cant": "2^64 messages cannot be sent in a test", "anchors": ["src/minimal.rs:write_message", "src/minimal.rs:read_inner"]}
{"id": "C50", "title": "Half-open failure isolation", "statement": "Functions that fail before touching the state (change_config, try_clone, create_* and write_connect_msg*/write_ack_msg* in the wrong state, serde errors) leave the layer exactly as it was and write nothing, except write_message before negotiation, which writes nothing but fails the layer.", "quantifier": "all states and arguments", "why_tests_cant": "all states", "anchors": ["src/status.rs:apply_action", "src/minimal.rs:create_connect_message", "src/minimal.rs:create_ack_message"]}
{"id": "C51", "title": "A forged early ACK has no lasting effect (violated)", "statement": "Expected: an ACK that the peer did not sign never disturbs the negotiation. While the peer's key is unknown an unsigned ACK is kept unchecked; the genuine early ACK then fails the layer, or the genuine CONNECT is consumed but reported as InvalidHashOrSig instead of being delivered, or, with an absurd length field, the call that reads the genuine CONNECT panics. With the peer's key configured a forged ACK has no effect at all.", "quantifier": "all forged ACKs, all states", "why_tests_cant": "all attacker messages", "anchors": ["src/minimal.rs:read_inner", "src/minimal.rs:take_ack_msg_recv_too_early", "src/complete.rs:read_bin"]}
{"id": "C52", "title": "A negotiated session is vouched for by the peer's signatures", "statement": "Whenever a layer can write user messages or be cloned, and before it hands over any user message, its inputs contain a CONNECT and an ACK that verify under one and the same key (the expected one, if one was configured); the CONNECT announces an ephemeral key, the ACK answers this layer's own ephemeral key, and the session secret is the one derived from exactly these two ephemeral keys. Holds for the minimal and the complete mode, for the layer and all its clones, for an active network attacker.", "quantifier": "all histories of calls and inputs, layers and clones", "why_tests_cant": "quantifies over every history with an active attacker", "anchors": ["src/minimal.rs:read_inner", "src/message.rs:compute_agreement", "src/complete.rs:read_bin"]}
{"id": "C53", "title": "Complete mode: each negotiation step once and in order", "statement": "Over the whole life of a layer and its clones at most one CONNECT and one ACK are written and at most one of each is handed over by read_bin/read; the ACK is written only after a correctly signed CONNECT was read; an ACK is handed over only after the own CONNECT was written; user messages are written or handed over only after both own messages were written.", "quantifier": "all histories of the complete-mode API (binary and serde)", "why_tests_cant": "unbounded histories", "anchors": ["src/complete.rs:read_bin", "src/complete/writer.rs:write_connect_msg", "src/complete/writer.rs:write_ack_msg", "src/status.rs:apply_action"]}
{"id": "C54", "title": "Complete mode: everything handed over is genuine", "statement": "Every message returned by read_bin or read was signed (CONNECT, ACK) or sealed with the session secret (user messages), under the expected key if configured, the ACK answering this layer's own ephemeral key; its data are exactly the decompressed and, for read, deserialised data of that message.", "quantifier": "all histories, all inputs", "why_tests_cant": "adversarial inputs", "anchors": ["src/complete.rs:read_bin", "src/complete.rs:uncompress", "src/complete/serde/deserializer.rs:deserialize"]}
{"id": "C55", "title": "Complete mode: at most once and only what was written", "statement": "The user messages that read_bin and read hand over in the whole life of a layer (including those delivered behind the ACK) have pairwise different sequence numbers; if only the messages W were sealed with the session secret, they form a sub-multiset of W, whatever the network drops, repeats, reorders or inserts.", "quantifier": "all histories of up to 2^64 inputs (or with overflow checks), all schedules of the network", "why_tests_cant": "unbounded histories with an active network", "anchors": ["src/complete.rs:read_bin", "src/minimal.rs:read_inner", "src/minimal.rs:drain_tmp_stack_user_msgs"]}
{"id": "C56", "title": "Complete mode: failure is final and only fatal errors fail", "statement": "After an error of read_bin that is not among the five non-fatal ones nor ZipError, also when it comes up while a kept ACK or early messages are processed, the layer is failed: nothing is handed over, nothing written, no clone made by any later call. No other outcome of read_bin fails a layer.", "quantifier": "all inputs, all states, all later calls", "why_tests_cant": "all continuations", "anchors": ["src/complete.rs:read_bin", "src/status.rs:apply_action", "src/minimal.rs:read_inner"]}
{"id": "C57", "title": "One key agreement per ephemeral key", "statement": "The X25519 private key of a layer takes part in at most one key agreement, with the ephemeral key announced in a CONNECT that was read and carries a valid signature (by the expected key, if configured). Without such a CONNECT the private key is never used. Formally: every observable outcome of a history is unchanged if the agreement function is replaced everywhere except at that one point.", "quantifier": "all histories of both modes, all replacements of the agreement function", "why_tests_cant": "quantifies over every history and shows the absence of a use", "anchors": ["src/minimal.rs:compute_shared_secret", "src/minimal.rs:read_inner", "src/agreement.rs:compute_shared_secret"]}
{"id": "C58", "title": "Two signatures per layer", "statement": "The signature key of a SecureLayer signs at most two byte strings in the life of the layer and its clones: one CONNECT frame with the layer's own keys and one ACK frame for the ephemeral key of a correctly signed CONNECT that was read. Formally: every observable outcome of a history is unchanged if the signing function is replaced for all other byte strings.", "quantifier": "all histories of the complete-mode API, all replacements of the signing function", "why_tests_cant": "quantifies over every history and shows the absence of a use", "anchors": ["src/complete/writer.rs:write_connect_msg", "src/complete/writer.rs:write_ack_msg", "src/complete/writer.rs:sign_bin_msg_and_write_sig"]}
{"id": "C59", "title": "Agreement with an honest peer despite an active attacker", "statement": "If a layer expects the key of an honest peer, is negotiated (it can write, be cloned, or has handed over a user message), and everything it read that verifies under that key was written by the peer's layers, then its secret comes from the ephemeral key of a layer of that peer, and some layer of the peer read a signed CONNECT for this layer's ephemeral key (up to SHA-256 collisions) and derived its secret from it. If the peer uses its key in one session only, both hold the same secret.", "quantifier": "all histories of both parties, all attacker inputs, both APIs", "why_tests_cant": "quantifies over every active attack on every schedule", "anchors": ["src/minimal.rs:read_inner", "src/complete/writer.rs:write_connect_msg", "src/complete/writer.rs:write_ack_msg", "src/complete.rs:read_bin"]}
{"id": "C60", "title": "Only the peer can end a session (violated)", "statement": "Expected: bytes that the peer did not produce, and repeated deliveries of bytes it did produce, never end a session. False: the magic value followed by another version number ends every session, and so does any string of 16 bytes or more that is neither clear nor encrypted with the session key, a genuine message with a wrong tag, and a second delivery of the peer's own CONNECT or ACK. True part: the exact set of inputs that end a session; all other input (replayed or damaged user messages, messages with invalid signatures, challenges or keys) is survived.", "quantifier": "all inputs, all reachable states, both APIs", "why_tests_cant": "all inputs in all states", "anchors": ["src/minimal.rs:read_inner", "src/reader.rs:read", "src/status.rs:apply_action"]}
{"id": "C61", "title": "Everything handed over was written by the peer or by the layer itself", "statement": "Assume that what is sealed with the session secret was written by layers that hold it. Then the user data that read_bin and read hand over in the whole life of a layer and its clones form a sub-multiset of the user data that those layers wrote: an active network can drop, reorder, repeat and insert, but nothing altered, invented or repeated is handed over. The same holds for values of the serde API with one codec. For a layer that expects an honest peer with one session, unforgeable signatures are enough to know that the holders are this layer and the peer.", "quantifier": "all histories of all parties, all attacker inputs, both APIs", "why_tests_cant": "quantifies over every active attack on every schedule", "anchors": ["src/complete.rs:read_bin", "src/complete.rs:write_bin", "src/minimal.rs:read_inner", "src/complete/serde/deserializer.rs:deserialize"]}
{"id": "C62", "title": "A network that loses, repeats and reorders (exact outcome)", "statement": "For a freshly negotiated layer and any list of user messages written by the peer, in any order, with any of them missing or repeated, the answers of read_bin are determined: every message is handed over unchanged when it arrives for the first time, repetitions are refused with InvalidNonce, and the session survives if and only if no message, arrived or lost, is overtaken by more than 10000 different later ones. Otherwise it ends with TooManyUnorderedMsgs at the first message that is too far ahead, and everything after that is refused. In particular a single lost message ends the session once 10001 later ones have arrived (finding). The same holds for values written with write and read with read, if the reader's build knows the formats that were in force when they were written.", "quantifier": "all schedules of the network (any loss, repetition, order), all contents, all sessions", "why_tests_cant": "unbounded schedules; the limit needs more than 10000 messages", "anchors": ["src/minimal.rs:read_inner", "src/complete.rs:read_bin", "src/complete.rs:write_bin", "src/minimal.rs:write_message"]}
{"id": "C63", "title": "Client and server look the same", "statement": "The README promises a perfectly symmetrical negotiation in which an observer cannot tell the client (which knows the peer's signature key in advance) from the server (which does not). For two honest parties over a network that delays and reorders: the systems that differ only in who expects whose key can be run side by side, call by call, with the same bytes under way, the same bytes written and the same bytes arrived all the time; a party that has been handed the CONNECT is even in the identical state and has been handed the same. The only difference, invisible on the wire, is when an ACK that overtakes its CONNECT is handed over: at once by the client, behind the CONNECT by the server.", "quantifier": "all schedules, all roles, all data and configurations", "why_tests_cant": "equality of all pairs of runs", "anchors": ["src/minimal.rs:create", "src/minimal.rs:read_inner", "src/complete.rs:read_bin", "README.md:Negotiation stage"]}
{"id": "C64", "title": "Two honest applications of the serde API", "statement": "Two applications that use write_connect_msg, write_ack_msg, write and read (each with its own configuration, changing at any time, and each with its own build) over a network that delays and reorders: if every message is written in a format that the peer's build knows, no call of read ever fails, every message under way is handed over, every value is delivered exactly once and unchanged, and a session can always be completed.", "quantifier": "all schedules, all values, all formats and configurations", "why_tests_cant": "unbounded interleavings of two parties", "anchors": ["src/complete/writer.rs:write_connect_msg", "src/complete/writer.rs:write_ack_msg", "src/complete.rs:write", "src/complete.rs:read", "src/complete/serde/deserializer.rs:deserialize", "src/complete/serde/serializer.rs:serialize"]}
{"id": "C65", "title": "Debug output does not disclose secrets (violated)", "statement": "Expected: the text that {:?} prints for a SecureLayer or MinimalSecureLayer (both derive Debug, so that they can be logged) discloses none of the secrets of the session. False: it contains the session key, so that whoever sees one such text can read every user message of the session and make messages that the party accepts. True part: the ephemeral private key and the signature seed enter the text only through their public keys, as far as ring does not print them, and before a signed CONNECT has arrived there is no session key in the text.", "quantifier": "all layers in all states, all texts that ring prints for its types, all messages of the session", "why_tests_cant": "quantifies over all states; concerns what can be computed from a text", "anchors": ["src/minimal.rs:MinimalSecureLayer", "src/complete.rs:SecureLayer", "src/encryption.rs:EncryptAlgoWithSecretKey", "src/encryption/chacha20_poly1305_aead.rs:SecretKey"]}
{"id": "C66", "title": "Messages cannot be confused with their neighbours", "statement": "The bytes written by write_connect_msg, write_ack_msg and write are a prefix code: no complete message of a session is the beginning of another one, so a recorded byte stream determines the messages it consists of. Input that is cut at the wrong places (a message with a part missing, or with the next one behind it) is never misinterpreted: neither read_bin nor read nor the minimal read hands anything over for it. A CONNECT or ACK with something behind it is refused with InvalidHashOrSig and can still be read correctly afterwards; a user message that is cut wrongly ends the session. (Exception of finding F4: a session key whose keystream begins with four zero bytes.)", "quantifier": "all histories of the writing parties, all ways to cut the stream, all states of the reader", "why_tests_cant": "quantifies over all messages and all cuts", "anchors": ["src/reader.rs:read", "src/message.rs:to_bytes", "src/complete.rs:read_bin", "src/complete/writer.rs:write_connect_msg", "src/complete/writer.rs:write_ack_msg", "src/minimal.rs:write_message"]}
{"id": "C67", "title": "Reading and writing at the same time", "statement": "Two honest applications over a network that delays and reorders, each of which may at any time try to divide its layer with try_clone and then use one of the two for writing and the other one for reading (in two threads, with calls interleaving arbitrarily, in either role, and with further clones taking their places): try_clone succeeds as soon as user messages can be written and not before, and everything the applications observe could have been observed with undivided layers. In particular no call of read_bin fails, every message is handed over exactly once, and writing always works. CONNECT, ACK and change_config are refused on both layers without effect. If the network exceeds the reordering limit, the reading layer fails and the writing one does not.", "quantifier": "all schedules, all points in time of dividing, all roles, all data and configurations", "why_tests_cant": "unbounded interleavings of four threads", "anchors": ["src/minimal.rs:try_clone", "src/complete.rs:try_clone", "src/complete.rs:read_bin", "src/complete.rs:write_bin", "src/complete.rs:change_config"]}
{"id": "C68", "title": "The binary and the serde API share one session", "statement": "read_bin/read and write_bin/write (and the two forms of write_connect_msg and write_ack_msg) of one SecureLayer can be mixed freely: every call of the serde API has the same effect on the layer and writes the same bytes as one call of the binary API with the format tag and the encoded value, or, for a value that cannot be encoded, as no call at all. So every history of a layer amounts to a history of the binary API alone, and a message that one of the functions has handed over is not handed over by the other. A peer that uses the other API sees tag and encoding, or gets exactly the value or the documented error. Consequence (finding): a message that read cannot decode is used up; it cannot be fetched with read_bin afterwards.", "quantifier": "all histories that mix both APIs, all values, codecs, formats and builds", "why_tests_cant": "unbounded interleavings of two APIs", "anchors": ["src/complete.rs:read", "src/complete.rs:read_bin", "src/complete.rs:write", "src/complete.rs:write_bin", "src/complete/serde/deserializer.rs:deserialize", "src/complete/serde/serializer.rs:serialize"]}
{"id": "C69", "title": "User messages cannot be made without the session key (violated)", "statement": "Expected: whoever does not hold the session key cannot make a byte string that a layer of the session hands over as a message of its peer. False: all messages of a session carry Poly1305 tags made with the same one-time key, so somebody who has recorded two different messages of about the same length (the same number of 16-byte blocks) and knows the content of one of them can compute, for any content and number of about that length, at most 16 byte strings per block, one of which every freshly negotiated layer of the session hands over. True part: from one recorded message alone nothing can be made: any other given input is handed over for a fraction of at most about (length/16)/2^103 of the one-time keys that agree with the recorded tag.", "quantifier": "all sessions, all recorded messages, all contents to be forged; all one-time keys", "why_tests_cant": "concerns everything an attacker could compute; counting over 2^256 keys", "anchors": ["src/encryption/chacha20_poly1305_aead.rs:encrypt", "src/encryption/chacha20_poly1305_aead.rs:decrypt", "src/minimal.rs:write_message", "src/encryption/chacha20_poly1305_aead.rs:SecretKey"]}
{"id": "C70", "title": "Debug and release builds, and builds with different features, behave alike", "statement": "Every call of the complete-mode API has the same effect, the same output and the same result in builds with and without overflow checks, except where the checked build panics with an overflow; so a history of a checked build without such a panic is a history of a release build, and a history of a release build is one of a checked build up to the first such panic. The cargo features bin, cbor and json change nothing but the answers of read: a build with fewer of them answers UnknownMessageFormat for a format it does not know, with the same effect on the layer, and otherwise the same.", "quantifier": "all calls in all states, all histories, all builds", "why_tests_cant": "compares every execution of different builds; a test suite runs one build", "anchors": ["src/reader.rs:read", "src/encryption/chacha20_poly1305_aead.rs:decrypt", "src/minimal.rs:read_inner", "src/minimal.rs:write_message", "src/format.rs:try_from", "src/complete/serde/deserializer.rs:deserialize", "Cargo.toml:features"]}
{"id": "C71", "title": "Which call is allowed when", "statement": "The answers of the functions that an application calls itself are determined by the answers it has had so far, so that it can keep track of the session without looking into the layer. The session is over once a read function has returned an error that is not one of the non-fatal ones (or, in complete mode, about the content of a message), or a write of a user message has returned an error (other than about its encoding); nothing else ends it. While it is not over, CONNECT can be written exactly once; ACK exactly once, from the moment at which the peer's CONNECT has been handed over; user messages and clones from the moment at which both own messages have been written and both of the peer's handed over; afterwards CONNECT, ACK and user messages are refused with ConnectionHadFail and clones with NegoMustHaveBeenSuccessful. The configuration can be changed until the first successful try_clone. Each refusal carries the documented error. Assumed: the writer takes everything, fewer than 2^64 messages are written, values can be encoded, and no negotiation message is lost to the application by a panic or by an error while it is processed.", "quantifier": "all histories of the minimal mode and of both APIs of the complete mode, all data, both builds", "why_tests_cant": "relates every call to the whole history before it", "anchors": ["src/minimal.rs:create_connect_message", "src/minimal.rs:create_ack_message", "src/minimal.rs:write_message", "src/minimal.rs:try_clone", "src/minimal.rs:change_config", "src/status.rs:apply_action", "src/complete/writer.rs:write_connect_msg", "src/complete/writer.rs:write_ack_msg", "src/complete.rs:write_bin"]}
{"id": "C72", "title": "Forward secrecy", "statement": "The long-term signature key plays no part in protecting the content of a session, so learning it later does not help to read recorded sessions: with any other signature key every history of a complete-mode layer (and of its clones) goes the same way, with the same results, the same session secret, the same state and the same bytes of every user message; only the bytes of the CONNECT and ACK message are others, and as many. The private ephemeral key is gone from the layer as soon as the layer has a session secret, in particular once it has handed over a CONNECT message, and no later call brings it back; the same holds for clones.", "quantifier": "all histories, all replacement keys, all adversarial inputs and writers", "why_tests_cant": "relates two unbounded executions; a unit test sees one key and one run", "anchors": ["src/minimal.rs:compute_shared_secret", "src/complete.rs:create", "src/complete/writer.rs:write_connect_msg", "src/complete/writer.rs:write_ack_msg", "src/complete/writer.rs:sign_bin_msg_and_write_sig"]}
{"id": "C73", "title": "The answer of read to every input", "statement": "For every byte string and every reachable state the answer of read is determined by the bytes, what the layer was created with and what it knows (its status, the peer's key, the session key, the numbers it has seen), as written down in a table: which of the errors of the README is returned, in which order the checks apply if several of them would fail, when a message is handed over and with which content, and when the call panics. Exactly one row of the table applies. read_bin passes the answer on: errors and panics unchanged, an empty list for a message that is stored, and otherwise the message with decompressed content or ZipError.", "quantifier": "all byte strings, all reachable states, both builds, both modes", "why_tests_cant": "all inputs in all states; tests sample both", "anchors": ["src/minimal.rs:read_inner", "src/minimal.rs:read", "src/reader.rs:read", "src/status.rs:apply_action", "src/complete.rs:read_bin"]}
{"id": "C74", "title": "Error catalogue", "statement": "Every function of the API returns exactly the errors of a fixed list, and each of the list can occur. For example: taking a stored ACK yields only ConnectionHadFail, InvalidHashOrSig or UnexpectedAckMsg; write yields only ConnectionHadFail, NegoMustHaveBeenSuccessful or FailToEncryptData; the functions of the complete mode add ZipError, BufferFlushError and, for the typed functions, MessageTooShort, UnknownMessageFormat and the errors of those codecs that the build contains. In a build without codecs the typed write can only answer UseSuffixedBinFunctions. write_ack_msg on a clone answers ConnectMsgAlreadyWritten. Errors declared but not on any list (WrittenLenError, WriteError, key generation, ...) are never returned.", "quantifier": "all histories, all layers and primitives (that no other error occurs); some history with lawful primitives (that each occurs)", "why_tests_cant": "that an error never occurs quantifies over all histories", "anchors": ["src/minimal.rs:read_inner", "src/minimal.rs:take_ack_msg_recv_too_early", "src/minimal.rs:drain_tmp_stack_user_msgs", "src/minimal.rs:write_message", "src/complete.rs:read_bin", "src/complete/writer.rs:write_ack_msg", "src/complete/serde/serializer.rs:serialize", "src/complete/serde/deserializer.rs:deserialize", "src/errors.rs:Error"]}
{"id": "C75", "title": "Equally long contents look equally long (violated with compression)", "statement": "Expected: the length of a message on the wire tells nothing about its content but its length. True in minimal mode, where a user message has 74 bytes more than its content, a CONNECT message 86 and an ACK message 50, and in complete mode for messages that are not compressed. False for compressed messages: a user message has 74 bytes more than its content after compression, so somebody who sees nothing but the number of bytes tells which of two equally long contents was sent whenever they do not compress equally well.", "quantifier": "all histories, all contents, all configurations", "why_tests_cant": "quantifies over all contents and what can be computed from the length", "anchors": ["src/complete.rs:compress", "src/complete.rs:write_bin", "src/minimal.rs:write_message", "src/message.rs:MessageRef::to_bytes", "src/encryption/chacha20_poly1305_aead.rs:encrypt"]}
{"id": "C76", "title": "The two modes understand each other", "statement": "A program that uses the minimal mode, and signs its CONNECT and ACK messages itself, can talk to one that uses the complete mode. The negotiation succeeds with one and the same session secret for both. What the minimal side sends as content arrives unpacked at the complete side: empty content as none, a DEFLATE stream as what is packed in it; other content gives ZipError, but the step of the negotiation or the session is not lost. What the complete side sends arrives at the minimal side as a DEFLATE stream, packed with the level that the configuration of the sender gives for its size, also if it is empty.", "quantifier": "all histories of both sides, all configurations, contents, keys, readers and writers", "why_tests_cant": "quantifies over all histories, contents and configurations of two sides with different APIs", "anchors": ["src/complete.rs:read_bin", "src/complete.rs:write_connect_msg_bin", "src/complete.rs:write_ack_msg_bin", "src/complete.rs:write_bin", "src/complete.rs:compress", "src/complete.rs:uncompress", "src/minimal.rs:create_connect_message", "src/minimal.rs:create_ack_message", "src/minimal.rs:write_message", "src/minimal.rs:read"]}

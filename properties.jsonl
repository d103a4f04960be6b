{"id": "C01", "title": "First-seen, append-only key event log", "statement": "Once EventProcessor::process has accepted a key event, that event stays in the identifier's KEL at the same position for ever: any later sequence of process calls (events, receipts, replies; accepted or rejected) only appends to the log returned by get_kerl / get_event_at_sn, it never removes, reorders or replaces an entry.", "quantifier": "every finite history of processor calls on an initially empty database, every identifier", "why_tests_cant": "history length and message mix are unbounded; a failing event is inserted and then removed by value, so absence of collateral removal depends on the whole log", "anchors": ["src/processor/mod.rs::EventProcessor::process_event", "src/database/sled/mod.rs::remove_kel_finalized_event", "src/database/sled/tables.rs::SledEventTreeVec::remove"]}
{"id": "C02", "title": "Every logged event is signed by the keys in force", "statement": "Every event present in a KEL carries signatures, with pairwise distinct in-range key indices, that satisfy the signing threshold of the key configuration in force once that event is applied, and each of which verifies under the indexed public key - or it was left there by a process call that did not return Ok: one that panicked, could not encode the event, or could not delete it again because some text in it does not parse back (such leftovers do occur). A KEL fed only with encodable events whose texts parse back and whose signature indices name keys contains signed events only.", "quantifier": "every finite history of process calls that return (no panic, no crash), every identifier and every event of its KEL", "why_tests_cant": "quantifies over all adversarial messages and all histories", "anchors": ["src/processor/mod.rs::EventProcessor::process_event", "src/event/sections/key_config.rs::KeyConfig::verify"]}
{"id": "C03", "title": "KEL is contiguous and starts with one inception", "statement": "The KEL of an identifier is empty or consists of one inception event with sn 0 followed by non-inception events with sn 1,2,3,... in order without gaps or repetitions, all carrying that identifier.", "quantifier": "every reachable database, every identifier", "why_tests_cant": "must hold for every history; tests only exercise a few orders", "anchors": ["src/processor/mod.rs::EventProcessor::process_event", "src/event/mod.rs::Event::apply_to"]}
{"id": "C04", "title": "Digest chaining", "statement": "Every non-inception event of a KEL names as its prior digest exactly the digest of the event before it in that KEL.", "quantifier": "every reachable database, identifier and position", "why_tests_cant": "An adversary chooses the events and their order; a test sees a few orders, the chain must hold after every one of them and at every position of logs of any length.", "anchors": ["src/event_message/key_event_message.rs::EventMessage<KeyEvent>::apply_to"]}
{"id": "C05", "title": "Pre-rotation is enforced", "statement": "A rotation (plain or delegated) enters a KEL only if its key list and threshold hash to the next-key commitment published by the last establishment event; in particular once an establishment event publishes no commitment, no rotation is ever accepted again for that identifier.", "quantifier": "every reachable database, every identifier, every later history", "why_tests_cant": "abandonment is a statement about all future histories", "anchors": ["src/event/event_data/rotation.rs::RotationEvent::apply_to", "src/event/sections/key_config.rs::KeyConfig::verify_next"]}
{"id": "C06", "title": "What the pre-rotation commitment binds", "statement": "verify_next accepts exactly the (threshold, key list) pairs whose commitment - the byte-wise xor of the digests of the threshold text and of each key text - equals the stored one. For one key and a known threshold that binds the key unless the digest function collides; for lists it does not bind: for every digest function the order of the keys is irrelevant, a pair of equal keys can be added, and whoever finds keys with suitable digests opens any commitment.", "quantifier": "all thresholds, key lists and digest functions", "why_tests_cant": "It quantifies over all key lists and hash functions; commitments are xors of digests, and the collisions that follow are not found by examples.", "anchors": ["src/event/sections/key_config.rs::nxt_commitment"]}
{"id": "C07", "title": "What a rejected event changes", "statement": "When process returns an error for an encodable key event whose texts parse back, every KEL, every receipt table and the answer of compute_state for every other identifier and for every identifier with a non-empty KEL is the same as before the call; the one change is that compute_state of an identifier without events can turn from None into the default state. (An event whose texts do not parse back can stay in the log, C02.)", "quantifier": "every reachable database, every event", "why_tests_cant": "all events and all prior states; the code inserts before verifying", "anchors": ["src/processor/mod.rs::EventProcessor::process_event"]}
{"id": "C08", "title": "compute_state is the fold of the KEL and equals what process returned", "statement": "After process accepts an event whose texts all parse back, compute_state of that identifier returns exactly the state that process returned, namely the result of applying the whole KEL in order to the empty state; after it accepts an event with a text that does not parse back (a secp256k1 key, a signature index of 63 or more), compute_state crashes.", "quantifier": "every reachable database, every accepted event", "why_tests_cant": "compute_state sorts, skips and breaks; agreement must hold for every log", "anchors": ["src/processor/mod.rs::EventProcessor::compute_state"]}
{"id": "C09", "title": "Replay of a KEL reproduces the state", "statement": "Feeding the stored events of a non-delegated identifier, if they can be read and are signed, in order to a processor with an empty database is accepted event by event and gives the same state and the same KEL; the stored form of a delegated event is refused by every processor, whatever its database.", "quantifier": "every reachable KEL of every length", "why_tests_cant": "Logs have any length and any mix of event kinds; a test replays a handful of logs of fixed shape.", "anchors": ["src/processor/mod.rs::EventProcessor::get_kerl", "src/processor/mod.rs::EventProcessor::process_event", "src/event_message/signed_event_message.rs::SignedEventMessage"]}
{"id": "C10", "title": "Identifiers are isolated", "statement": "Processing any message about one identifier leaves the KEL, receipts, escrows, replies and computed state of every other identifier unchanged.", "quantifier": "every reachable database, every message, every pair of identifiers", "why_tests_cant": "Identifiers share numeric table keys allocated at run time in an order strangers choose; every pair of identifiers and every history is meant.", "anchors": ["src/database/sled/mod.rs::SledEventDatabase", "src/database/sled/tables.rs::SledEventTree::designated_key"]}
{"id": "C11", "title": "Duplicate submission is rejected without effect", "statement": "An event with an sn that is already in the log, whatever its content, is never accepted and nothing at all is written. Resubmitting a plain event of a readable log is answered with the duplicate error; so is a conflicting event at a used number if it is an interaction, a plain rotation of an identifier without a delegator or an inception bound to its identifier, while a plain rotation of a delegated identifier and an unbound inception get a semantic error.", "quantifier": "every reachable database, every already logged sn, every event content", "why_tests_cant": "The event may be resubmitted at any later time and in any later state; the histories in between are unbounded.", "anchors": ["src/event/mod.rs::Event::apply_to", "src/processor/mod.rs"]}
{"id": "C12", "title": "Duplicitous events are never recorded", "statement": "Contrary to what get_duplicious_events and get_likely_duplicitous_events promise, no history whatsoever - whatever conflicting, validly signed events it contains - makes them return anything: both tables stay empty for ever.", "quantifier": "every reachable database and every conflicting event", "why_tests_cant": "The claim is that the recording branch is never reached, by any input in any state.", "anchors": ["src/processor/mod.rs::EventProcessor::process_event", "src/database/sled/mod.rs::add_duplicious_event"]}
{"id": "C13", "title": "Out-of-order events are refused", "statement": "An event whose sn is more than one above the identifier's current sn is never accepted and nothing at all is written. On a readable non-empty log an interaction, or a rotation of an identifier without a delegator, gets the out-of-order error; an interaction for an identifier without events gets a semantic error instead.", "quantifier": "every reachable database, every event", "why_tests_cant": "Every state and every sequence number up to 2^64 is meant; a test tries a few gaps.", "anchors": ["src/event/mod.rs::Event::apply_to"]}
{"id": "C14", "title": "Delegated events need an anchor in the delegator's KEL", "statement": "A delegated inception or rotation is accepted, and found in a KEL, only if the delegator's KEL holds, at the sn named by the attached source seal, a rotation or interaction whose seal list contains an event seal whose digest names the delegated event. The identifier and sn inside that seal are not compared with the event, and the anchoring event may be one that was never verified (C24): both are exploitable.", "quantifier": "every reachable database, every delegated event", "why_tests_cant": "It speaks of all histories of two logs that grow independently, and of attackers who choose the seals.", "anchors": ["src/processor/mod.rs::EventProcessor::validate_seal"]}
{"id": "C15", "title": "Delegated and plain rotations never mix", "statement": "A KEL that begins with a delegated inception contains no plain rotation and one that begins with a plain inception contains no delegated rotation; the delegator recorded in the state never changes.", "quantifier": "every reachable KEL", "why_tests_cant": "The two kinds of rotation must not mix at any point of any history, whatever order they are submitted in.", "anchors": ["src/event_message/key_event_message.rs::EventMessage<KeyEvent>::apply_to"]}
{"id": "C16", "title": "Self-addressing identifiers are not bound to their inception content", "statement": "For a self-addressing identifier an inception event is logged only if its own digest field equals the identifier (for a delegated one: if the identifier names the event); the digest field itself is never compared with the content, so every inception content, with any keys, can be incepted under every self-addressing identifier that has no log yet.", "quantifier": "every inception event and digest function", "why_tests_cant": "All contents are meant: the identifier is only compared with the digest that the event itself carries, which no example with honest events shows.", "anchors": ["src/event_message/key_event_message.rs::verify_identifier_binding", "src/event_message/key_event_message.rs::EventMessage<KeyEvent>::check_digest"]}
{"id": "C17", "title": "Basic identifiers are bound to their key", "statement": "An inception event for a basic (public key) identifier is accepted only if its key list is exactly that one key, so the first signature check is against that key.", "quantifier": "every inception event", "why_tests_cant": "Inceptions may list any number of keys in any order; the binding must hold for every list.", "anchors": ["src/event_message/key_event_message.rs::verify_identifier_binding"]}
{"id": "C18", "title": "Event digests are not checked", "statement": "If process accepts a rotation or interaction, it also accepts - signed by the same keys over the changed bytes - the event with any other digest in its own digest field, and the resulting states differ in nothing but the recorded digest; events whose digest is not that of their content are accepted and logged.", "quantifier": "every history, every accepted plain rotation or interaction, every other digest", "why_tests_cant": "The claim is about every accepted event and every other digest one could put on it; a test shows one collision, not that nothing is ever checked.", "anchors": ["src/event_message/key_event_message.rs::EventMessage<KeyEvent>::check_digest"]}
{"id": "C19", "title": "Witness list evolution", "statement": "After a rotation the witness list is the old list without the cut witnesses followed by the added ones; a witness that is cut and not re-added is never a witness afterwards until a later rotation adds it; interaction events never change keys, threshold, commitment, witnesses, tally or delegator.", "quantifier": "every state and event; every KEL", "why_tests_cant": "Witness lists, cuts and adds are unbounded lists, applied over logs of any length.", "anchors": ["src/event/event_data/rotation.rs::RotationEvent::apply_to", "src/event/event_data/interaction.rs"]}
{"id": "C20", "title": "KeyConfig::verify accepts exactly the valid signature sets", "statement": "KeyConfig::verify returns Ok(true) iff the indices are in range and pairwise distinct, there are no more signatures than keys, the threshold is met by those indices, and every signature verifies under its indexed key; unless it panics it reports NotEnoughSigs iff the threshold is not met.", "quantifier": "every key list, threshold, message and signature list", "why_tests_cant": "Key lists, thresholds and signature lists are unbounded, and the claim is an equivalence: a test can neither try all accepted nor all refused sets.", "anchors": ["src/event/sections/key_config.rs::KeyConfig::verify"]}
{"id": "C21", "title": "Threshold semantics", "statement": "enough_signatures says yes to a numeric threshold iff there are at least that many signatures, and to a weighted one iff for every clause the weights of the presented key indices belonging to that clause (clauses own consecutive index ranges) sum to at least one as rational numbers, where a weight n/0 counts as infinite and any 0/0 among them makes the sum insufficient; a single-clause threshold panics iff an index lies outside the clause, a multi-clause one never panics; the answer does not depend on signature order.", "quantifier": "every clause list and every signature list", "why_tests_cant": "Clauses are lists of any length with arbitrary rational weights.", "anchors": ["src/event/sections/threshold.rs::MultiClauses::enough_signatures", "src/event/sections/threshold.rs::ThresholdClause::enough_signatures"]}
{"id": "C22", "title": "Thresholds are monotone", "statement": "Presenting additional signatures never turns a satisfied threshold into an unsatisfied one, provided no weight is 0/0 and (for single-clause thresholds) every index has a weight; with a 0/0 weight it can, and with an index outside a single clause the check panics.", "quantifier": "every threshold and every pair of signature lists one extending the other", "why_tests_cant": "It compares all pairs of signature lists, one extending the other, under all thresholds.", "anchors": ["src/event/sections/threshold.rs::SignatureThreshold::enough_signatures"]}
{"id": "C23", "title": "When signature checking crashes", "statement": "KeyConfig::verify panics iff a signature index lies outside a single-clause weight list, or the threshold is met by no more signatures than keys while some index is not the position of a key; so one attached signature with index 1 crashes the verification of a one-key identifier, and no list whose indices all name keys (and weights) ever does.", "quantifier": "every key configuration and every signature list", "why_tests_cant": "The signature lists are an attacker's; which of them crash the check (an index out of range) is a statement about all of them.", "anchors": ["src/event/sections/key_config.rs::KeyConfig::verify", "src/event/sections/threshold.rs::ThresholdClause::enough_signatures"]}
{"id": "C24", "title": "A panic in verification leaves the event in the log", "statement": "If handling an event panics, the event stays in the KEL exactly when it was applicable (the delegation check passed, the log is readable and the event applies to the current state) - that is, exactly when the panic came from the signature check or from reading the log after the insertion; otherwise the KEL is unchanged.", "quantifier": "every reachable database and event", "why_tests_cant": "The panic paths are reached by attacker inputs in any state; tests that panic are not followed by a look at the log.", "anchors": ["src/processor/mod.rs::EventProcessor::process_event"]}
{"id": "C25", "title": "Historical state queries", "statement": "compute_state_at_sn(id, sn) equals the state obtained by applying the KEL up to and including sn; its sn field is sn for every sn up to the current one, and for larger sn it equals compute_state. Once the log has reached sn, the answer for sn never changes, whatever is submitted afterwards (as long as the log can be read back).", "quantifier": "every reachable database, identifier and sn; all later submissions", "why_tests_cant": "Every number of every log is asked for at every later time; the past must not depend on what is submitted afterwards.", "anchors": ["src/processor/mod.rs::EventProcessor::compute_state_at_sn"]}
{"id": "C26", "title": "Last establishment seal", "statement": "For an identifier incepted without delegation and a readable KEL get_last_establishment_event_seal returns prefix, sn and digest of the last establishment event of the KEL; for a delegated identifier it returns None, whatever the KEL contains.", "quantifier": "every reachable KEL", "why_tests_cant": "All logs are meant; for delegated identifiers, which no test asks about, the answer is wrong.", "anchors": ["src/processor/mod.rs::EventProcessor::get_last_establishment_event_seal"]}
{"id": "C27", "title": "Last establishment data in the state", "statement": "The state's last-establishment record always holds the sn of the last establishment event. If that event is an inception the record is right; if it is a rotation, the recorded digest is that of the event before it, the added witnesses are recorded as cut (br) and the cut ones as added (ba).", "quantifier": "every reachable state", "why_tests_cant": "All logs are meant; after a rotation, which the test of the state does not look at, the data are wrong.", "anchors": ["src/event/event_data/rotation.rs::RotationEvent::apply_to", "src/state/mod.rs::LastEstablishmentData"]}
{"id": "C28", "title": "Transferable receipts are verified before being stored", "statement": "Every receipt returned by get_receipts_t verifies, under the key configuration established by the validator's event named in the receipt's seal, against the event logged at the receipted identifier and sn; hence has_receipt answers true only for such receipts.", "quantifier": "every reachable database and receipt", "why_tests_cant": "all histories of at least two identifiers", "anchors": ["src/processor/mod.rs::EventProcessor::process_validator_receipt", "src/processor/mod.rs::EventProcessor::has_receipt"]}
{"id": "C29", "title": "Witness receipts are not verified", "statement": "Every witness receipt returned by get_receipts_nt is about that identifier and a logged event, and the algorithms of its keys and signatures match; the signatures themselves are not verified: a couplet with any signature bytes of the right algorithm, under any key, is stored.", "quantifier": "every reachable database and receipt", "why_tests_cant": "The receipts are an attacker's: a check that answers Ok(false) counts as success, for every receipt.", "anchors": ["src/processor/mod.rs::EventProcessor::process_witness_receipt"]}
{"id": "C30", "title": "Receipts for unknown events are escrowed, never counted", "statement": "A receipt for an identifier/sn that is not logged goes to the matching escrow table only; no receipt ever changes a KEL or a computed key state.", "quantifier": "every reachable database, every receipt", "why_tests_cant": "Receipts may arrive before, between or after any events; all arrival orders are meant.", "anchors": ["src/processor/mod.rs::EventProcessor::process_validator_receipt", "src/processor/mod.rs::EventProcessor::process_witness_receipt"]}
{"id": "C31", "title": "Table-key allocation is injective and stable", "statement": "designated_key maps equal identifiers to equal keys for ever and different identifiers to different keys, so the database behaves like a map from identifiers to per-identifier lists.", "quantifier": "every sequence of database operations", "why_tests_cant": "Keys are allocated at run time, in an order an outsider chooses; two identifiers must not share a key after any sequence of operations.", "anchors": ["src/database/sled/tables.rs::SledEventTree::designated_key", "src/database/sled/tables.rs::SledEventTree::get_next_key"]}
{"id": "C32", "title": "Concurrent use of one database", "statement": "process calls that do not overlap behave as the sequential semantics. Overlapping ones are unsafe: two threads can make two identifiers share one table key (one log taken over by the other), put two events with the same sn into one KEL, both reported as accepted, and lose an event that was reported as accepted.", "quantifier": "every interleaving of two process calls", "why_tests_cant": "The outcome depends on the schedule: allocation and read-modify-write are not atomic, and tests do not control the interleaving.", "anchors": ["src/database/sled/tables.rs::SledEventTree::designated_key", "src/database/sled/tables.rs::SledEventTreeVec::push", "src/processor/mod.rs::EventProcessor::process_event"]}
{"id": "C33", "title": "Killing the process never damages a KEL", "statement": "If the process is killed at any point during any call, the KEL of every identifier found after restart is the old log or the old log plus the submitted event; through any number of calls and crashes logs stay contiguous, digest-chained and pre-rotated.", "quantifier": "every crash point, every call, every history of calls and crashes", "why_tests_cant": "A kill can strike between any two storage operations of any call after any history, and again during the next run; tests do not kill the process.", "anchors": ["src/processor/mod.rs::EventProcessor::process_event", "src/database/sled/mod.rs"]}
{"id": "C34", "title": "Base64 payload codec", "statement": "Decoding the URL-safe unpadded Base64 encoding of any byte string returns that byte string, and an accepted string without padding is the encoding of what it decodes to.", "quantifier": "all byte strings of every length", "why_tests_cant": "The domain is all byte strings of all lengths.", "anchors": ["src/prefix/mod.rs::Prefix::to_str", "src/derivation/attached_signature_code.rs"]}
{"id": "C35", "title": "Prefix text codec round-trips", "statement": "Parsing the text form of any basic, self-addressing, self-signing, attached-signature or identifier prefix with a derivative of the length its code prescribes returns the same prefix, with exactly these exceptions: no secp256k1 public key text parses, no attached signature with an index of 63 or more parses back, and keyed Blake2 codes come back without their key.", "quantifier": "all codes and all derivatives", "why_tests_cant": "The domain is all codes with all derivatives; the codes for which it fails (secp256k1 keys) are the ones no test covers.", "anchors": ["src/prefix/mod.rs", "src/prefix/basic.rs", "src/prefix/self_addressing.rs", "src/prefix/self_signing.rs", "src/prefix/attached_signature.rs"]}
{"id": "C36", "title": "Prefix text is canonical and injective", "statement": "A string that parses as an identifier prefix is the text form of the parsed prefix iff it contains no padding character (padded texts are accepted, non-canonically), and two different identifier prefixes with derivatives of the prescribed lengths never have the same text form.", "quantifier": "all strings, all prefixes", "why_tests_cant": "It is about all strings: that no two of them are read as the same prefix cannot be found by trying.", "anchors": ["src/prefix/mod.rs::IdentifierPrefix::from_str"]}
{"id": "C37", "title": "Stream parsers agree with string parsers", "statement": "The streaming (nom) prefix parsers, run on the text form of a prefix followed by arbitrary bytes, return that prefix and exactly the remaining bytes, for every prefix whose text parses at all (C35) except self-signing identifiers, which the stream parser does not know.", "quantifier": "all prefixes and all continuations", "why_tests_cant": "Prefixes are followed by arbitrary bytes in a stream; all continuations are meant.", "anchors": ["src/event_parsing/prefix.rs"]}
{"id": "C38", "title": "Count and index codes round-trip", "statement": "b64_to_num(num_to_b64(n)) is n for n below 63 and from 4095 on, and n divided by 16 for n from 63 to 4094.", "quantifier": "all u16 values", "why_tests_cant": "All counts are meant; the region 63 to 4094, where the codes are wrong, is the untested one.", "anchors": ["src/derivation/attached_signature_code.rs::num_to_b64", "src/derivation/attached_signature_code.rs::b64_to_num", "src/event_parsing/payload_size.rs::PayloadType::adjust_with_num"]}
{"id": "C39", "title": "Attached sequence numbers round-trip", "statement": "Every u64 sequence number packed into a source/event seal attachment parses back to itself.", "quantifier": "all u64 values, all continuations", "why_tests_cant": "There are 2^64 values and arbitrary continuations; the suite tries a few.", "anchors": ["src/event_parsing/mod.rs::Attachment::pack_sn", "src/event_parsing/prefix.rs::attached_sn"]}
{"id": "C40", "title": "Attachment codec round-trips", "statement": "attachment(to_cesr(a) ++ rest) = (rest, a) for every -A, -C, -F and -G attachment group with fewer than 63 members; writing a -H group always panics, and a non-empty -V frame never reads back as itself.", "quantifier": "all attachments, all continuations", "why_tests_cant": "nested, unbounded structures (fails for frames, crashes for last-establishment groups)", "anchors": ["src/event_parsing/mod.rs::Attachment::to_cesr", "src/event_parsing/attachment.rs::attachment"]}
{"id": "C41", "title": "Version string codec", "statement": "The version string of an event (one hexadecimal digit each for major and minor version) parses back to the same version, format and size exactly when the size is at most 65535; a larger size that still fits the six digits is refused with an error. A version string is accepted only with the header KERI, a known format and such a size; one of fewer than four bytes makes the reader panic.", "quantifier": "all sizes, versions and formats", "why_tests_cant": "The domain is large, and the sizes for which it fails (65536 and more) are never tested.", "anchors": ["src/event_message/serialization_info.rs"]}
{"id": "C42", "title": "Declared size is the real size", "statement": "The size in the version string of an event or receipt built by the library (to_message, the event builder, all formats and digest algorithms) is the byte length of its serialization, if it is below 2^24, the largest that six hexadecimal digits can express.", "quantifier": "all events", "why_tests_cant": "Events have any number of keys, witnesses and seals, so sizes are unbounded.", "anchors": ["src/event_message/dummy_event.rs", "src/event_message/mod.rs::SaidEvent::to_message"]}
{"id": "C43", "title": "Built events are self-consistent", "statement": "The digest of an event produced by the library's builders is the digest of the event's own content with the digest (and self-addressing prefix) replaced by placeholders, so recomputation from the message succeeds - for every event except the inception of a basic or self-signing identifier, where the recomputation hashes different bytes and so may give another digest.", "quantifier": "all event data, formats, digest algorithms", "why_tests_cant": "It must hold for all contents, formats and digest algorithms; a test builds a few events.", "anchors": ["src/event_message/dummy_event.rs", "src/event_message/key_event_message.rs::EventMessage<KeyEvent>::to_derivation_data"]}
{"id": "C44", "title": "JSON event codec round-trips", "statement": "Deserialising the JSON serialization of a key event, followed by anything, yields the same event and leaves what followed, exactly when each of its parts (version string with size up to 65535, prefixes without secp256k1 keys, numbers, finite weights, non-empty clause lists) reads back on its own.", "quantifier": "all key events, all continuations", "why_tests_cant": "Events are nested structures of unbounded size, followed by arbitrary bytes.", "anchors": ["src/event_message/mod.rs", "src/event/event_data/mod.rs"]}
{"id": "C45", "title": "What parsing an exported KERL yields", "statement": "signed_event_stream reads the byte stream returned by get_kerl up to the first event that carries a seal and stops there, leaving the rest; it yields the logged events in order, except that delegated events (whose delegator seal is not exported) are refused when turned into messages. So the export of a KEL without seals and without delegated events parses back into exactly the logged events, and the export of a KEL with a seal never does.", "quantifier": "every reachable KEL of events each of whose parts the text formats can carry, at most 62 signatures per event", "why_tests_cant": "It quantifies over all reachable logs; logs with a seal, which a test of the export leaves out, are the ones that do not parse back.", "anchors": ["src/event_message/serializer.rs", "src/processor/mod.rs::EventProcessor::get_kerl"]}
{"id": "C46", "title": "Replies obey best-available-data-acceptance", "statement": "For a given subject identifier and reply route, the sequence of accepted replies is monotone: (establishment sn, timestamp) never decreases for transferable signers and timestamp never decreases for non-transferable signers.", "quantifier": "every history of process calls", "why_tests_cant": "Replies and their timestamps arrive in any order over unbounded histories.", "anchors": ["src/processor/mod.rs::EventProcessor::bada_logic", "src/processor/mod.rs::EventProcessor::process_signed_reply"]}
{"id": "C47", "title": "Accepted key state notices are authentic and current", "statement": "A reply is accepted only if it is signed by the identifier named in its route, the signature verifies, its digest matches its content, and the notice's last event digest and sn match the locally logged latest event of the subject.", "quantifier": "every reachable database, every reply", "why_tests_cant": "The replies are chosen by an attacker, at any time, in any state.", "anchors": ["src/processor/mod.rs::EventProcessor::process_signed_reply", "src/processor/mod.rs::EventProcessor::check_ksn"]}
{"id": "C48", "title": "One accepted reply per route", "statement": "For each subject identifier at most one accepted reply is kept per route, the most recently accepted one.", "quantifier": "every history", "why_tests_cant": "It is an invariant over histories of any length, including reprocessing of the escrow at any time.", "anchors": ["src/database/sled/mod.rs::update_accepted_reply"]}
{"id": "C49", "title": "Reprocessing the reply escrow", "statement": "For each escrowed reply process_escrow removes exactly the replies equal to it if it was accepted, stale or wrongly signed, adds one more copy of it if an event it needs is still missing, and otherwise leaves the escrow of its subject as it is; it touches no log and no receipt. So n reprocessings turn one blocked reply into 2^n copies.", "quantifier": "every reachable database", "why_tests_cant": "All contents of the escrow and all times of reprocessing are meant; blocked replies are duplicated.", "anchors": ["src/processor/mod.rs::EventProcessor::process_escrow"]}
{"id": "C50", "title": "Key state notice numbers do not survive storage", "statement": "The sn, first-seen number and tally of the key state notice in an accepted or escrowed reply are read back from the database as the same numbers iff they are at most 9; larger ones come back larger, and the delegator comes back empty.", "quantifier": "all u64 values", "why_tests_cant": "The numbers that survive are those below ten; a test with a small log never leaves that range.", "anchors": ["src/query/key_state_notice.rs"]}
{"id": "C51", "title": "Honest controller makes progress", "statement": "With a correct key manager, after a successful incept whose event can be read back from the database, every rotate and make_ixn succeeds, in any order and number and whatever other messages are processed in between (except other people's events for this identifier), and after n such calls the computed state's sn is n and its first key is the key manager's current key; inception with well-formed keys and witnesses (at most 60, none secp256k1) of an unused identifier succeeds and can be read back; if the event cannot be read back, every later rotate and make_ixn panics. incept makes the controller's own key the identifier, with this one key, threshold one, a commitment to the next key and the given witnesses; incept_with_extra_keys appends the extra keys, keeps threshold one, has no witnesses and a digest as identifier; the node then acts for the new identifier.", "quantifier": "every key manager, every database reached before inception, every sequence of calls of every length interleaved with any other messages", "why_tests_cant": "Call sequences of any length, with arbitrary foreign traffic in between, on any earlier database.", "anchors": ["src/keri/mod.rs::Keri::rotate", "src/keri/mod.rs::Keri::make_ixn", "src/keri/mod.rs::Keri::incept"]}
{"id": "C52", "title": "interact freezes its own identifier", "statement": "After a successful Keri::interact with a peer whose identifier is not the digest of the controller's own last event, the state computed for the controller's identifier stays for ever what it was before (or can no longer be computed at all), whatever the controller calls and whatever anybody submits; every later make_ixn still reports success but makes one more event with the same sequence number and prior digest, and at most one more rotate succeeds.", "quantifier": "every reachable controller in good order, every peer, every later sequence of calls and messages", "why_tests_cant": "The claim is about everything that may happen after the call: no later sequence of calls and messages repairs the log.", "anchors": ["src/keri/mod.rs::Keri::interact"]}
{"id": "C53", "title": "Default threshold is a majority", "statement": "KeyConfig::new without explicit threshold needs more than half of the keys, is satisfiable, and any two satisfying index sets intersect.", "quantifier": "all key lists", "why_tests_cant": "Key lists have any length.", "anchors": ["src/event/sections/key_config.rs::KeyConfig::new"]}
{"id": "C54", "title": "Accepted events carry a signature of a key in force", "statement": "Every accepted key event carries at least one signature that verifies under one of the keys in force, unless its threshold is the number zero or an empty list of clauses - in which case events without any signature are accepted; an inception of a basic identifier is, with the same exception, signed by that very key.", "quantifier": "every reachable database and event", "why_tests_cant": "All thresholds and signature lists are meant, including weighted thresholds chosen by an attacker.", "anchors": ["src/event/sections/key_config.rs::KeyConfig::verify", "src/processor/mod.rs::EventProcessor::process_event"]}
{"id": "C55", "title": "Witness lists", "statement": "A fresh identifier has exactly the witnesses and tally its inception lists; after an accepted rotation a duplicate-free witness list stays so iff the rotation adds no key twice and only keys that are not witnesses or that it cuts. Nothing checks this: duplicates, cuts of non-witnesses and tallies above the number of witnesses are accepted.", "quantifier": "every reachable log", "why_tests_cant": "All lists and histories are meant, and what is missing is a check: no input is ever refused for it.", "anchors": ["src/event/event_data/rotation.rs::RotationEvent::apply_to", "src/event/event_data/inception.rs::InceptionEvent::apply_to"]}
{"id": "C56", "title": "Escrowed receipts are never counted", "statement": "A receipt escrowed because its event was unknown stays in the escrow for ever: as long as no receipt is submitted again, no later event, reply or reprocessing of the escrow changes what get_receipts_t, get_receipts_nt or the receipt escrows return.", "quantifier": "every history", "why_tests_cant": "All arrival orders are meant: that nothing ever leaves the receipt escrows is a statement about every later history.", "anchors": ["src/processor/mod.rs::EventProcessor::process_validator_receipt", "src/processor/mod.rs::EventProcessor::process_escrow"]}
{"id": "C57", "title": "Stored receipts are never lost", "statement": "As long as every stored receipt reads back, later calls only append to the receipts and escrowed receipts of an identifier; storing a receipt next to one that does not read back replaces the whole list.", "quantifier": "every history", "why_tests_cant": "All later messages are meant; one receipt that does not read back makes reading crash, at any later time.", "anchors": ["src/database/sled/tables.rs::SledEventTreeVec::push", "src/processor/mod.rs::EventProcessor::process_validator_receipt"]}
{"id": "C58", "title": "The digest in a receipt is ignored", "statement": "The digest a transferable receipt names is never looked at: with any other digest in it process returns the same result, so receipts naming a digest that no logged event has are stored and returned.", "quantifier": "every reachable database and receipt", "why_tests_cant": "That the digest is never compared is a statement about all receipts and all digests.", "anchors": ["src/processor/mod.rs::EventProcessor::process_validator_receipt", "src/processor/mod.rs::EventProcessor::process_witness_receipt"]}
{"id": "C59", "title": "A kill can leave an unverified event", "statement": "For every applicable event, whatever its signatures, there is a point of process at which killing the process leaves the event in the KEL found after restart.", "quantifier": "every crash point, every reachable database and event", "why_tests_cant": "All crash points of all calls are meant: the event is stored before its signatures are checked, and a kill in between leaves it.", "anchors": ["src/processor/mod.rs::EventProcessor::process_event", "src/database/sled/mod.rs"]}
{"id": "C60", "title": "Threads on distinct identifiers do not interfere", "statement": "A thread submitting a non-delegated event of an identifier that already has a table key gets the result, and leaves the KEL, it would alone, in every interleaving with threads that only touch other identifiers that already have table keys.", "quantifier": "every schedule, every database and event", "why_tests_cant": "The outcome depends on the schedule of the threads; tests see the schedules that happen to occur.", "anchors": ["src/database/sled/tables.rs::SledEventTree::designated_key", "src/database/sled/tables.rs::SledEventTreeVec::push", "src/processor/mod.rs::EventProcessor::process_event"]}
{"id": "C61", "title": "Signed messages round-trip on the wire", "statement": "A signed key event (delegated or not) or receipt of either kind, written with to_cesr and followed by the end of the stream or another message, parses back to the same Message and leaves what followed.", "quantifier": "all representable signed messages with fewer than 63 members per attached group, all continuations", "why_tests_cant": "Signed messages are structures of unbounded size, followed by arbitrary bytes.", "anchors": ["src/event_parsing/message.rs::signed_message", "src/event_parsing/mod.rs::SignedEventData::to_cesr", "src/event_parsing/mod.rs::signed_key_event", "src/event_parsing/mod.rs::signed_receipt"]}
{"id": "C62", "title": "Streams of messages round-trip", "statement": "Any number of signed messages written one after the other parse with signed_event_stream into exactly these messages, in order, nothing left over.", "quantifier": "all lists of representable messages", "why_tests_cant": "Streams have any length and mix all kinds of messages.", "anchors": ["src/event_parsing/message.rs::signed_event_stream", "src/event_parsing/mod.rs::SignedEventData::to_cesr"]}
{"id": "C63", "title": "When parsing untrusted bytes crashes", "statement": "signed_message panics on a byte string only if a version string in the JSON text is not ASCII or shorter than 16 characters, a text in the place of a prefix is non-empty and not ASCII or shorter than 4 characters, or the bytes after the message bring the attachment parser to a text that begins with one of sixteen unhandled codes or to a frame with unread bytes that is followed by more bytes than it holds; in the last two cases it always panics, and malformations of the first two kinds that panic exist.", "quantifier": "all byte strings; binary readers that do not panic themselves", "why_tests_cant": "Absence of crashes on every other input cannot be sampled; the crashing inputs are rare shapes", "anchors": ["src/event_parsing/message.rs::signed_event_stream", "src/event_parsing/message.rs::signed_message", "src/event_parsing/mod.rs::signed_receipt", "src/prefix/mod.rs", "src/event_message/serialization_info.rs::SerializationInfo::from_str"]}
{"id": "C64", "title": "Message types are told apart", "statement": "The event reader accepts an object only if its t field names the type of the event it returns; the receipt reader ignores t: an object with the fields of a receipt is read as a receipt whatever its t field says.", "quantifier": "all byte strings", "why_tests_cant": "All byte strings are meant; receipts are recognised by their fields only, which single examples do not show.", "anchors": ["src/event_parsing/message.rs::key_event_message", "src/event_parsing/message.rs::receipt_message", "src/event_parsing/mod.rs::EventType", "src/event/receipt.rs::Receipt"]}
{"id": "C65", "title": "An accepted notice can block later ones", "statement": "Once a reply that storage cannot read back (for instance because a number in it, read as hexadecimal, exceeds 2^64) is accepted, the accepted replies about the subject never change again, reading them panics, and no later reply about that subject is ever accepted.", "quantifier": "every history", "why_tests_cant": "All later histories are meant: one number that does not read back blocks every later notice.", "anchors": ["src/processor/mod.rs::EventProcessor::process_signed_reply", "src/processor/mod.rs::EventProcessor::bada_logic", "src/processor/mod.rs::EventProcessor::check_timestamp_with_last_ksn", "src/database/sled/mod.rs::SledEventDatabase::update_accepted_reply", "src/query/key_state_notice.rs::KeyStateNotice"]}
{"id": "C66", "title": "What is checked of an accepted notice", "statement": "The state process returns for an accepted key state notice is the one the notice claims; its identifier, sn and digest name the last logged event of the subject, and nothing else is compared: every authentic, current and fresh notice is accepted whatever keys, thresholds, witnesses and delegator it claims.", "quantifier": "every reachable database, every reply", "why_tests_cant": "A notice has many fields an attacker may choose freely; that only two of them matter is a statement about all notices.", "anchors": ["src/processor/mod.rs::EventProcessor::check_ksn", "src/processor/mod.rs::EventProcessor::process_signed_reply", "src/query/key_state_notice.rs::KeyStateNotice", "src/query/reply.rs::EventMessage<ReplyEvent>::check_digest"]}
{"id": "C67", "title": "The stream processor takes in no truthful message", "statement": "The asynchronous stream processor never takes in a signed event or receipt whose version string states the true length of its body, whatever is attached and however the bytes arrive: nothing is stored, written back or sent on. If the first read returns less than the body (or fewer than 24 bytes) it loops for ever without reading more; if exactly the body it ends with an error; one byte more and it panics; with more it panics for non-delegated signed events and ends with an error for delegated events and receipts. A message whose version string overstates the length by its attachments does get in.", "quantifier": "all representable messages, all continuations, all ways of cutting the stream into reads, all databases", "why_tests_cant": "All streams and all ways of cutting them into reads are meant; a test feeds one buffer.", "anchors": ["src/processor/async_processing.rs::process", "src/processor/async_processing.rs::Processor::poll", "src/processor/async_processing.rs::binary_attachments_len"]}
{"id": "C68", "title": "A writer that is not ready makes the stream processor process a message twice", "statement": "When the writer is not ready to take the answer to a message, the stream processor processes the same message again from its buffer in the next turn; the answer of the first time is dropped.", "quantifier": "every state of the processor and every message", "why_tests_cant": "It depends on when the writer is ready, a schedule that tests with a fixed writer never produce.", "anchors": ["src/processor/async_processing.rs::Processor::poll"]}
{"id": "C69", "title": "An honest controller can receipt any logged event and the receipt is good everywhere", "statement": "After any sequence of its own rotations and interactions and of foreign traffic, a controller can receipt every event its processor has logged: make_rct succeeds, names the event and the last establishment event of the controller, and is signed with the keys in force; logs do not change, the receipt is appended to the stored ones and has_receipt then answers yes. Every processor that has logged the same event and the same establishment event accepts the receipt and appends it to its own.", "quantifier": "all key managers, all sequences of calls, all logged events, all histories of the other processor", "why_tests_cant": "quantifies over histories of two parties", "anchors": ["src/keri/mod.rs::Keri::make_rct", "src/processor/mod.rs::EventProcessor::process_validator_receipt", "src/processor/mod.rs::EventProcessor::has_receipt", "src/database/sled/mod.rs::SledEventDatabase::add_receipt_t"]}
{"id": "C70", "title": "A witness made with make_ntr signs whatever names it, forgets everything when dismissed, and signs with the wrong key after a rotation", "statement": "make_ntr receipts every event that names the controller as a witness, in every database, whether or not the event was processed, is signed, fits the log or contradicts one receipted before; every other event is refused. Any rotation text that dismisses it, checked or not, deletes all stored witness receipts of that identifier, including those of other witnesses. After the controller rotated its own keys the receipts name a key that is not the one the event lists.", "quantifier": "all controllers, events and databases", "why_tests_cant": "All events, all histories and all rotations of the witness are meant.", "anchors": ["src/keri/mod.rs::Keri::make_ntr", "src/keri/mod.rs::Keri::generate_ntr", "src/database/sled/mod.rs::SledEventDatabase::remove_receipts_nt"]}
{"id": "C71", "title": "Copies of a log never diverge, and any order of arrival that contains the log in order completes the copy", "statement": "If the only events of an identifier that reach a processor are events of one log (readable, not delegated, signed), then whatever the order, the repetitions and the other traffic, the processor has at every moment a beginning of that log. Each arrival either is the next event and is appended, or is refused with an error and changes nothing in the database. Once the events have arrived one after the other, possibly with anything in between, the copy is complete and the computed state is the same.", "quantifier": "all logs, all orders of arrival with repetitions and other traffic", "why_tests_cant": "quantifies over all interleavings of arrivals", "anchors": ["src/processor/mod.rs::EventProcessor::process_event", "src/database/sled/mod.rs::SledEventDatabase::get_kel_finalized_events", "src/state/mod.rs::IdentifierState::apply"]}
{"id": "C72", "title": "Answering a stream of messages never crashes", "statement": "FALSE: respond crashes on every stream in which a witness receipt is accepted, after having processed the whole stream; since such receipts are accepted with arbitrary signatures, anyone can crash any controller that has logged any event, with no key at all, and the receipt is stored. What remains true: messages that are refused are dropped silently, receipts of controllers need no answer, and if nothing else was accepted the answer is empty and the database is the one after submitting the messages one by one.", "quantifier": "all controllers, histories and streams", "why_tests_cant": "A panic on one message among all streams of all lengths; the part that holds quantifies over streams and histories.", "anchors": ["src/keri/mod.rs::Keri::respond", "src/processor/mod.rs::EventProcessor::process", "src/processor/mod.rs::EventProcessor::process_witness_receipt"]}
{"id": "C73", "title": "Two controllers that meet end up with both logs and a receipt for every event", "statement": "Two started controllers that do not know each other, with exportable logs without seals, complete the exchange: the first sends its log, the second answers with its own log and one receipt for each event, the first answers with one receipt for each event of the second, the second answers with nothing. No call fails or crashes; afterwards both databases contain both logs unchanged and the same receipts by the other side, exactly one for each event in order, appended to the receipts stored before. For two new controllers on empty databases, incepted with at most 60 well-formed keys and witnesses and then calling rotate and make_ixn without payload any number of times, this holds with no further condition than that their identifiers differ.", "quantifier": "all pairs of controllers, all sequences of calls and foreign traffic before they meet, logs of any length", "why_tests_cant": "an end-to-end protocol run over all histories of two parties", "anchors": ["src/keri/mod.rs::Keri::respond", "src/keri/mod.rs::Keri::make_rct", "src/processor/mod.rs::EventProcessor::process", "src/processor/mod.rs::EventProcessor::get_kerl", "src/event_parsing/message.rs::signed_event_stream"]}
{"id": "C74", "title": "Seeds read back from their text, and the keys derived from a seed belong together", "statement": "The text of a seed is its code (A, J, K, 0A) and the base64url text of the secret; every seed with a secret, of any length, reads back as itself, different seeds have different texts, and what the reader accepts is exactly such a text. The reader panics exactly on the empty text, on a first character that is not ASCII, and on a 0 followed by nothing or a non-ASCII character. Deriving a prefix succeeds exactly for ed25519 and secp256k1 seeds that are private keys, gives the public key under the code of the curve, transferable exactly when asked, and signatures made with the derived private key verify against it.", "quantifier": "all seeds, all texts, all honest curve implementations", "why_tests_cant": "all secrets of all lengths and all texts", "anchors": ["src/prefix/seed.rs::SeedPrefix::from_str", "src/prefix/seed.rs::SeedPrefix::derive_key_pair", "src/prefix/mod.rs::Prefix::to_str", "src/keys/mod.rs::PrivateKey"]}
{"id": "C75", "title": "What the readers of events and receipts accept, exactly", "statement": "A text is read as an event precisely when it is a JSON object in which version, digest, identifier and sequence number each occur exactly once, the type and every member that this type needs occur, and each denotes the corresponding part of the event; of the repeated ones among the rest the last counts. A receipt is read precisely when version, digest, identifier and sequence number occur exactly once. A text in which one of the four is missing or repeated is neither. Members with other names are ignored.", "quantifier": "all texts, all events, all receipts", "why_tests_cant": "The claim is an equivalence over all texts: member order, duplicates, escapes, unknown members.", "anchors": ["src/event_message/mod.rs::EventMessage", "src/event/mod.rs::Event", "src/event/event_data/mod.rs::EventData", "src/event/receipt.rs::Receipt", "src/event/sections/seal.rs::Seal", "src/event_parsing/message.rs::key_event_message", "src/event_parsing/message.rs::receipt_message"]}
{"id": "C76", "title": "What the readers of replies and queries accept, exactly", "statement": "With the query feature, a text is read as a reply precisely when it is a JSON object in which version, digest, time, route and notice each occur exactly once and denote the parts of the reply, the members of the notice likewise occur exactly once (previous digest, last type and delegator at most once), and as a query precisely when version, digest, time, route, reply route and arguments do. Other members are ignored. Every query with parts the wire carries reads back from its own text as the same query, and no other kind of message is read from that text.", "quantifier": "all texts, replies and queries", "why_tests_cant": "The claim is an equivalence over all texts: member order, duplicates, escapes, unknown members.", "anchors": ["src/query/mod.rs::Envelope", "src/query/mod.rs::Route", "src/query/reply.rs::ReplyData", "src/query/query.rs::QueryData", "src/query/key_state_notice.rs::KeyStateNotice", "src/state/mod.rs::IdentifierState", "src/event_parsing/message.rs::reply_message", "src/event_parsing/message.rs::query_message"]}
{"id": "C77", "title": "Key state notices survive the wire only for delegated identifiers and one-digit numbers", "statement": "The text a node writes for a reply is read by another node precisely when the notice names a delegator and the numbers, taken for hexadecimal, fit in 64 bits; it is read as the same reply precisely when there is a delegator and sequence number, witness threshold and first-seen number are at most 9, and then signed replies arrive as they were sent. With a larger number another reply is read, whose text differs from the signed one. The notice of an undelegated identifier is not a message at all: the parser stops there, and everything after it in the stream is dropped without an error.", "quantifier": "all replies with parts the wire carries, all following bytes", "why_tests_cant": "All states and numbers are meant; the cases that survive are the exception, and the suite tests one of them.", "anchors": ["src/query/key_state_notice.rs::KeyStateNotice::serialize", "src/query/reply.rs::SignedReply", "src/state/mod.rs::IdentifierState", "src/event_parsing/message.rs::reply_message", "src/keri/witness.rs::Witness::get_ksn_for_prefix"]}
{"id": "C78", "title": "Which queries and replies crash the node that reads them", "statement": "With the query feature: texts whose version strings have at least sixteen ASCII characters, whose prefixes are empty or have at least four, and whose route, if it begins with /ksn/, names an identifier never crash the readers, whatever else is wrong. But every text with version, digest and a route /ksn/x with x no identifier, every stream with a query signed by anybody, every reply followed by an empty group of couplets, every query followed by an empty group of signatures crashes the call, and a reply that is accepted is stored and then crashes the call.", "quantifier": "all texts, streams, databases and controllers", "why_tests_cant": "All texts and all histories are meant: a crash an attacker can cause is one input among infinitely many.", "anchors": ["src/query/mod.rs::Route::deserialize", "src/event_parsing/mod.rs::signed_reply", "src/event_parsing/mod.rs::signed_query", "src/event_parsing/message.rs::reply_message", "src/event_parsing/message.rs::query_message", "src/processor/mod.rs::EventProcessor::process", "src/keri/mod.rs::Keri::respond"]}
{"id": "C79", "title": "What a witness answers to signed queries", "statement": "A witness answers only queries whose signatures are valid under the keys that the log of the signer has in force; a query for a log is answered with the exported log, a query for a state with the state that the log describes, in the name of the witness. Such queries about known identifiers are answered, and the notice is accepted by every node that has the same log and no newer notice of that witness. But nothing ties a query to a time or to a witness, so an answered query can be replayed until the signer rotates; and a query with a reply route, a query for the state of an identifier without a commitment to next keys or of which only a rejected inception has been seen, and asking outright for an unknown identifier crash the witness.", "quantifier": "all histories, queries, witnesses and clock readings", "why_tests_cant": "All histories and all queries are meant, with clock readings in any order.", "anchors": ["src/keri/witness.rs::Witness::process_signed_query", "src/keri/witness.rs::Witness::process_query", "src/keri/witness.rs::Witness::get_ksn_for_prefix", "src/query/query.rs::SignedQuery", "src/query/reply.rs::ReplyEvent::new_reply", "src/query/key_state_notice.rs::KeyStateNotice::new_ksn"]}
{"id": "C80", "title": "Thresholds in machine words", "statement": "The threshold check of the program works in 64-bit fractions and 16-bit indices. As long as the weights picked by the signatures have a common denominator and a total numerator below 2^64 and all clauses together have fewer than 2^16 weights, it gives the exact answer, with and without overflow checks. Beyond that it never accepts signatures that are not enough (for clauses of fewer than 2^16 weights), but it can crash (with overflow checks) or refuse (without) signatures that are enough, even when a part of them is accepted; and a clause of 2^16 weights or more lets the next clause count the wrong keys.", "quantifier": "all thresholds, signatures and both overflow behaviours", "why_tests_cant": "All weights and signature sets are meant; overflow needs weights no test uses.", "anchors": ["src/event/sections/threshold.rs::ThresholdClause::enough_signatures", "src/event/sections/threshold.rs::MultiClauses::enough_signatures", "src/event/sections/key_config.rs::KeyConfig::verify"]}
{"id": "C81", "title": "Logs written with the event builder", "statement": "An application that keeps its log with the event builder (an inception, rotations to the key set it committed to, interactions, each linked to the event before and signed with the keys in force to their threshold) always gets its events built, and every node that has the log so far accepts the next event, after any history; submitted in order to a node that knows nothing of the identifier the whole log is accepted. The resulting state has the chosen keys, commitment and witnesses, but always a receipt threshold of zero. The builder silently drops the seals of an inception, the witnesses and seals of a delegated inception and the witness changes of a delegated rotation, panics on a self-signing prefix, builds refused inceptions for a foreign basic prefix, and events of another identifier when the prefix is forgotten.", "quantifier": "all key sets, thresholds, witness lists, seals, lengths of logs, node histories", "why_tests_cant": "Logs of any length with arbitrary key sets, thresholds, witnesses and seals, submitted to nodes with any history.", "anchors": ["src/event_message/event_msg_builder.rs::EventMsgBuilder::build", "src/event/event_data/inception.rs::InceptionEvent::incept_self_addressing", "src/event/mod.rs::Event", "src/event/sections/key_config.rs::nxt_commitment", "src/processor/mod.rs::EventProcessor::process_event"]}
{"id": "C82", "title": "Delegated identifiers work", "statement": "A delegated log kept with the builder is accepted, after any history, by every node that has the log of the delegator with an anchor (an event seal with the digest of the delegated event, in an event that is no inception, at the number named by the source seal) for each delegated inception and rotation; the state then names the delegator. Anchors made by the delegator with the builder do. But a delegated event that arrives before its anchor is refused and not kept for later.", "quantifier": "all key sets, lengths of logs, delegators and node histories", "why_tests_cant": "Logs of any length for delegator and delegate, on nodes with any history.", "anchors": ["src/event_message/event_msg_builder.rs::EventMsgBuilder::build", "src/event/event_data/delegated/mod.rs::DelegatedInceptionEvent::incept_self_addressing", "src/processor/mod.rs::EventProcessor::validate_seal", "src/processor/mod.rs::EventProcessor::process_event", "src/event/sections/seal.rs::EventSeal"]}
{"id": "C83", "title": "Which attachments make a message", "statement": "A parsed text with the attachments after it becomes a signed message exactly in these cases: a key event that is not delegated with signatures as its first attachment; a delegated one whose last two attachments are signatures and one source seal, in either order; a receipt, reply or query whose attachment that counts (the last one, looking into frames) is of the right kind, of which a receipt takes all couplets or the last group, a reply the first couplet or the last group, a query the first group. The conversion crashes exactly on replies and queries with an empty group. All other signatures are dropped without an error, and key events in a frame are never understood.", "quantifier": "all parsed texts, all lists of attachments, frames nested to any depth", "why_tests_cant": "Attachments are lists of any length, in frames nested to any depth.", "anchors": ["src/event_parsing/mod.rs::signed_key_event", "src/event_parsing/mod.rs::signed_receipt", "src/event_parsing/mod.rs::signed_reply", "src/event_parsing/mod.rs::signed_query"]}
{"id": "C84", "title": "Key manager and log out of step", "statement": "The keys of a controller and the log of its identifier stay in step only as long as every rotation of the key manager is followed by a stored rotation event. The rotate call rotates the key manager first, also when it then fails. Once the key manager was rotated outside the log (a failed or interrupted rotation, or a second controller that shares the key manager and rotates, which succeeds), no later rotate or make_ixn of the identifier ever succeeds and its state never changes again.", "quantifier": "all honest controllers, all databases they can reach, all later sequences of calls and of foreign messages", "why_tests_cant": "unbounded sequences of calls after the accident", "anchors": ["src/keri/mod.rs::Keri::rotate", "src/keri/mod.rs::Keri::make_rotation", "src/signer/mod.rs::KeyManager::rotate"]}
{"id": "C85", "title": "A second inception", "statement": "Calling incept or incept_with_extra_keys on a controller that already has an identifier never touches the log of that identifier. If the identifier is a public key the call is always refused and changes nothing; if it is self-addressing the call succeeds (unless the new identifier is already in use) and the controller silently takes another identifier and no longer speaks for the old one. Whenever the call succeeds it is for another identifier.", "quantifier": "all honest controllers at any time after their inception, all extra keys and witnesses", "why_tests_cant": "histories before the second call are unbounded", "anchors": ["src/keri/mod.rs::Keri::incept", "src/keri/mod.rs::Keri::incept_with_extra_keys", "src/event_message/event_msg_builder.rs::EventMsgBuilder::build"]}
{"id": "C86", "title": "Logs counted from outside", "statement": "The log of an identifier is at least as long as the number of its events whose submission returned Ok and at most as long as the number of its events ever submitted; it is exactly the former if every submitted event can be written and read back and no submission panics. So the sequence number of a state is below the number of events submitted, and with fewer than 2^64 of them the u64 addition in applying an event never overflows: machine arithmetic gives what unbounded arithmetic gives, in debug and release builds alike.", "quantifier": "all histories, all identifiers, all events applied to the state", "why_tests_cant": "histories of any length, up to 2^64 events", "anchors": ["src/event/mod.rs::Event::apply_to", "src/processor/mod.rs::EventProcessor::process_event", "src/database/sled/mod.rs::SledEventDatabase::get_kel_finalized_events"]}
{"id": "C87", "title": "What parsing a stream consumes", "statement": "Reading a signed message, when it succeeds, takes at least one byte from the front of the input and leaves the rest untouched. Reading a stream succeeds exactly when messages can be read off one after the other up to a point where reading a message is refused recoverably; the result is those messages and the bytes from that point on. No byte is lost or read twice, and there are no more messages than bytes. The same holds with the query feature. The readers are not limited by any depth or length bound of the model.", "quantifier": "all byte strings, all nestings and lengths; binary readers that consume input from the front", "why_tests_cant": "Inputs are byte strings of any length and nesting.", "anchors": ["src/event_parsing/message.rs::signed_message", "src/event_parsing/message.rs::signed_event_stream", "src/event_parsing/attachment.rs::attachment", "src/event_parsing/prefix.rs"]}
{"id": "C88", "title": "The wallet as key manager", "statement": "A wallet filled by incept_keys works as key manager exactly like the key manager of the crate: after any number of rotations, all of which succeed, its current key, next key and signatures are those of a CryptoBox with the same random keys after as many rotations; in particular each rotation makes the announced next key the signing key. A controller made by new_with_fresh_wallet should be able to incept with that wallet. (It is not: its identifier is the current key labelled secp256k1 while the inception announces the key as Ed25519, so every inception, rotation and interaction is refused, in every history, and the identifier never gets a log.)", "quantifier": "all wallets, all random keys, all numbers of rotations, all ways of finding a content by its tag, all histories, all sequences of calls with all extra keys and witnesses", "why_tests_cant": "unbounded rotations, histories and call sequences", "anchors": ["src/signer/wallet.rs::incept_keys", "src/signer/wallet.rs::UnlockedWallet", "src/keri/mod.rs::Keri::new_with_fresh_wallet"]}
{"id": "C89", "title": "The log says what the calls said", "statement": "After a successful inception and any number of rotate and make_ixn calls, in any order, with anything else processed in between, the log of the identifier is exactly the inception event followed by the events the calls returned, in order: the inception announces the current key, the extra keys, the commitment to the next key and the witnesses; each rotation announces exactly the key committed to before and a commitment to the following one, with threshold one and no change of witnesses; each make_ixn carries exactly the digest of its payload, or no seal; each event carries the next sequence number and the digest of the event before, and is signed by the key that is current after the call. In particular extra keys given at inception have no say after the first rotation.", "quantifier": "all key managers, histories, extra keys, witnesses, payloads and sequences of calls, with other events in between", "why_tests_cant": "Call sequences of any length with any other traffic in between.", "anchors": ["src/keri/mod.rs::Keri::rotate", "src/keri/mod.rs::Keri::make_ixn", "src/keri/mod.rs::Keri::incept", "src/event_message/event_msg_builder.rs::EventMsgBuilder::build", "src/signer/mod.rs::CryptoBox"]}
{"id": "C90", "title": "Verifying arbitrary data against the log", "statement": "In every reachable database verify accepts a signature on arbitrary data exactly if it is valid: for a signature with a key, the key itself signed the data; for a seal, the log of the sealed identifier has an event at the sealed sequence number with the sealed digest, it is an establishment event, and its keys signed to its threshold (and the log can be read). It stores nothing, and what verified once verifies for ever. It does not mean that the keys are still in force: signatures by superseded keys on new data keep being accepted, and without a seal no log is looked at.", "quantifier": "all histories, data and signatures", "why_tests_cant": "All histories, all data and all signatures, in both directions of an equivalence.", "anchors": ["src/processor/mod.rs::EventProcessor::verify", "src/processor/mod.rs::EventProcessor::get_keys_at_event", "src/event/sections/key_config.rs::KeyConfig::verify"]}
{"id": "C91", "title": "Trying an event out changes nothing", "statement": "Keri::process leaves every table as it was, whatever it is given. For an identifier with a readable log it answers positively exactly if the event applies to the state of that log; so it approves everything the processor would accept on top of that log, and what it approves is accepted if not delegated and signed by the keys in force. It looks at no signature, and it approves no inception, although the processor accepts inceptions of unknown identifiers.", "quantifier": "all histories, identifiers and events", "why_tests_cant": "All histories and all events: that nothing changes must hold for every table in every state.", "anchors": ["src/keri/mod.rs::Keri::process", "src/processor/mod.rs::EventProcessor::process_actual_event"]}
{"id": "C92", "title": "The stream processor skips and repeats nothing", "statement": "At every moment of a run of the stream processor, whatever arrives in whatever pieces and however the writer behaves, the messages it has passed on, one after the other, and the bytes it has still to look at make up the stream exactly. If it ends well, the whole stream has been passed on. If the writer takes every write, the messages passed on were processed once each, in that order, each on the database the one before left, and the answers written are their answers in that order.", "quantifier": "all streams, all ways of cutting them into reads, all writers, all numbers of turns", "why_tests_cant": "Streams may be cut into reads anywhere, and turns and writers interleave in unboundedly many ways.", "anchors": ["src/processor/async_processing.rs::Processor::poll", "src/processor/async_processing.rs::process"]}
{"id": "C93", "title": "Receipts made with the receipt builder", "statement": "A receipt built for an event names its identifier and sequence number and the digest of its serialization under the chosen algorithm, and announces its own length; receipts with the same digest are for events with the same text unless two texts with the same digest are known. Completed with a validator seal and valid signatures on a logged event it is accepted and stored. Its digest is never the one by which the event itself, seals and logs name it: for every JSON event carrying its own digest, if the digest of the receipt names the event, two texts with the same digest are known.", "quantifier": "all events, formats, digest algorithms and histories", "why_tests_cant": "unbounded histories and events; a statement about collisions", "anchors": ["src/event_message/event_msg_builder.rs::ReceiptBuilder::build", "src/event/receipt.rs::Receipt::to_message", "src/event_message/key_event_message.rs", "src/processor/mod.rs::EventProcessor::process_validator_receipt"]}
{"id": "C94", "title": "A network of honest controllers agrees", "statement": "Any number of controllers, each with its own processor and database, rotate and interact as they like. Anything may arrive at any of them, at any time, in any order, any number of times or never, except that an event in the name of one of them must be an event its owner has logged. Then at every moment what any node has of the log of any node is an initial piece of the log of the owner; two nodes never have different events at the same place; the state a node computes for another is one the owner was in; a node at which the events of a log have arrived in order has the whole log; and no traffic keeps a controller from rotating and interacting, each call adding exactly one event.", "quantifier": "all numbers of nodes, all schedules of calls and arrivals at all nodes, all earlier traffic", "why_tests_cant": "unbounded interleavings of calls and deliveries at unboundedly many nodes", "anchors": ["src/keri/mod.rs::Keri::rotate", "src/keri/mod.rs::Keri::make_ixn", "src/keri/mod.rs::Keri::incept", "src/processor/mod.rs::EventProcessor::process", "src/database/sled/mod.rs::SledEventDatabase::get_kel_finalized_events"]}
{"id": "C95", "title": "Forgers of a log must attack", "statement": "Nobody can make a node log an event in the name of an honest controller that the controller has not logged, unless the traffic contains one of these: an event the controller has not made that carries signatures satisfying one of the key sets the controller has announced or prepared; a rotation to keys outside those key sets that open a commitment of the controller; an event that makes the processor crash, that cannot be encoded, or that contains text which does not parse back; or, at a node that does not know the controller yet, an inception that is not the controller's own. Without these, what a node has of the log is always an initial piece of the log of the controller, no traffic keeps the next genuine event from being accepted, and the statements about networks of honest controllers (C94) hold although anything else is sent by anybody in the name of anybody.", "quantifier": "all histories of a node, all messages of all strangers, all numbers of nodes and schedules", "why_tests_cant": "the adversary chooses unbounded traffic; the statement is a reduction: from every fork one finds an attack in the traffic", "anchors": ["src/processor/mod.rs::EventProcessor::process_event", "src/processor/mod.rs::EventProcessor::process_actual_event", "src/state/mod.rs::IdentifierState::apply", "src/event/sections/key_config.rs::KeyConfig::verify", "src/event/sections/key_config.rs::KeyConfig::verify_next", "src/keri/mod.rs::Keri::rotate", "src/keri/mod.rs::Keri::make_ixn"]}
{"id": "C96", "title": "Only the committed keys can rotate an identifier", "statement": "The pre-rotation promise: whoever does not hold the keys that were committed to cannot rotate an identifier. It fails end to end: whenever a log with a commitment is readable, a stranger who has seen the next public keys (and nobody else has to sign) can submit a rotation to a key list of his own choosing that the processor accepts and that takes the identifier over; and a stranger who knows nothing but the commitment can do the same with keys of his own whose digests span the digest space, with one signature of his own key.", "quantifier": "all histories, all identifiers with a commitment to next keys, all thresholds and all keys of the stranger", "why_tests_cant": "the attack has to work against every log and every commitment, not one", "anchors": ["src/event/sections/key_config.rs::nxt_commitment", "src/event/sections/key_config.rs::KeyConfig::verify_next", "src/processor/mod.rs::EventProcessor::process_event", "src/event/event_data/rotation.rs::RotationEvent::apply_to"]}
{"id": "C97", "title": "What respond answers to a stream", "statement": "A controller in good order answers a stream of messages with exactly the answers to the accepted messages, in the order of the stream: nothing for a receipt of another controller; for an event a receipt of that event, signed with the keys in force of the controller and naming its last establishment event; and, before the receipt, its whole own log if the event is an inception whose controller has not receipted the inception of this controller. Messages that are refused, and parts of the stream that make no message, have no effect on the other answers. Logs and the receipts for its own events are afterwards those after submitting the messages one by one. A message that crashes the processor crashes the call wherever it stands.", "quantifier": "all controllers after any calls and traffic, all streams", "why_tests_cant": "unbounded streams with refused, unreadable and accepted messages mixed", "anchors": ["src/keri/mod.rs::Keri::respond", "src/keri/mod.rs::Keri::make_rct", "src/processor/mod.rs::EventProcessor::process", "src/event_parsing/message.rs::signed_event_stream"]}
{"id": "C98", "title": "What respond_single answers", "statement": "Given the text of an event that is accepted, respond_single answers with the identifier and a JSON text which reads back as exactly the key state of the log with the event appended, the state a later question reports; different states have different texts. The members for the previous digest and the kind of the last event are null in every such answer, however long the log. Anything behind the first message is dropped without being looked at. For any other message the answer is the reason of the refusal with the store as the processor left it; a witness receipt ahead of its event is kept although the answer is an error.", "quantifier": "all histories, all events and receipts the wire carries, all trailing bytes that begin like a message", "why_tests_cant": "unbounded logs and arbitrary trailing data; the text must be faithful for every reachable state", "anchors": ["src/keri/mod.rs::Keri::respond_single", "src/state/mod.rs::IdentifierState", "src/processor/mod.rs::EventProcessor::process", "src/event_parsing/message.rs::signed_message"]}
{"id": "C99", "title": "State from an application's own event database", "statement": "For every implementation of the event database trait, the provided method that computes the state of an identifier returns the state after exactly the longest run of events, read from number 0 on, that parse and apply one after the other; no event at all gives no state, an error of the database is passed on, bytes that are no key event panic, an event that does not apply silently ends the run. With the texts of the log of a node it returns the state the node reports. It is no test for existence: a first event that does not apply gives the empty state instead of none.", "quantifier": "all implementations of the trait (arbitrary answers for each number), all histories of a node", "why_tests_cant": "the implementation is an unknown; logs are unbounded", "anchors": ["src/database/mod.rs::EventDatabase::get_state_for_prefix", "src/database/mod.rs::EventDatabase::last_event_at_sn", "src/event_parsing/message.rs::message", "src/state/mod.rs::IdentifierState::apply"]}
{"id": "C100", "title": "State for a seal", "statement": "The state reported for an event seal is the state right after the event with the number of the seal in the log of its identifier. Its last digest is the digest of the logged event, so it belongs to the sealed event exactly if the digests agree; the call itself never looks at the digest of the seal, and for a number beyond the end of the log it answers with the current state.", "quantifier": "all histories, all seals", "why_tests_cant": "unbounded logs and seals with arbitrary digests and numbers", "anchors": ["src/keri/mod.rs::Keri::get_state_for_seal", "src/keri/mod.rs::Keri::get_state_for_prefix", "src/processor/mod.rs::EventProcessor::compute_state_at_sn", "src/event/sections/seal.rs::EventSeal"]}
{"id": "C101", "title": "What the acceptance of an event depends on", "statement": "Whether process accepts a key event, and the state it returns, depend only on the log of the identifier of the event and, for delegated events, on the log of the delegator. Receipts, replies, queries and reprocessing influence no log: witness receipts are not awaited, whatever witnesses and tally an identifier announces, and an inception with any tally is accepted with the signatures of its own keys alone. The log of an identifier that is not delegated is determined by the submissions in its name, in their order, however the streams of other identifiers are interleaved; for delegated identifiers the interleaving with the stream of the delegator matters.", "quantifier": "all pairs of histories, all events, identifiers, witness lists and tallies", "why_tests_cant": "all pairs of histories and all interleavings", "anchors": ["src/processor/mod.rs::EventProcessor::process_event", "src/processor/mod.rs::EventProcessor::validate_seal", "src/event/event_data/inception.rs::InceptionEvent", "src/processor/mod.rs::EventProcessor::process_witness_receipt"]}
{"id": "C102", "title": "Handing on a log by its export", "statement": "A node that has the first k events of a log, possibly none, and calls respond on what get_kerl of another node returned for it, then has exactly these events and the ones from the k-th on up to the first that carries a seal or is delegated, whatever respond answers or even if it panics while answering. So the export of a log of plain events without seals hands on the whole log to every node with a beginning of it; the export of a delegated log teaches a node that does not know the identifier nothing, even if that node has the log of the delegator with the anchors, because the source seals are not exported.", "quantifier": "all exporting histories with signed exportable logs, all importing histories with a beginning of the log, all controllers", "why_tests_cant": "All logs, all beginnings of a copy and all histories of the importing node.", "anchors": ["src/processor/mod.rs::EventProcessor::get_kerl", "src/keri/mod.rs::Keri::respond", "src/event_message/signed_event_message.rs::SignedEventMessage", "src/event_parsing/message.rs::signed_event_stream"]}
{"id": "C103", "title": "Payload codes and counts", "statement": "Every payload code is displayed as the text it is read from, except E, which is displayed as D; no other text is read as a code and no two texts are the same code. For the codes that carry a count, what adjust_with_num writes begins with the code and two characters which are read back as the count exactly when it is below 63; from there up to 4094 they are read back as a sixteenth of it, and from 4095 on a third character is left over as well. For codes without a count it writes the code alone, and it panics exactly for 0G, -H and the seven four-character codes. The length a reader skips for a code is the length of its text and count, except for the codes on which adjust_with_num panics, where it is zero. The size of a code is the length of the code followed by the base64 text of the material it stands for (32 bytes for seeds, keys and 256-bit digests, 64 for signatures and 512-bit digests, 33 for compressed secp256k1 keys, 57 and 114 for Ed448, 56 for X448, 16 for a salt, 24 for a time stamp, 2, 3 and 4 for numbers and tags), so it is the length of the text of every key, digest or signature with that code; it is 88 for a member of a -A or -B group and 0 for every other counter; the asynchronous reader uses the same sizes.", "quantifier": "all payload codes, all texts, all counts in u16", "why_tests_cant": "The domain is all texts and all counts.", "anchors": ["src/event_parsing/payload_size.rs::PayloadType", "src/event_parsing/attachment.rs::b64_count", "src/derivation/attached_signature_code.rs::num_to_b64"]}
{"id": "C104", "title": "The order of stored events", "statement": "The comparisons of timestamped events, signed or not, are total preorders, the partial comparison is the total one, and equal events compare as equal. A stable sort by them has only one outcome, which is the order in which compute_state applies the events whatever times they carry; a stored log is already in that order. The converse of the agreement of Eq and Ord fails: all events with one sequence number compare as equal, of whatever identifier and content; events that differ in time or source seal are equal when signed, and an unsigned event converted twice is equal to itself only if the clock did not move.", "quantifier": "all triples of stored events, all lists of them, all histories", "why_tests_cant": "Order laws speak of all triples of events and of lists of any length.", "anchors": ["src/event_message/mod.rs::TimestampedEventMessage", "src/event_message/signed_event_message.rs::TimestampedSignedEventMessage", "src/processor/mod.rs::EventProcessor::compute_state"]}
{"id": "C105", "title": "Reading while another thread writes", "statement": "compute_state and get_kerl, run while another thread is at any points in the middle of a call, answer for the log before that call or for that log with the submitted event appended, never for a mixture. But the submitted event is visible before its signatures are checked, and others act on it: whatever would be accepted with an event in the log is accepted, and stays logged for good, if it is submitted by another thread at a certain moment of the call that refuses that event for its signatures. So an unsigned event in the name of a delegator, refused and gone after the call, is enough to have a delegated inception accepted that the delegator never anchored.", "quantifier": "all reachable databases, all calls, all points of the call at which the reader looks; all pairs of a refused event and one that relies on it", "why_tests_cant": "The reader may look between any two storage operations of the writer; tests do not control that schedule.", "anchors": ["src/processor/mod.rs::EventProcessor::process_event", "src/processor/mod.rs::EventProcessor::compute_state", "src/processor/mod.rs::EventProcessor::get_kerl", "src/database/sled/tables.rs::SledEventTreeVec::push", "src/database/sled/tables.rs::SledEventTreeVec::remove"]}
{"id": "C106", "title": "Chains of delegation", "statement": "Delegation can be nested. Whatever was submitted in whatever order, and even where a call crashed, every identifier a node has a log of hangs on a finite chain of delegators that ends at an inception nobody delegated, and each delegator of the chain has anchored the inception below it; no identifier is delegated by itself, directly or through others.", "quantifier": "all histories, all identifiers with a text, chains of any length", "why_tests_cant": "Chains have any length and are built in any order, interleaved with anything else and with crashed calls.", "anchors": ["src/processor/mod.rs::EventProcessor::process_event", "src/processor/mod.rs::EventProcessor::validate_seal", "src/event/event_data/delegated/mod.rs::DelegatedInceptionEvent"]}
{"id": "C107", "title": "Any number of threads", "statement": "Any number of threads can process messages on one database at the same time, one storage access after another in any order. If no two of the calls use the same identifier, and all those identifiers are known to the database, then every call that has returned has returned what it would have returned alone, the tables are in the end those of the calls made one after the other in any order, and what no call uses is untouched; no thread ever has to wait for another. A plain event uses its own identifier only. With the same identifier this fails: two threads with rival events can both be told of success while only one event is in the log.", "quantifier": "all numbers of threads, all messages, all schedules of the single storage accesses, all histories before", "why_tests_cant": "The number of threads is unbounded and their accesses interleave in exponentially many ways; a test sees a few schedules.", "anchors": ["src/database/sled/tables.rs::SledEventTreeVec", "src/database/sled/mod.rs::SledEventDatabase", "src/processor/mod.rs::EventProcessor::process"]}
{"id": "C108", "title": "A node and everything that reaches it", "statement": "However the user of a node calls the methods of its controller (incept, rotate, make_ixn, make_rct, make_ntr, respond, respond_single, the stream processor, the processor itself), in whatever order, and whatever bytes strangers send it at any time, also when calls fail or panic: the logs in its database are those that submitting events one by one leaves. No log ever loses or changes an event, every log is numbered and chained from one inception with every rotation opening the commitment before it, and every event in a log came in with some call or was built and signed by the node itself.", "quantifier": "all sequences of calls, all bytes, all key managers and signature functions, all readers of the binary formats", "why_tests_cant": "Call sequences and bytes are unbounded and chosen by strangers; the claim is an invariant of everything a node can ever reach.", "anchors": ["src/keri/mod.rs::Keri::respond", "src/keri/mod.rs::Keri::respond_single", "src/keri/mod.rs::Keri::make_ntr", "src/processor/async_processing.rs::Processor::process"]}
{"id": "C109", "title": "A panic during inception locks the keys for ever", "statement": "The controller keeps its keys behind a lock that a panic poisons. If signing itself does not panic, the lock is poisoned exactly by an incept or incept_with_extra_keys that panics (they process the event with the lock held); no other method poisons it, whatever bytes strangers send and even if the method panics. Until then the lock makes no difference to any result, key or table. From then on incept and rotate return MutexPoisoned and change nothing, make_ixn, interact, make_rct and make_ntr never succeed, respond answers with nothing and the stream processor sends no receipt; no sequence of calls cures it or changes the keys or the identifier. The node still takes in the events of others exactly as before, and its logs remain those of submissions, in which every event came from outside or was made while the lock was in order.", "quantifier": "all sequences of calls to a node, all bytes sent to it, all databases and environments, panics included", "why_tests_cant": "The state in question is reached by a panic at one place and must then persist through every later sequence of calls; a test sees one panic and one call.", "anchors": ["src/keri/mod.rs::Keri::incept", "src/keri/mod.rs::Keri::incept_with_extra_keys", "src/keri/mod.rs::Keri::rotate", "src/keri/mod.rs::Keri::make_ixn", "src/error/mod.rs::Error::MutexPoisoned"]}
{"id": "C110", "title": "CBOR messages carry what JSON ones carry, but only first in a batch", "statement": "A key event written as CBOR is read back as itself exactly when the same event would be in JSON, leaving what follows; signed events and receipts in CBOR with all their attachments read back when text or nothing follows. But after any message, JSON or CBOR, the reader of attachments fails outright, instead of stopping, when the next two bytes are not text, and every CBOR message starts so. Hence any batch in which a CBOR message comes after another message is not read at all: signed_event_stream returns an error, and respond returns an error and stores nothing of the batch, not even the messages before the CBOR one.", "quantifier": "all events and receipts in CBOR, all attachments, all batches, all bytes that follow, all nodes and databases", "why_tests_cant": "All batches, attachments and following bytes are meant; tests read one message at a time, and there the failure does not show.", "anchors": ["src/event_parsing/attachment.rs::attachment", "src/event_parsing/message.rs::signed_message", "src/event_parsing/message.rs::signed_event_stream", "src/event_message/serialization_info.rs::SerializationFormats::encode", "src/keri/mod.rs::Keri::respond"]}
{"id": "C111", "title": "MessagePack forgets which seal it is", "statement": "MessagePack messages are written without the names of the members of inner structures. A key event written as MessagePack reads back with every root seal turned into a digest seal and everything else unchanged; so it reads back as itself exactly when it has no root seal. Receipts of both kinds read back as themselves. Two events that differ only so have the same bytes, hence the same digest, signatures and self-addressing identifier, and the processor gives both the same verdict on every database reached by any history; JSON and CBOR tell every two representable events apart. The size of CBOR and MessagePack texts depends only on the shape of the event, so the version string and the derivation of identifiers agree on it, as for JSON.", "quantifier": "all key events and receipts, all signatures on them, all bytes that follow, all histories", "why_tests_cant": "All events and histories are meant: two meanings share one text, which no comparison of an event with itself after reading shows unless it has a root seal.", "anchors": ["src/event_message/serialization_info.rs::SerializationFormats::encode", "src/event/sections/seal.rs::Seal", "src/event/sections/seal.rs::RootSeal", "src/event/sections/seal.rs::DigestSeal", "src/event_parsing/message.rs::key_event_message"]}
{"id": "C112", "title": "Only whole events survive storage, and anyone can store one that does not", "statement": "Vectors of events, of receipts and of witness receipts, written to the database and read back, come back as they were exactly when each of their elements does (the delegator seal is never stored); they are filed under eight bytes whose order is that of the numbers. A key event read from the wire reads back precisely when every key, digest, identifier and signature in it has its full length, no weight has a zero denominator and no signature has an index above 62; the reader of the wire accepts others. Hence, for every history and every identifier with a readable log, and any 64 bytes, there are bytes, made of the public part of the log only, which the parser takes for an event and which, whatever process answers, stay in the log of that identifier for ever and make every later question for its key state crash.", "quantifier": "all vectors of stored values, all texts on the wire, all attached signatures, all histories before and after, all identifiers", "why_tests_cant": "All histories, identifiers and texts are meant; a test stores events it has built itself, which always read back.", "anchors": ["src/database/sled/tables.rs::SledEventTreeVec", "src/database/sled/tables.rs::key_bytes", "src/event_message/signed_event_message.rs::SignedEventMessage", "src/event_parsing/prefix.rs::attached_signature", "src/processor/mod.rs::EventProcessor::process_event", "src/processor/mod.rs::EventProcessor::compute_state"]}
{"id": "C113", "title": "Receipts may arrive in any order", "statement": "What process answers to a receipt, of either kind, does not depend on the receipts that arrived before it. If the same receipts arrive in two orders after the same history, the logs are the same, and for every identifier get_receipts_t, get_receipts_nt and the two escrows return the same receipts the same number of times, up to order, and has_receipt answers the same. Two conditions are needed: each receipt must read back from its own text (one that does not either makes reading crash or is lost, depending on the order), and only receipts may be exchanged (a receipt before the event that its issuer needs is not stored as one after it is).", "quantifier": "all histories, all lists of receipts and all their permutations, all identifiers", "why_tests_cant": "All permutations of all lists of receipts after all histories are meant.", "anchors": ["src/processor/mod.rs::EventProcessor::process_validator_receipt", "src/processor/mod.rs::EventProcessor::process_witness_receipt", "src/processor/mod.rs::EventProcessor::has_receipt", "src/database/sled/mod.rs::get_receipts_t", "src/database/sled/mod.rs::get_receipts_nt"]}
{"id": "C114", "title": "Submitting again after a crash is safe for the logs", "statement": "A client hands over its messages one after another and submits each one again, as often as it takes, when the process was killed before it answered; in between, other calls that submit no event may run and be killed too. If without crashes every event among the messages would be accepted, then wherever and however often the process is killed, the logs of all identifiers at the end are those without crashes, and so is the key state of every identifier that has events. The second submission is accepted with the answer that was due, or it is refused and then the event is already in the log. What a kill left of an event that would be refused (C59) is not removed by submitting it again, and a receipt may be stored twice. If a power failure may throw the database back to any state that it passed through since the last restart, taking back answered calls, then submitting all messages again from the first leads to the same logs, after any number of such failures.", "quantifier": "all reachable databases, all lists of messages, all crash points of all attempts, all numbers of attempts, all identifiers", "why_tests_cant": "All crash points of every attempt, and any number of attempts, are meant; a test kills a process at a few moments.", "anchors": ["src/processor/mod.rs::EventProcessor::process", "src/processor/mod.rs::EventProcessor::process_event", "src/processor/mod.rs::EventProcessor::compute_state", "src/database/sled/mod.rs::add_kel_finalized_event", "src/database/sled/tables.rs::SledEventTreeVec"]}
{"id": "C115", "title": "Exactly which events are accepted", "statement": "After any history, an event is accepted if and only if: its identifier's stored log can be read; it has the next sequence number; it is an inception exactly if the log is empty; the events of the log have the same identifier; an inception is tied to its identifier (key list, digest field or digest); any other event names the digest of the log's last event; a rotation reveals the threshold and keys committed to by the keys in force; a plain rotation is not one of a delegated identifier; a delegated event points to a readable event, other than an inception, of the delegator's log that carries an event seal naming it; and it is validly signed by enough of the keys in force once it is applied. The answer is then the key state described by the log followed by the event. Nothing else matters: not the receipts, witnesses, escrows, other logs or timestamps.", "quantifier": "all histories, all events of identifiers with non-empty text", "why_tests_cant": "An equivalence over all histories and all events: a test can show that some events are accepted and some refused, not that the list of conditions is complete.", "anchors": ["src/processor/mod.rs::EventProcessor::process_event", "src/processor/mod.rs::EventProcessor::validate_seal", "src/processor/mod.rs::EventProcessor::apply_to_state", "src/event_message/key_event_message.rs::apply_to", "src/event_message/key_event_message.rs::verify_identifier_binding", "src/event/sections/key_config.rs::KeyConfig"]}
{"id": "C116", "title": "Non-transferable identifiers keep their key", "statement": "An identifier whose derivation code says that it is non-transferable never has other keys in force than the key it consists of. (False: nothing looks at the code; such an identifier that has incepted itself with a commitment is rotated to the committed keys like any other.)", "quantifier": "all non-transferable keys, all histories, all rotations that reveal the committed keys", "why_tests_cant": "All non-transferable keys and all rotations are meant.", "anchors": ["src/derivation/basic.rs::Basic", "src/event_message/key_event_message.rs::apply_to", "src/prefix/mod.rs::verify", "src/processor/mod.rs::EventProcessor::process_event"]}
{"id": "C117", "title": "What a message can cost", "statement": "After any history the number of stored records is bounded by what was submitted: at most one event record (log, duplicates) per submitted event, one receipt record per submitted receipt, of either kind, accepted or escrowed; the replies, accepted and escrowed, are at most the submitted ones times two to the number of reprocessing calls (which C49 shows is reached). An identifier gets a key in the database only by being named: a message names at most two (its own and the delegator or the signer), a lookup one, reprocessing none; a lookup of an unknown identifier does create it.", "quantifier": "all histories: any messages, accepted or refused, reprocessing and lookups", "why_tests_cant": "All histories are meant: a bound on growth is a statement about every sequence of messages, refused ones included.", "anchors": ["src/processor/mod.rs::EventProcessor::process", "src/processor/mod.rs::EventProcessor::process_escrow", "src/database/sled/tables.rs::designated_key", "src/database/sled/tables.rs::SledEventTreeVec", "src/database/sled/mod.rs::update_accepted_reply"]}
{"id": "C118", "title": "How a JSON text is spelled does not matter", "statement": "A JSON text is read exactly if it is, after optional white space, a JSON object by the grammar: with any white space between its parts, any escapes in its strings (surrogate pairs joined, lone ones refused), well-formed numbers, no trailing commas, valid UTF-8, nested less than 128 deep; the members come in their order, and the reader stops right after the closing brace. Two spellings of the same object are read as the same event or receipt, with the same attachments; so every later decision is the same, and the signatures cannot be those of the text that was sent unless it has the standard spelling.", "quantifier": "all byte strings, all objects, all their spellings", "why_tests_cant": "All texts and all spellings are meant: tests read texts this library has written, which have one spelling.", "anchors": ["src/event_parsing/message.rs::json_message", "src/event_parsing/message.rs::key_event_message", "src/event_parsing/message.rs::receipt_message", "src/event_parsing/message.rs::signed_message"]}
{"id": "C119", "title": "What the holder of an extra key can do alone", "statement": "A user who calls incept_with_extra_keys expects the extra keys to share control. They do not: the inception asks for one signature. As long as the log has no rotation, the holder of any one extra key can at any time write an interaction with any anchors into the log, with no other signature, and no other event with that number is accepted afterwards. The controller's rotate ends this: until the next rotation every other accepted event carries exactly one signature, a valid one of the controller's new key, and the extra keys have lost all say.", "quantifier": "all controllers, extra keys, later histories, anchors; all later events", "why_tests_cant": "All later histories, extra keys and anchors are meant; a test that signs with the first key alone passes for the wrong reason.", "anchors": ["src/keri/mod.rs::incept_with_extra_keys", "src/keri/mod.rs::rotate", "src/event_message/event_msg_builder.rs::EventMsgBuilder", "src/event/sections/key_config.rs::KeyConfig", "src/processor/mod.rs::EventProcessor::process_event"]}
{"id": "C120", "title": "A network that exchanges bytes", "statement": "Controllers with processors and databases of their own hand each other nothing but byte strings, to respond and respond_single, while their users rotate and interact, sign receipts, export logs and reprocess what waits, in any order, with repetitions, losses and garbage. As long as no bytes hold an event in the name of a node that its owner has not logged, what any node has of another's log is an initial piece of it, two nodes never disagree about a place of a log, every call of a user succeeds, a node that has been given the wire texts of a log in order has all of it, and at any moment the bytes exported by the owner of a log without seals bring any other node up to date.", "quantifier": "all numbers of nodes, schedules, byte strings, call results", "why_tests_cant": "The claim ranges over all interleavings of calls and deliveries at any number of nodes and over all byte strings delivered; tests run a few scripted exchanges.", "anchors": ["src/keri/mod.rs::respond", "src/keri/mod.rs::respond_single", "src/keri/mod.rs::rotate", "src/keri/mod.rs::make_ixn", "src/keri/mod.rs::make_rct", "src/processor/mod.rs::EventProcessor::get_kerl", "src/processor/mod.rs::EventProcessor::process_escrow"]}
{"id": "C121", "title": "The identifier without a text", "statement": "Every identifier read from a text has a non-empty text, and so do the identifiers and delegators of all events taken from bytes in any format and of all events a node makes itself. So a node never has a log for the default identifier or another one without a text, and for all identifiers whatever, without exception, its logs only grow, are numbered and chained and pre-rotated, hold only what came in or was made, and hang on a finite chain of anchored delegators that ends at an undelegated identifier.", "quantifier": "all byte strings, calls of all methods in any order, identifiers", "why_tests_cant": "The claim is about all byte strings and all identifiers, including those a text cannot spell; tests use identifiers they have derived.", "anchors": ["src/prefix/mod.rs::IdentifierPrefix", "src/keri/mod.rs::respond", "src/keri/mod.rs::respond_single", "src/event_parsing/message.rs::key_event_message", "src/event_parsing/message.rs::signed_message", "src/event_message/event_msg_builder.rs::EventMsgBuilder"]}
{"id": "C122", "title": "All logs, from the events alone", "statement": "After every history of submissions, look-ups and reprocessing, and at every node whatever bytes it was given, the logs of all identifiers are those of a machine that has one list of events per identifier and one step: a submitted event goes to the end of the list of its identifier if it fits (next number, inception first and tied to its identifier, digest of the last event, committed keys revealed, plain rotations for plain identifiers, delegated events sealed) and is signed by the keys in force, or fits and crashes the check of signatures by its indices, cannot be read back, or cannot be written; otherwise nothing happens. An event that can be written and read back, with indices that name keys and weights, enters a log if and only if process returns Ok for it.", "quantifier": "all histories, events, identifiers with a text; all calls and byte strings of a node", "why_tests_cant": "The claim describes the logs after every history of submissions, including the events that are refused, crash the check or cannot be read back; tests look at a few short histories.", "anchors": ["src/processor/mod.rs::EventProcessor::process_event", "src/processor/mod.rs::EventProcessor::compute_state", "src/processor/mod.rs::EventProcessor::validate_seal", "src/event_message/mod.rs::EventMessage", "src/event/sections/key_config.rs::verify", "src/keri/mod.rs::respond"]}
{"id": "C123", "title": "Exactly which events crash the processor", "statement": "After every history, process never returns for an event if and only if one of four conditions on the stored logs and the event holds: looking for the seal of a delegated event in the log of its delegator crashes (that log cannot be read back, or the event with the number given holds an event seal that cannot be compared with this event, before any that names it); the log of the event's own identifier cannot be read back; the event is an inception of a self-signing identifier or a delegated inception of an identifier that is not a digest, and its delegation is in order; or the event fits the log and an index of its signatures names no key or weight. For a JSON event and readable logs only the last two are left.", "quantifier": "all histories, events, identifiers with a text", "why_tests_cant": "A test shows that one event crashes; that nothing else does is a claim about all events and all stored logs.", "anchors": ["src/processor/mod.rs::EventProcessor::process_event", "src/processor/mod.rs::EventProcessor::validate_seal", "src/processor/mod.rs::EventProcessor::compute_state", "src/event_message/key_event_message.rs::verify_identifier_binding", "src/event_message/key_event_message.rs::check_digest", "src/event/sections/key_config.rs::verify"]}
{"id": "C124", "title": "A check in front of the processor", "statement": "If a caller checks of every event, before submitting it, that its identifier has a text, that it can be written and read back, and that the indices of its signatures are in range of the event's own keys (of the keys compute_state shows, if it sets none) and of the weights of a single clause, then after every history every log can be read back and every event of every log is signed by the keys in force, an event that is refused changes no log, an accepted one is added to the log of its identifier and to no other, and a JSON event never makes process panic unless its identifier is of a kind that is not implemented.", "quantifier": "all histories of checked submissions, look-ups and reprocessing; all identifiers", "why_tests_cant": "That a check suffices is a claim about all histories of checked submissions; a test can only fail to find a gap.", "anchors": ["src/processor/mod.rs::EventProcessor::process_event", "src/processor/mod.rs::EventProcessor::compute_state", "src/event/sections/key_config.rs::verify", "src/database/sled/mod.rs::add_kel_finalized_event", "src/database/sled/mod.rs::remove_kel_finalized_event"]}
{"id": "C125", "title": "Families of identifiers", "statement": "Take any set of identifiers that holds the delegators of its members. The logs of the members, and the answer to the next event of a member, depend only on the events submitted for members, in their order: two nodes that were given these in the same order, with any other events, receipts, replies, queries, look-ups and reprocessing in between, have the same logs of all members and answer the next event of a member alike, and the events of strangers may be added anywhere without effect.", "quantifier": "all histories, sets of identifiers that hold the delegators of their members, events", "why_tests_cant": "The claim compares all interleavings of all histories; a test compares two.", "anchors": ["src/processor/mod.rs::EventProcessor::process_event", "src/processor/mod.rs::EventProcessor::validate_seal", "src/processor/mod.rs::EventProcessor::compute_state", "src/processor/mod.rs::EventProcessor::process_escrow"]}
{"id": "C126", "title": "Two versions of a log are evidence", "statement": "Whoever holds the logs of one identifier from two processors, in each of which every event is signed by the keys in force, holds either a log and its continuation, or a proof of duplicity: a position up to which the events are the same and at which there are two different events with the same number, naming the same predecessor, each signed by the keys in force once it is applied to the common events, and each revealing the keys these are committed to if it is a rotation. If neither sets keys, the same keys have signed both, and if more than half of the keys must sign, the holder of one key has signed both. Callers that make the check of C124 have such logs.", "quantifier": "all pairs of histories, identifiers with a text; all key lists, thresholds and sets of signatures", "why_tests_cant": "The claim ranges over all pairs of histories and all sets of signatures; a test shows one fork.", "anchors": ["src/processor/mod.rs::EventProcessor::process_event", "src/processor/mod.rs::EventProcessor::get_kerl", "src/event/sections/key_config.rs::verify", "src/event/sections/key_config.rs::verify_next"]}
{"id": "C127", "title": "Exactly what becomes of a receipt", "statement": "Every receipt is counted, put aside, refused without a trace, or crashes process. A receipt of a validator is accepted if and only if both logs can be read, the event it receipts and the validator event it names are logged, and the keys that event established have signed the receipted event; it is then appended to the receipts and nothing else is written. Beyond the end of a readable log it goes to the escrow and nowhere else. It crashes process if and only if the log of the receipted identifier cannot be read, or, with the event there, the log of the validator cannot be read or an index names no key or weight of the established keys. In every other case nothing at all is written. A witness receipt crashes process exactly if the log cannot be read, and is accepted exactly if it can be and the event is missing or each key is of the algorithm of its signature: signatures and keys play no part.", "quantifier": "all histories; all receipts of both kinds whose identifiers have a text", "why_tests_cant": "The conditions are necessary and sufficient over all histories and receipts; a test shows single outcomes and cannot show that no other receipt crashes or leaves a trace.", "anchors": ["src/processor/mod.rs::EventProcessor::process_validator_receipt", "src/processor/mod.rs::EventProcessor::process_witness_receipt", "src/processor/mod.rs::EventProcessor::get_keys_at_event", "src/processor/mod.rs::EventProcessor::get_event_at_sn", "src/event/sections/key_config.rs::verify", "src/database/sled/mod.rs::add_receipt_t", "src/database/sled/mod.rs::add_escrow_t_receipt"]}
{"id": "C128", "title": "Exactly which replies are accepted, and which crash", "statement": "A reply with a key state notice is accepted if and only if its route names its signer, its signature is valid and can be checked, its digest is that of its content, the replies accepted before about the same identifier can be read and the one of the same route may be replaced, and the log of the identifier can be read and its last event has the number and the digest of the notice. It crashes process if and only if its route names its signer and: its notice names no next keys; or the log of the signer cannot be read, or an index names no key or weight of the keys it was signed with; or, with a valid signature and digest, the replies accepted before cannot be read, or it is not older than the one of its route and the log of the identifier cannot be read. So a notice about an abandoned identifier crashes every processor, even an empty one, whoever sends it.", "quantifier": "all histories; all replies whose subject and signer have a text", "why_tests_cant": "The conditions are necessary and sufficient over all histories and replies; a test shows single outcomes and cannot show that no other reply crashes or is accepted.", "anchors": ["src/processor/mod.rs::EventProcessor::process_signed_reply", "src/processor/mod.rs::EventProcessor::bada_logic", "src/processor/mod.rs::EventProcessor::check_ksn", "src/processor/mod.rs::EventProcessor::get_keys_at_event", "src/query/key_state_notice.rs::serialize", "src/query/reply.rs::check_digest", "src/event/sections/key_config.rs::verify"]}
{"id": "C129", "title": "Exactly which signed queries are answered, and which crash the witness", "statement": "A witness with a working key answers a signed query if and only if the log of the signer can be read, the query is signed with the keys in force of its signer, the log of the identifier asked about can be read, and either the log is asked for and the identifier has an entry (a rejected inception leaves an empty one, which is answered with no bytes) or its state is asked for and it has a log and next keys. A signed query crashes the witness if and only if: the log of the signer cannot be read; or the signer is known and the query cannot be written; or an index names no key or weight of the signer's keys in force; or it is signed in force and has the route of a reply, or is about an identifier whose log cannot be read or (for the log) cannot be exported, or asks for the state of a known identifier without next keys. So whoever knows the public log of one signer can crash the witness without any key. Asked outright for the notice of an identifier it crashes if and only if the log cannot be read or describes a state without next keys, as no log does.", "quantifier": "all histories; all signed queries whose signer and subject have a text; all witnesses whose key signs", "why_tests_cant": "The conditions are necessary and sufficient over all histories and queries; a test shows single answers and cannot show that no other query crashes or is answered.", "anchors": ["src/keri/witness.rs::process_signed_query", "src/keri/witness.rs::process_query", "src/processor/mod.rs::EventProcessor::compute_state", "src/processor/mod.rs::EventProcessor::get_kerl", "src/event/sections/key_config.rs::verify", "src/query/key_state_notice.rs::new_ksn"]}
{"id": "C130", "title": "A check in front of process for every message", "statement": "There is a program that looks at a message and at the stored logs only, such that a caller that submits just the messages that pass, and does not call process_escrow, never sees process crash, whatever the messages are and whether or not they were accepted; and every log and every accepted reply can be read back. It asks that identifiers have a text; that an event is JSON, can be written and read back, has indices in range of the keys that will be in force and an identifier that can be checked; that the indices of a receipt or reply are in range of the keys of the event it names; that a reply names next keys and comes back unchanged from storage; and it lets no query through. A witness given only such messages does not crash on a signed query either, if the query is JSON, its indices are in range of the signer's keys in force and it asks for a log that can be written or a state with next keys.", "quantifier": "all histories of checked messages; all messages; all keys and hash functions", "why_tests_cant": "The claim is that no sequence of messages that pass the check ever crashes the processor; a test tries some sequences.", "anchors": ["src/processor/mod.rs::EventProcessor::process", "src/processor/mod.rs::EventProcessor::process_event", "src/processor/mod.rs::EventProcessor::process_validator_receipt", "src/processor/mod.rs::EventProcessor::process_witness_receipt", "src/processor/mod.rs::EventProcessor::process_signed_reply", "src/event/sections/key_config.rs::verify", "src/database/sled/tables.rs::iter_values"]}

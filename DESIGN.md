# A machine-checked model of keriox in Lean 4 — design

The model is under `lean/Verif`, the property theorems under `lean/Verif/Props`; theorem names begin with the property id
(`C14_accepted_anchored`). `properties.jsonl` holds the English claims, `MANIFEST.json` the theorems per claim, `AXIOMS.md` the axioms
each theorem depends on, `seeded/LOG.jsonl` the wrong programs the theorems were tried against.

## 1. Trusted base

* **Lean 4.33.0's kernel**, and that it checked the `.olean` files (`lake build`, `vcheck`). No `native_decide`, no `bv_decide`, no own axiom;
  concrete computations use `decide`/`decide +kernel`, i.e. kernel reduction.
* **Axioms**: at most `propext`, `Quot.sound` and `Classical.choice` (Lean's three standard ones). `AXIOMS.md` lists them theorem by theorem.
* **The model's faithfulness**: the definitions in the modules of section 2 were written by reading the Rust text (no code was run). Each
  carries the file and lines it models and says where it simplifies. Section 3 collects the simplifications.
* **The specifications**: the small definitions in which the theorems are stated — `Spec.lean` and the part headed "Specification" of each
  `Props` module — and the definitions of the model's inputs and outputs (events, messages, `Env`).

Nothing is assumed of cryptography unless a theorem has it as an explicit hypothesis (`Env.DigestSizes`, `CryptoBox.Works`, …). Where one would
like to say "no collision exists", the theorem says "or here are two texts with the same digest".

## 2. What is modelled, where

| module | models (all under /repo/src) |
|---|---|
| Prelude | `Result` with panics (`Res`: ok, err, panic), error values, bytes, `&str` slicing with char boundaries |
| Base64 | crate `base64` 0.13: `encode_config(URL_SAFE_NO_PAD)`, `decode_config(URL_SAFE)` incl. padding and trailing-bit rules |
| Codes | derivation/{basic,self_addressing,self_signing,attached_signature_code}.rs |
| Prefix | prefix/{mod,basic,self_addressing,self_signing,attached_signature,seed}.rs text forms and parsers |
| Seed | prefix/seed.rs `derive_key_pair`, prefix/mod.rs `derive`, keys/mod.rs `sign_ed`/`sign_ecdsa` over abstract curves |
| Nom | event_parsing/{prefix,attachment}.rs, the attachment codes of payload_size.rs, `Attachment::to_cesr` of mod.rs, the nom 5 combinators used |
| Serde, Json | serde data model of the messages, `serde_json` writing and reading, serialization_info.rs; `Env` (digests, signature checks, CBOR/MessagePack writers, time text) |
| Threshold, KeyConfig | event/sections/{threshold,key_config}.rs |
| Seal, Event | event/sections/seal.rs, event/event_data/*, event/mod.rs, state/mod.rs, event_message/key_event_message.rs, dummy_event.rs |
| Message | event_message/{mod,signed_event_message}.rs, event/receipt.rs, query/{mod,key_state_notice,reply,query}.rs |
| Machine | the threshold check of Threshold/KeyConfig in `u64` and `u16` words, with panicking or wrapping overflow; `Ratio<u64>` addition of num-rational 0.4 from its published source |
| QueryWire | feature `query` on the wire: `Deserialize` of replies, notices, states and queries (query/*.rs, state/mod.rs), event_parsing/message.rs and `signed_reply`/`signed_query` of event_parsing/mod.rs, `respond` with that feature; the reader of RFC 3339 texts (`chrono`) is a parameter |
| Wire | `Deserialize` of events and receipts, event_parsing/message.rs (feature `query` off), `TryFrom<SignedEventData> for Message`, `to_cesr` |
| Build | event_message/event_msg_builder.rs, `to_message`/digest derivation of event_message/mod.rs |
| Db | database/sled/{tables,mod}.rs and the storage codec of the stored values |
| Processor | processor/mod.rs (feature `query` on), `EventDatabase` functions, event_message/serializer.rs (`get_kerl`) |
| Step | the same storage operations as sequences of single sled calls, processes as interaction trees: kills and interleavings |
| Keri | keri/{mod,witness}.rs, signer/mod.rs (`CryptoBox`) |
| Storage | the bytes of the vectors of events, receipts and witness receipts in the sled trees, and what reading makes of them; Db works with `rt`, which C112 proves to be what reading means |
| Cbor, Mgpk | the CBOR and MessagePack texts of events and receipts and what the readers make of them, from RFC 8949, the MessagePack specification and the documented behaviour of the crates |
| Poison | the methods of keri/mod.rs and the turn of the stream processor once more, with the lock of the key manager and its poisoning |
| EventDb | `EventDatabase::get_state_for_prefix` (database/mod.rs) for any implementation of the trait; `get_state_for_prefix`, `get_state_for_seal` (keri/mod.rs) |
| Payload | `PayloadType` with all its codes (event_parsing/payload_size.rs); `PayloadType` of the parsers (Message) and `Async.payload` are proved to agree with it |
| Stamped | timestamped events, their comparisons, equalities and conversions (event_message/mod.rs, signed_event_message.rs) |
| DryRun | `Keri::process` (keri/mod.rs) and `process_actual_event` (processor/mod.rs) |
| Wallet | signer/wallet.rs, keri/mod.rs:46-80 (feature `wallet`) |
| Async | processor/async_processing.rs: the loop as a state machine over the reads the source returns and what the writer does |
| Refine, Param | proof that the two-level sled tables refine a map from identifier texts to lists, for every processor function |
| Rel | the processor is parametric in the storage calls for any relation between computations closed under the monad; used for threads (C107) |
| Spec | vocabulary of the log properties: contiguous, chained, fold of a log, valid signature sets |
| *Facts, KelInv, KelStep, Frozen | lemmas |
| Example, KeriExample | a concrete environment, keys, logs and controllers for non-vacuity examples and counterexamples |
| Props/* | the properties |

**Not modelled**: database/lmdb.rs (deprecated: its feature is no longer declared) and the required methods of the trait in
database/mod.rs (whatever an application implements), the internals of sled and of the signature crates; the CBOR
and MessagePack crates only as far as Cbor.lean and Mgpk.lean go (no source in the sandbox; elsewhere they are arbitrary parameters), of the wallet crate (assumed in Wallet.lean to be a map from names to contents), logging and error texts.

## 3. Modelling conventions and simplifications

* Every slice, index, `unwrap`, `todo!()`, `unreachable!()` that an input can reach is an explicit `panic` outcome; a panic leaves the database as it
  was at that moment. Sequence numbers, weights etc. are `Nat`; `u64`/`u16` bounds are explicit where a property depends on them
  (`fromStrRadix 16 u64max`, `numToB64`). Threshold arithmetic is exact in the processor model; `Machine.lean` models it in machine words and C80
  relates the two. Overflow of `sn + 1` at 2^64-1 is not in the model of the processor; C86 proves that it cannot happen before 2^64 events were submitted for one identifier. Overflow of the table-key counter is not modelled.
* `BTreeMap` keys, `sled::Tree` contents: ordered association lists.
* **Storage codec**: values are stored as themselves and decoded by a per-table function (`Tbl.dec`): decoding fails when one of the texts
  does not parse back (secp256k1 keys, signature indices above 62, …), drops the delegator seal (signed_event_message.rs:44-64), and
  re-reads the decimal numbers of a notice as hexadecimal (query/key_state_notice.rs). A value that would be misread into some other value is
  treated as undecodable. `Route` texts that do not parse panic in the code; they are treated as undecodable, which also ends in a panic.
* Instants are microseconds; `process_escrow` works on a snapshot of the escrow (the code iterates a sled iterator while writing; keys are visited
  in ascending order and only the current key is rewritten).
* **Histories** (`after env as`): any list of `process` calls with any `Message`, `process_escrow` calls and look-ups, on a fresh database.
  `Keri` calls add events through `process`, except `Keri::interact`, which bypasses it; histories with controllers are in Props/Controller and Props/Interact.
* Identifiers are compared by text in the tables, as the code does. Theorems about a log exclude the identifier whose text is empty
  (`IdentifierPrefix::default()`), for which the code's duplicate-inception check does not work.
* **Crashes and threads**: a process is a tree of single sled calls; each call is atomic and durable in program order (no model of sled's flushing:
  a power failure may lose more than a kill: C114_from_the_first). Threads interleave at these calls.
* **JSON reader**: structure, strings with escapes, depth limit; numbers carry no value (no field read from JSON is numeric). Duplicate members,
  member order, `deny_unknown_fields`-free structs, `flatten` and untagged enums follow serde_derive.
* The CBOR/MessagePack readers tried after JSON are abstract (`Binary`), with the hypothesis "rejects texts that begin with `{`" where needed. C110 and C111 assume of them what Cbor.lean and Mgpk.lean define.
* **Controller**: the key manager and fresh keys are parameters; `CryptoBox.Works` says "signing verifies under the announced key".

## 4. Plan per property

Every property is stated over the model of the real entry point (`process`, `KeyConfig::verify`, `signed_message`, …), with the
specification in its own definitions, and followed by an `example` that satisfies its hypotheses non-trivially. Where the property one
would hope for is false of the code, the property says what is true instead, and the theorem named `…_fails…` proves the negation of the hope by a witness that
goes through the real entry point (or, `…_fails_for_all`, for every input).

* **C01, C03, C04, C05, C15, C33**: one invariant of all reachable databases (logs contiguous, chained, foldable, pre-rotation respected), by
  induction on histories after refining the tables to a map (Refine, KelInv, KelStep); for C33 on every prefix of the sled calls of a process.
* **C02, C24, C54, C59**: exact case analysis of one `process` call (`event_outcome`): an event is refused and taken out again, or accepted, or it stays
  in the log because the check panicked; C59 gives the crash point.
* **C06**: xor of digests: iff, binding of a single key, and three attacks for every digest function (order, pairs, chosen keys by linear algebra
  over GF(2), proved by Gaussian elimination on lists).
* **C07, C10, C11, C13, C30**: frame lemmas (`Writes`, `ReadOnly`, isolation) over the parametric processor.
* **C08, C19, C25, C26, C27, C55**: the computed state is the fold of the log; step lemmas.
* **C09**: induction on the log, replaying on an empty database.
* **C12, C56, C58**: invariants ("these tables stay empty/unchanged").
* **C14, C16, C17, C18**: inversion of acceptance; counterexamples for what is not checked.
* **C20–C23, C53**: `Threshold.MetBy` in rational arithmetic; induction over clause lists; pigeonhole for quorum intersection.
* **C28, C29, C57**: invariants over receipt tables, both directions.
* **C31**: refinement to the map specification (`Cell`), for every sequence of storage calls.
* **C32, C60**: interaction trees; C60 by simulation against the solo run.
* **C34–C40**: list induction; `C38_exact`, `C36_canonical_iff` are equivalences; exceptions are proved for all inputs of their class.
* **C41–C45, C61, C62, C64**: reading what is written: a JSON writer/reader pair verified by mutual induction, then field by field.
* **C63**: `NP` (no panic) compositional proof for the readers; exact crash condition of the attachment parser (`Meets`).
* **C46–C50, C65, C66**: exact effect of one reply (`ReplyFacts`), invariants over histories.
* **C51, C52**: invariant of controller calls; for C52 the log keeps an unchained event for ever (Frozen).

(later properties are listed in section 6)

## 5. Findings (each is a theorem unless marked)

 1. `check_digest` compares a claimed digest with itself when the algorithm codes agree: digests and self-addressing identifiers are never
    recomputed (C16, C18); anyone can incept anyone's unused self-addressing identifier.
 2. `process_witness_receipt` verifies over the signed-event serialization and treats `Ok(false)` as success (C29).
 3. `process_event` inserts before verifying; an out-of-range signature index panics and leaves the unverified event in the log (C23, C24),
    so does a kill (C59); such an event can serve as a forged delegation anchor (C14_fails_forged_anchor).
 4. A rejected inception leaves an empty list behind: `compute_state` changes from `None` to `Some(default)` (C07_fails).
 5. The next-key commitment is an xor: order-insensitive, pairs cancel, and key lists can be chosen to meet any commitment (C06).
 6. `num_to_b64` is wrong for 63..4094 (C38); frames are written with a byte count and read with a quadlet count, writing `-H` groups panics (C40).
 7. secp256k1 keys never parse back (C35): an accepted event with one makes the log unreadable for ever (C08_fails); likewise a signature index above 62.
 8. `get_kerl` writes malformed JSON for every event with a seal and drops delegator seals (C45).
 9. Last-establishment data in the state is wrong after rotations (C27); `last_previous`/`last_event_type` are never set (read from the code).
10. `get_last_establishment_event_seal` is `None` for delegated identifiers (C26).
11. The duplicitous-event tables are never written (C12).
12. Version strings of events above 65535 bytes do not parse; short ones panic (C41, C44).
13. Notices are written with decimal and read with hexadecimal numbers: numbers above 9 drift at every rewrite, breaking signatures of escrowed
    replies; the delegator is lost (C50). `n: None` panics, `di: ""` does not parse (read from the code).
14. The reply escrow doubles blocked replies at each reprocessing (C49).
15. `Keri::interact` logs an unchained event and freezes its own identifier (C52).
16. `validate_seal` ignores the source seal's digest and the anchored seal's prefix and sn (C14_fails).
17. Table-key allocation and `push` are unsynchronised read-modify-writes (C32); `push` onto an undecodable list replaces it (C57_fails).
18. Zero denominators are accepted: 1/0 is infinity, 0/0 makes thresholds non-monotone (C21, C22).
19. Threshold zero or an empty clause list accepts unsigned events (C54).
20. Padded (`=`) prefixes are accepted and not canonical (C36).
21. Attachment codes that hit `todo!()`, leaky frames, short prefixes and version strings crash the parser (C63).
22. A poison event can make a victim's log permanently unreadable without the victim's keys (C02_fails, via 3 and 7).
23. `to_message` hashes an inception with its real prefix, `to_derivation_data` with a placeholder: basic-prefix inceptions do not recompute (C43_fails).
24. Duplicate witnesses and unreachable tallies are accepted (C55).
25. Receipt escrows are write-only (C56); the digest in a receipt is never compared (C58).
26. The receipt reader ignores the type tag `t` (C64). An event seal with an out-of-range sn parses as a digest seal (read from the code).
27. Notice contents other than sn and digest are unchecked (C66); a tally of 2^64-1 blocks the accepted table (C65); a basic identifier's bare key
    can go back in time (C46_fails_mixed).
28. Keyed Blake2 codes: the key is not part of the text (C35_keyed_blake2_loses_key).

29. The asynchronous processor spins for ever, fails or crashes on every message that states its true length (C67), and processes a message again
    when the writer is not ready (C68).
30. `make_ntr` receipts any event that names the controller, unprocessed, unsigned or contradicting an earlier one; any rotation text that prunes it
    deletes all witness receipts of that identifier; after a key rotation the receipt names a key the event does not list (C70).
31. `respond` hits `todo!()` on every accepted witness receipt; as witness receipts are accepted with any signatures (2), anyone can crash it (C72).
32. A written notice of an identifier without a delegator cannot be read back: the writer emits `"di":""`, the reader takes the empty text for
    an identifier and fails. The whole rest of the stream is dropped silently. (The repository's own tests parse keripy texts from which
    `,"di":""` has been removed: 650 bytes where the version string announces 658.) (C77)
33. Notices write sequence number, witness threshold and first-seen number in decimal and read them as hexadecimal: from 10 on another
    reply is read than was signed (C77).
34. With the `query` feature every signed query, by anybody, hits `todo!()` in `process`; every accepted reply hits `todo!()` in `respond`
    after having been stored; routes and empty groups panic (C78).
35. An array in the place of a struct has its elements read in field order before its length is checked, so elements of a wrong-length array
    can crash too (modelled in `structFields`).
36. A witness crashes on a signed query with a reply route, for the state of an identifier without next keys, and for the state of an
    identifier whose only inception was rejected for its signatures (an empty list stays behind, so the default state is notified);
    queries carry nothing that prevents replay (C79).
37. Weights with large coprime denominators overflow `u64`: a debug build panics, a release build refuses enough signatures, even a superset of an
    accepted set (C80). A clause of 2^16 or more weights is truncated to its length modulo 2^16 (C80).
38. The builder silently drops what a delegated event is given as witnesses or (inception) seals, has no method for the receipt threshold, panics on
    self-signing prefixes (C81). A delegated event that arrives before its anchor is lost (C82).
39. Of a receipt with the signature groups of several validators all but the last are dropped without an error; of a key event all signature groups
    but the first; key events whose attachments come in a frame are never understood although receipts are (C83).
40. `Keri::rotate` rotates the key manager before the event is made, signed and stored: if anything fails in between, or if two controllers share a
    key manager (the constructor takes an `Arc<Mutex<..>>`), the identifier can never be rotated or used again (C84).
41. A second `incept` on a controller with a self-addressing identifier succeeds and silently replaces the identifier (C85).
42. A controller made by `new_with_fresh_wallet` can never incept: its identifier is the wallet's Ed25519 key labelled as secp256k1 (C88).
43. `rotate` drops the extra keys given at inception: after it the controller's own key alone controls the identifier (C89).
44. `verify` accepts new data signed with superseded keys, and, without a seal, a retired key as a signer of its own (C90).
45. `Keri::process` looks at no signature and rejects every inception (C91).
46. The digest in a receipt made by `ReceiptBuilder`, `make_rct` or `make_ntr` is that of the whole event, never the digest the event carries and by which
    seals, logs and `check_digest` name it (C93); since the processor never looks at it (C58) nobody notices inside this library.

47. The commitments to next keys are XORs of digests, so a pair of equal keys cancels out. End to end: a stranger who has seen the next public keys rotates any
    identifier to `[x, x, …] ++ keys`, where he holds `x`, and signs with `x` alone; a stranger who knows only the commitment does it with keys of his own whose
    digests span the digest space (`C96_fails_for_all`, `C96_fails_blind`). That, forged signatures, crashes and false first inceptions are the only ways a log can be
    changed behind its owner's back (`C95_fork_needs_attack`).
48. `respond_single` reads one message and drops the rest of its input without an error; the state text it answers with always says
    `"p":null,"et":null`, because nothing ever fills these two fields of the state. A witness receipt that was put aside is answered
    with `InvalidIdentifierStat` as if it had been refused (C98).
49. The provided `EventDatabase::get_state_for_prefix` answers `Some(IdentifierState::default())` when the first stored event does not apply, and
    unwraps the parser (a panic on foreign bytes); no signature is checked there (C99).
50. `Keri::get_state_for_seal` ignores the digest of the seal and answers seals of future events with the current state (C100).
51. Witness receipts are never awaited: an event is accepted with any tally and no receipt, and the tally is only carried along in the state (C101).
52. The export of a delegated identifier cannot be imported anywhere: `get_kerl` drops the source seals, and the parser refuses delegated events without (C102).
53. `PayloadType::E` is displayed as `D`; counts of 63 and more written by `adjust_with_num` are read back as a sixteenth of them, and it panics for `0G`, `-H` and
    the four-character codes (C103).
54. `Ord` and `Eq` of timestamped events disagree: all events with one sequence number compare as equal; the source seal is not compared by `Eq` (C104).
55. Events are visible to other threads before their signatures are checked: an unsigned anchor in the name of a delegator, refused in the end, lets a delegated
    inception through that is submitted meanwhile (C105).
56. `incept` holds the lock of the key manager while the event is processed: if that panics (incepting again after an inception that cannot be read back, 3), the
    lock is poisoned and the controller can never sign again, although the keys are intact (C109).
57. After a message, the reader of attachments returns a nom `Failure`, not an `Error`, when the next two bytes are not UTF-8 (event_parsing/attachment.rs:107-110), and
    every CBOR and MessagePack map starts so: a batch in which a CBOR message follows another message is lost entirely (C110).
58. MessagePack writes the seals without member names: a root seal and a digest seal with the same digest are the same bytes, with the same event digest and signatures,
    and are read as a digest seal (C111).
59. Texts that no writer makes are accepted from the wire but do not read back from storage: Base64 with padding in place of its last characters, weights with
    denominator zero (`1/0`), signature index 63 (one character is read, two are written). An event with any of them, signed or not, stays in the log of its identifier,
    because the clean-up after a failed check cannot decode the vector any more; from then on everything about that identifier panics. One interaction on top of the
    public log with 64 arbitrary bytes as signature at index 63 is enough, for every identifier and every history (C112_anyone; C02_fails is one instance).
60. The same receipt submitted twice is stored twice, and an unreadable receipt makes the order of arrival observable: after a readable one it makes reading crash,
    before a readable one it disappears (C113).
61. After a crash the client cannot tell from the answer whether its event is in: an event that was written before the kill is refused on the second submission,
    with the same error as a rival event (C114_answer); a refused event that a kill left in the log is not removed by submitting it again (C114_fails_refused).
62. The codes that mark a key as non-transferable have no effect: such an identifier can commit to next keys and be rotated to them, after which its own key no
    longer signs for it (C116).
63. Every message or lookup that names an unknown identifier gives it a permanent key, also when it is refused, and every access scans these keys: a peer that may
    send messages, or a user interface that may look identifiers up, makes all operations slower for ever (`C117_lookup_creates`). The growth is at most two keys
    and one record per message, except for escrowed replies, which reprocessing doubles (C117, C49).
64. A message that is not spelled the way this library spells it (white space, escapes, unknown members) is read, but its signatures are checked against the library's
    own spelling: signatures of other implementations over the text they sent count only if that text has no white space and the standard member order (C118, C02).
65. `incept_with_extra_keys` keeps the builder's threshold of one: each extra key alone can write to the log, and the first rotation drops all of
    them (C119).
66. A key state notice about an abandoned identifier (no next keys) crashes `process`: it is written out to check its signature, and writing unwraps the missing
    commitment. No key, log or valid signature is needed, only a route that names the claimed signer (C128).
67. A witness can be crashed with a signed query without any key: the indices of the attached signatures are used before any signature is verified, so an index past the keys in force of a known signer is enough (C129).
    A query for the log of an identifier of which only a rejected inception was seen is answered with no bytes.

## 6. Plan for the later properties

* **C67, C68**: the loop of `process` in async_processing.rs is a function `turn` from states to states; `run n` is n turns. The first
  read decides the buffer, and two turns suffice to reach a fixed point or an end, so "for ever" is proved by exhibiting the fixed point.
* **C69**: the invariant `Controller.Ready` of C51/C52 gives the keys in force; `make_rct` is computed symbolically under it, and C28's acceptance
  lemma is applied on the other side with the same establishment event.
* **C70**: `make_ntr` is one case distinction over the event; the store operations are moved to the abstract map by the simulation of C31.
* **C71**: induction over the history with the invariant "the copy is `l.take k`, and k is at least the length of every beginning of the log that occurs in order";
  one step is `sync_step`: the event at position k passes every check (its state transition is the one of the original log), every other one fails at the
  sequence number.
* **C72**: `respond` is reduced to messages (`respond_run`: parse, process all, answer the accepted ones); the crash is the first non-answerable one.
* **C73**: composition of C45 (export parses), C71 (`sync_step`), C69 (`makeRct`), C28 (`verified_receipt`), C62-style stream parsing (`ReadsAs`), by
  induction over both logs; `Started` states the situation of each party through API calls only. `C73_fresh` discharges
  every condition for new controllers (C51_incept_succeeds, C89_diary).
* **C74**: the text functions of seeds, and `derive` over abstract curve arithmetic; case analysis on the code, with the base64 lemmas of C34.
* **C75**: the reader of C44, against a specification by members (`vals`, `Sole`, `Last`, `…Of`): equivalences by induction on the members.
* **C76**: as C75, for the derived readers of flattened structs with repeated-member checks (`ownWalk`).
* **C77**: the members written by `Serialize` put through the exact reader of C76; the four kinds of messages in the order they are tried.
* **C78**: no reader panics on safe texts (compositional `NP` lemmas); the crashes by evaluating `respond` on arbitrary streams that contain
  the fatal message.
* **C79**: `process_signed_query` run on `after env as`, by the facts about `compute_state` and `get_kerl` (C08, C45); the notice meets the
  hypotheses of C47_complete.
* **C80**: one machine addition is exact when everything fits (cross-multiplication, uniqueness of reduced fractions) and never above the exact
  one (`Below`, rounding down at each step); induction over signatures and clauses.
* **C81**: `Written` describes the use of the builder; each build is computed symbolically, its state transition by `Describes` (invariant of the induction),
  and acceptance is the lemma `accepts` of C16.
* **C82**: the same with `WrittenFor`; the converse of C14's analysis of `validate_seal` for anchored events; for early events, the outcome analysis of C24.
* **C83**: induction on the nesting of frames against the relation `Counts`; case analysis of the conversion.
* **C84**: the invariant `Locked` (the log commits to keys the key manager has already left behind) is preserved by every call; each own event is
  refused since its signature is not by the key in force (interaction) or its keys are not the committed ones (rotation).
* **C85**: the builder is computed symbolically for a controller with a prefix; an inception never applies to a state with a prefix (`applyTo_ok`), so
  the log of the old identifier is untouched.
* **C86**: induction over the history with the outcome analysis of one submission (`event_outcome`); the machine version of `Event::apply_to` agrees with
  the model's wherever `sn + 1` fits.
* **C87**: `Suf`/`Eats` (what is left is an end of the input) is compositional over the parser combinators; JSON by induction on the fuel, which is then
  shown not to matter; `many0` against the relation `ReadsOff`.
* **C88**: `Wallet.Like` relates a wallet to a `CryptoBox` and is preserved by rotation, whichever tagged content is found; the refusal of inceptions
  follows from the binding rule for identifiers that are keys, that of the other calls from the empty log, by induction over the calls.
* **C89**: `entries` says what the calls should publish, `returned` what they return; the invariant `Kept` is carried through the calls next to `Ready`.
* **C90**: `verifySignature` of the processor model, both directions against `SignatureOk`.
* **C91**: `keriProcess` is a state computation followed by `apply`, related to acceptance through `accepted_inv` and `accepts`.
* **C92**: an accounting invariant of the loop of `Async`: passed on ++ still ahead = stream; and a second one relating the database to the answers.
* **C93**: `receiptFor` against C28; JSON texts with a digest and with a placeholder in its place differ.
* **C94**: an invariant of the whole network (`NetInv`): each node is ready (C51), its database is the result of a history in which the events in the name of any node come from the log of that node; C71 (`sync_history`) does the rest.
* **C95**: `forge_step`: an event a processor appends to an initial piece of the owner's log is either the owner's next one or an attack; induction over the traffic, then over the network as in C94 (`SafeInv`).
* **C96**: `rot_applies` (C51) with the key lists of C06's counterexamples; `commit_pairs`: equal keys cancel.
* **C97**: `respondAllQ_run` (the first pass is the history of the accepted messages), `answers_exact` (induction over the accepted messages; answering changes no log and no receipt of the own events).
* **C98**: `respondSingle` returns the bytes of `serde_json::to_vec(&state)`; the derived `Serialize` of `IdentifierState` is modelled field by
  field and read with the reader already modelled for notices (`desState`, flattened key configuration); reachable states of readable logs are
  shown readable by induction along the log. Simplification: inside a notice the same reader works on buffered content; on the texts written
  here both agree.
* **C99**: the loop of `get_state_for_prefix` over an arbitrary `last_event_at_sn` (a function from numbers to outcomes), cut off by fuel; the
  call returns `r` when some fuel gives `r` (unique). Exact characterization by induction on the fuel; agreement with the node through C08 and C44.
* **C100**: `stateForSeal` = `computeStateAtSn`; C25 and the digest of the last event of a prefix of the log.
* **C101**: the checks of `process_event` read nothing but two logs: congruence lemmas for each of its parts on the abstract database
  (`validateSeal_local`, `computeState_local`, `storeAndVerify_local`), up to the difference between an absent and an emptied log, which only shows in
  the text of one error (`Res.Alike`); induction over histories.
* **C102**: C45 says what the export parses into; one pass of `respond` over it is followed event by event with the step lemma of C71, extended to plain events
  of delegated logs (`sync_plain`); answering changes no log however it ends (`LeavesLogs`).
* **C103**: cases over the codes, arithmetic on the base-64 digits for the counts.
* **C104**: arithmetic for the comparisons; uniqueness of stable sorts by induction; the model's insertion sort is stable and ascending.
* **C105**: the step-by-step model of C32/C33; table keys are stable during a call (`AlongKey`), so a read sees one crash state of C33; the dirty read is an explicit
  schedule (the other thread between push and remove), computed for every database and combined with the locality of C101.
* **C106**: induction over the history; a new log begins with an event that passed the delegation check against the logs before it, so its delegator was there first (C14);
  chains are an inductive predicate, acyclicity follows by induction on it.
* **C107**: threads are explicit, an execution interleaves their single accesses; a thread is the prefix of what it has found so far, run with `stepped` (Step.lean).
  Three relational logics over Rel.lean: what a thread does depends on what it found only (causality); a thread in step with a run alone that agrees on the keys it
  uses; a run on a database that agrees on those keys. Invariant over executions: each thread is in step.
* **C108**: a tracking relation between the node's database and a history (same logs, allocation invariant), kept by every method because acceptance depends on logs
  only (C101) and nothing but submitted events touches a log; receipts written past the processor (make_ntr) do not matter to it.
* **C109**: the methods over a state with the flag "poisoned". A relation with the methods without locks (same result, same database, poisoned only if panicked), a
  predicate "does not poison", and one for poisoned states (stays so, returns only …, logs of a history), each closed under the monad and proved method by method.
* **C110**: writer and reader of CBOR as functions on the serde data model (RFC 8949; maps of indefinite length for `flatten`, definite for structs), round trip by
  induction on values, then the same `Deserialize` functions as for JSON; the failure of the attachment reader propagates through both `many0` combinators.
* **C111**: writer and reader of MessagePack likewise; what is read is characterised as the event without the names of its seals, equality of texts and of verdicts by a
  relation on events (alike but for seals) that the processor respects.
* **C112**: the readers of the stored structs over the CBOR values of C110, element by element; the members of an event read from the wire are characterised with C75,
  each text of a prefix reads back iff its Base64 has full length, then by cases over the event. The attack: the outcome of `process_event` for an event with `rt = false`
  (KelStep), and C01 for what follows.
* **C113**: `Settled`: on every database with the same logs a receipt's processing returns the same and appends the same value to the same entry of the same table
  (or nothing); receipts leave the logs alone, so a list of them appends `filterMap` of the list to each entry, and a permutation of the list permutes that.
* **C114**: simulation between the run with kills and the run without: the logs agree, or the first outstanding event is already in. Each crash point is one of
  C33's; an event in the log does not apply a second time (its number is taken); outcomes depend on the logs only (C101).
* **C115**: `applyTo_iff`, `validateSeal_iff`, `anySealMatches_iff`, `binding_iff` turn each check into a condition on logs and event; `accepted_inv` and `accepts`
  give the two directions.
* **C116**: an instance of C115.
* **C117**: `Cost`, a bound for the two outcomes of a computation, composed along the processor; `Keep`, that a computation touches named identifiers only, with the
  invariant that delegators of stored inceptions and signers of escrowed replies were named.
* **C118**: a JSON grammar as a recursive predicate on values and texts; completeness by recursion on the value, soundness by induction on the reader's fuel; with
  C75 this goes from characters to events.
* **C119**: the keys in force are those of the inception while no later event sets keys; an interaction on top of the log with one signature then meets C115's
  conditions. After the rotation the only index is 0, so the threshold and the distinct indices leave exactly one signature.
* **C120**: respond, make_rct and get_kerl do to a database what some list of actions does, and the events submitted among them were read from the bytes;
  respond_single submits exactly the message it reads. So a schedule over bytes refines a schedule of C94, whose invariant is reused; completeness by C61,
  bringing up to date by C102.
* **C121** (Props/Named.lean): the texts read by `IdentifierPrefix::from_str` have a non-empty body, so its results have a text; the event readers (JSON, CBOR, MessagePack) take identifiers and delegators from texts (`keyEvent_iff`); the builder's identifiers are keys or digests.  With `node_keeps` (C108) every submitted event is about an identifier with a text, and nothing else writes a log, which removes the hypothesis `id.toStr ≠ []` from C108 and the case `nameless` from C106 for nodes.
* **C122**: the outcome of `process_event` on the tables (`event_outcome`) case by case against a specification in terms of the stored logs (`Fits`, as in C115
  without signatures, and C23's condition for crashes), then induction over the history; for nodes with `node_keeps` and C121.
* **C123** (Props/Guard.lean): the panicking outcome of each step of `process_event` is traced to the logs (`anySealMatches_panic`, `validateSeal_panic`, `checkDelegation_exact`,
  `applyTo_panic`, C23), and nothing that writes or derives a digest panics (`Clean.encode`); then the outcomes of `event_outcome` both ways.
* **C124** (Props/Guard.lean): induction over the history with C122's step: a checked event enters a log only when it is accepted, so C02's exceptions never arise.
* **C125** (Props/Family.lean): induction over the history with C101's locality; the delegator a rotation consults was named by an event submitted for the same identifier.
* **C126** (Props/Duplicity.lean): the first difference of two lists; C03, C04 and C05 at that position in both logs; a pigeonhole argument for the common key.
* **C127** (Props/RctExact.lean): the answer of each step of the two receipt functions as a function of the logs (`getKeysAtEvent_fst`, `validatorStep_fst`, `witnessStep_outcome`);
  C20 and C23 for the signatures, C30's cases for what is written.
* **C128** (Props/ReplyExact.lean): acceptance from C47's two directions with the reading conditions made exact (`verify_after`, `onRoute_iff`); the panicking outcome of each step of
  `process_signed_reply` traced through the binds (`bind_panic_iff`, `replySignature_panic`, `checkKsn_panic`).
* **C129** (Props/QueryExact.lean): the steps of `process_signed_query` on a reachable database (`state_cases`, `signedQuery_cases`, `processQuery_exact`); C20 and C23 for the
  signatures; making the notice succeeds exactly when there are next keys (`notice_exact`).
* **C130** (Props/FrontCheck.lean): the crash conditions of C123, C127 and C128 are excluded one by one; the replies in the store are fixed points of reading (induction over the
  history with C48); the check is also given as a program (`messageOk`) with a proof that what passes is checked.

# Formal model of daniestevez/galileo-osnma — design

## 1. Approach

`/repo/galileo-osnma/src` (the library) is modelled function by function in Lean 4 as total, computable
functions; the binaries `galmon-osnma`, `osnma-longan-nano-client`, `osnma-longan-nano` and the test-vector
converter are modelled at the level of their packet/line logic.  Properties are theorems about these
functions, quantified over *all* inputs, all storage sizes, all call histories, and over *every* choice of the
cryptographic primitives (`Crypto` is a parameter, not an axiom).

Conventions of the model (directory `lean/Verif/Model`):

* `Res α` = `ok a | panic why`.  Every `assert!`, `unwrap`, `expect`, `unreachable!`, slice/array index out
  of bounds and integer overflow on a path that the model follows is an explicit `panic`.  Overflow is
  modelled as in a build with overflow checks (debug profile); in a release build it wraps, which is modelled in
  `Model/Release.lean` and compared with the checked build in C70.  Theorems that
  conclude `= .ok _` therefore also say that no overflow happens.
* `&mut self` becomes a returned new state.  `Result` stays data (`Except`), `Option` stays data.
* Bytes are `BitVec 8`; a Rust `BitSlice<u8, Msb0>` is a `List Bool`, most significant bit first.
* `u8`/`u16`/`u32`/`usize` counters that saturate or are range-checked are `Nat` with the saturation/range
  check explicit.
* A call that panics has no result in the model; the object that it leaves is modelled for panics in `process_dsm` (C89), which are all that remain for sensible chains.
* The text of log messages and of `Debug`, performance and memory layout are not modelled (that logging cannot panic or change anything is C69).
* Type-state parameters `Validated`/`NotValidated` are erased; where they matter (a key is only used if it was
  validated) the corresponding fact is *proved* as an invariant over histories (C30, C31), and for programs that use the low-level API over all ways to obtain such a value (C71).

Layout:

| directory | content |
|---|---|
| `Verif/Prelude` | `Res`, bits and bytes, generic list lemmas |
| `Verif/Model` | the model, one file per Rust file, each definition citing file and lines (`Osnma` black box, `Galmon` transport and `galmon-osnma`, `Text` UTF-8/decimal/hex/lines, `Serial` client and firmware, `Link` both with the serial line, `TestVectors` converter, `Protobuf`/`Prost` messages); `Log` and `History`: calls on the black box and what they verified |
| `Verif/Spec` | small independent specifications used by the theorem statements (absolute time, ICD layouts, history predicates) |
| `Verif/Lemmas` | helper lemmas |
| `Verif/Props` | the property theorems, named `Cxx_...`, with non-vacuity examples |
| `Verif/Tests/Scenario*`, `Tests/Dsms` | a transmitter with a toy cryptography: whole receptions that are run through the model by the kernel, used in the non-vacuity examples and the counterexamples |
| `Verif/Tests/UnitTests` | the unit tests of the repository, with their Galileo data, replayed on the model (evaluated by the kernel; they tie the model to the code, they are not part of any claim) |
| `Verif/Tests` | executable SHA-256/HMAC and replays of the unit-test vectors of the repo through the model (fidelity tests, not proofs) |

## 2. Trusted base

* Lean 4.33.0 kernel; axioms `propext`, `Classical.choice`, `Quot.sound` only (checked by the gate).
* The reading of the Rust code: every model definition cites the lines it models.  For C80 also that `Model/Work.lean` notes every evaluation of a
  primitive (that its results are those of the model is proved); setting up a MAC key and parsing a signature count as part of the evaluation.
* `Crypto` parameter: SHA-256, SHA3-256, HMAC-SHA-256, CMAC-AES-128, ECDSA verification and SEC1/signature
  parsing are arbitrary functions with only their output *lengths* assumed (32 bytes; 16 for CMAC).  Security
  properties are stated as reductions (a violation exhibits a collision) or as "the check that the code made
  holds", never as an assumption that hashes are injective.
* crates `bitvec`, `generic-array`, `typenum`: their documented behaviour (`load_be`, `store_be`,
  `copy_within`, ranges) is what `Prelude/Bits.lean` defines.
* `Navmon` parameter (`Model/Galmon.lean`): the protobuf codec of Galmon messages is an arbitrary pair of
  functions; the theorems that need decode∘encode = id take it as the hypothesis `Navmon.Lawful`.
  `prostNavmon` (`Model/Protobuf.lean`, `Model/Prost.lean`) is the codec of `galmon/navmon.proto` (the protobuf wire
  format as read and written by `prost` 0.14: varints, keys, skipped unknown fields and groups, nested and repeated
  messages, recursion limit); `prostNavmon_lawful` proves the hypothesis of it for every message, so C43, C46, C55
  hold of it without hypotheses.  `prost` itself is not in the repository: its behaviour is from its documentation and the
  protobuf wire format, and is trusted.
* `chrono` (the date in the name of a test-vector file): its behaviour is from its documentation, only for names of exactly the
  form `dd_Mon_yyyy_GST_hh_mm_ss.csv`; other names that it may accept (spaces, signs, missing zeros) are not modelled.
* Not modelled: the text of log and `Debug` output (C69 has its fields and panics); sockets, serial ports, stdin/stdout buffering; HTTP; `clap` (the parsing of the
  command line), the file format of PEM keys and of XML Merkle trees (bin crates); floating point; `Hash`/`Clone` derives.

## 3. Properties, models and proofs

(status is in MANIFEST.json; theorem files are `Verif/Props/*.lean`)

| id | modelled by | how proved |
|---|---|---|
| C01 C02 | `Model/Gst.lean` | absolute seconds `wn*604800+tow` as spec; `omega` on the exact Int/Nat arithmetic, ok-iff characterisation |
| C03 | `Model/Svn.lean` | case analysis; `iter` list is `1..36` |
| C04 C05 C06 | `Model/Subframe.lean` | invariant relating each satellite's buffer to the calls since the last subframe change; induction on call list |
| C07 C08 | `Model/Dsm.lean` | invariant: stored block i = first block i fed since reset; induction |
| C09 C10 | `Model/MackStorage.lean` | C10: invariant over arbitrary stores; C09: refinement to the list of stores grouped by gst |
| C11–C16, C53 | `Model/NavMessage.lean` | per-slot invariants over the history of feed calls |
| C17–C19, C42 | `Model/NavMessage.lean`, `Model/Tesla.lean` | closed form of `process_mack`: items mapped by adding matching successes |
| C18 C20 | `Model/Tesla.lean` | explicit byte layout in `Spec/TagSpec.lean`, `Spec/MackSpec.lean`; injectivity |
| C21 | `Model/Maclt.lean` | whole-table case analysis lifted by a lemma |
| C22 C23 C24 | `Model/Tesla.lean` | iteration algebra; exact acceptance; reduction to a collision by induction on the chain |
| C25 C26 | `Model/Merkle.lean` | path folding; reduction; completeness for all 16 leaves |
| C27 C28 C49 C50 C51 | `Model/Bitfields.lean` | independent ICD encoders in `Spec/DsmSpec.lean`, `Spec/KrootSpec.lean`, `Spec/MackLayout.lean`; decode∘encode, acceptance iff |
| C29 C30 C34–C37 | `Model/Osnma.lean` | invariants over `run` (all histories) |
| C31 C32 C33 C14 | `Model/Osnma.lean` | evidence invariant over `run` |
| C38 C39 C40 C41 | `Model/Osnma.lean` | well-formedness invariant ⇒ no panic; counterexamples for C39 |
| C43 C44 C45 C46 | `Model/Galmon.lean`, `Model/Serial.lean`, `Model/TestVectors.lean` | round-trip, loop invariants |
| C54 C55 C56 C57 | `Model/Galmon.lean` | `Props/Galmon`, `GalmonOsnma`, `Reports`; C54 and C57 **violated by the code**, with counterexamples and the part that holds |
| C60 | `Model/Galmon.lean` | `Props/GalmonRuns`: forward execution of each packet, loop invariant relating the local variables to the packets seen; `Props/GalmonExample` runs it on protobuf bytes |
| C61 | `Model/Galmon.lean`, `Model/Serial.lean` | `Props/SerialRuns`: loop invariant for the client, then C44, C45, C60 composed, and C58, C98 for every schedule of the link; `Props/SerialExample` runs client, firmware and link on concrete bytes |
| C62 | whole library, reference machine in `Spec/KeyMachine.lean` | `Props/KeyMachine`: induction on the history; each step of the library emits exactly the machine's messages; determinism of the machine; `Props/SamePanics`: two receivers given the same pages have the same key state, and the panic condition of C39 depends on this state only |
| C63 | whole library, reference machine in `Spec/NavMachine.lean` | `Props/NavMachine`: the stored subframes correspond to the machine's (`Lemmas/NavFrames`: words and ages; `Lemmas/NavTags`: tags; `Lemmas/NavMachine`: induction on the history); determinism of the machine |
| C64 | `Model/Serial.lean`, `Model/Text.lean` | `Spec/LineGrammar.lean` (words, numbers, hexadecimal and UTF-8 over `Char`, independent of the parser), `Lemmas/TextExact.lean`, `Lemmas/SerialExact.lean`: each text function is exact for its grammar; `Props/SerialGrammar.lean` |
| C65 | `Model/NavMessage.lean` | `Spec/Places.lean` (`KeepsPlace`: rules, on the words received only, by which a satellite keeps its place; `heardWithin`), `Lemmas/Places.lean` (the stored ages are never less than the true ones, and exact for a satellite that keeps its place), `Lemmas/PlacesKept.lean`; `Props/Places.lean` with counterexample, `Props/PlacesExample.lean`. In full it is false: finding 16 |
| C66 | `Model/Startup.lean`, `Model/Galmon.lean`, `Model/Serial.lean` | `Spec/StartSpec.lean` (what the arguments and files mean); case analysis over the arguments with the exact text functions of C64, then C56, C31 and C32 from that state; the firmware by induction over its turns |
| C67 | `Model/Protobuf.lean`, `Model/Prost.lean` | `Spec/WireSpec.lean` (the wire format as a relation between bytes and fields, the tables of `navmon.proto` printed by `tools/proto.py`, what the fields mean); `Lemmas/Wire`, `Lemmas/WireMsg`: each decoding function succeeds exactly on what the relation says (induction over the bytes, groups and nested messages); uniqueness by induction |
| C68 | `Model/TestVectors.lean` | `Spec/CsvSpec.lean` (lines of the file, what a line says, order of the packets); the three outcomes (success, failure, panic) proved exhaustive and exclusive by induction on the lines. C46 also has the date in the file name (`Model/FileName.lean`) against a calendar given by the rule for the next day (`Spec/Calendar.lean`) |
| C69 | `Model/Logging.lean` (the `Debug` implementations as lists of fields; the black box with those log statements whose arguments could panic) | equality of the functions with and without log, for every state; exact conditions by the lemmas on the accessors |
| C70 | `Model/Release.lean` (the functions whose arithmetic can leave its range, with wrapping arithmetic, and all their callers up to the API) | monotonicity: what returns with checks returns the same without; equality by bounds on the times that are computed; counterexample by evaluation |
| C71 | `Model/Api.lean`: the values of the `Validated` types that safe code can hold, as inductive predicates with one rule for each public function | induction over how a value was obtained; confluence of derivations; `Spec/Validated.lean` says what they must be in terms of signatures, hashes and byte layouts; converse (everything genuine can be validated) |
| C72 | `Model/Api.lean`: sequences of calls of the methods of `CollectNavMessage` | invariant of the entries: tags that vouch for them, and who fed them; tags with unusable keys or times have no effect or panic |
| C73 | the black box; `Spec/Repeats.lean` (which calls repeat an earlier one; a history without repetitions) | invariant: the collector does not expect a page number that was given in the current subframe; the entry of a satellite that keeps its place (C65) has the data of the words of the current subframe with age zero; hence a repetition is the identity on the state; counterexample for pages out of order |
| C74 | the black box through the reference machine of C62; `Spec/DsmSpec.lean` (complete DSM), `Spec/KrootSpec.lean` | the machine emits only TESLA keys once a DSM is complete; after another id the blocks kept are the first copies since, hence the signed DSM; counterexample for *every* continuation with the same id, from the general theorem and one evaluated reception |
| C75 | C76 with nothing heard before | `Props/ColdStart.lean`: corollaries |
| C76 | the black box through the reference machine of C62 and the completeness theorem C52; `Spec/Broadcast.lean` (a genuine broadcast, what was heard of it, what may come before) | the subframes collected are those sent; the blocks collected under the new DSM id are those of the DSM-KROOT, so the machine emits it once; induction over subframes: the key held for the chain is that of the last subframe received; exact panic condition (C39) excluded by the signed DSM; then C52 at the calls that report the keys |
| C77 | the black box through the reference machine of C62 and the completeness theorem C52; `Spec/Spoofing.lean` (genuine and other satellites, no other header verified, a forged key) | induction over the subframes received, genuine or not: the header in force is that of the broadcast, the key held for the chain is that of a subframe received; a different key accepted in the same subframe leads to it in the same number of steps, hence a collision; the rest as C76; a replayed DSM-KROOT as counterexample to the claim without the hypothesis |
| C78 | the black box with the log of accepted keys; `Spec/Disclosure.lean` (a tag was in time: at the call that accepted its key, tag and data had been received) | invariant over the entries of the store (each contribution to `authbits` is recorded with the number of the call), representation of the store by the words fed (C53), then the order of the accepted keys (C30) |
| C79 | the black box; `Spec/Interleaving.lean` (independent calls, histories equal up to exchanges) | exchange of two independent calls commutes: exactly in the state if not both are words; otherwise in the reference machine of C63, up to the order of words of different satellites or types, which nothing observable depends on. That the second history does not panic either: `Props/SamePanics`, by the exact panic condition of C39, which depends on the pages only (if chains are sensible) |
| C80 | `Model/Work.lean`: the functions that use a cryptographic primitive, in a writer monad that notes each evaluation | erasure: they compute what those of the model compute (`C80_same_program`); counting, with the numbers of tags of a MACK, of stored MACKs and of derivations bounded by the key times (log of C29/C30) |
| C81 | the black box twice, with two storages; `Spec/StorageSize.lean` | the two reference machines of C63 step by step: the subframes of the smaller are the first ones of the larger, with fewer or (for the documented sizes) equal authentication bits. That the larger receiver does not panic: `Props/SamePanics`, as for C79; the need for the sizes is shown by two runs of the simulation |
| C82 | the black box before and after the further calls | the reference machine of C63 is followed over the further calls: the subframe reported stays (words after its end do not touch it, tag checks only add bits) or only later ones are left, as many as there are places; the need for the hypothesis is shown by a run of the simulation |
| C83 | the black box twice, with two histories; `Spec/OtherWords.lean` | the two reference machines of C63 step by step: their subframes have the same starts, the same words with the data, the same set of subframes with words and the same authentication bits |
| C84 | the black box (C30, C62, C78) with `Spec/Broadcast.lean` and `Spec/Replay.lean` | an accepted key derives to the root key, and so does that of the broadcast: equal or an explicit collision; a key accepted during the replay is in the key field of a replayed MACK message (reference machine of C62), that is the key of another subframe |
| C85 | two receivers through the reference machine of C63 | as C81: induction over the history; the subframes of the two machines correspond, the tags due of one are a sublist of those of the other |
| C86 | two receivers through the reference machine of C63, of which one is given more pages; `Broadcast` and `Spoofed` of C77 | the keys: those accepted by the first one are those of the broadcast or collide, and those of a page heard by both are accepted by the second unless held already (C77); the data: induction over the calls of the second one, with the calls of the first one beside them; what is kept of tags and of data by the first one is covered by what the second one keeps; a counterexample shows that the room for MACK messages is needed |
| C87 | whole library, reference machine with places in `Spec/PlaceMachine.lean` | `Props/PlaceMachine`: the items of each stored subframe correspond, one by one, to the machine's places (`Lemmas/PlaceFrames`: a word; `Lemmas/PlaceMachine`: tags, induction on the history); no satellite has two places, so the machine is deterministic; it agrees with that of C63 when there is room |
| C88 | `store_gst`, the checks of tags and MACSEQ, the one-way function; histories | `Props/Weeks`: the stored 32 bits determine everything; no TESLA key: induction over the reference machine of C62 (root keys are early, at most 3000 steps lead to an accepted key), no authenticated data by C31; after going back: accepted keys increase (C30); examples: the end of week 4095 with both numberings |
| C89 | `Model/Caught.lean`: the object left by a call that panics in `process_dsm`; histories in which such panics are caught | `Lemmas/Caught`: the invariants of the receiver (navigation store, pages, DSM blocks, public keys and chains, evidence for every entry) are kept by calls that return and by calls that panic; `Props/Caught`: authenticity as in C31, the exact panic condition of C39 on these invariants, and that all panics are of this kind; `Props/CaughtExample`: attack with a malformed DSM, panic caught, then the genuine broadcast is authenticated |
| C90 | `Spec/Renewal.lean`: a broadcast of a DSM-PKR whose leaf belongs to the root, and what was heard of it | `Props/Renewal`: the blocks complete the DSM (as in C75), the Merkle check accepts it, the key is held (C29), and this meets the hypotheses of C76 for the broadcast that follows; `Props/RenewalExample`: from the root alone to authenticated data, and the renewal of a key in use |
| C91 | `Spec/Operator.lean`: the operator (keys, tree, chains, signed KROOTs, tags made) and the ways in which a run can show that its cryptography is broken, each tied to the acceptance messages and the received data | `Props/Operator`: reduction from C78 and the justified log of C29–C36 to C18, C24, C25 and C27 (the signed message, the tag message and the tree path determine their contents); `Props/OperatorExample`: a genuine run without any evidence, and the same run as a forgery for an operator who made no tags |
| C92 | `Spec/Lateness.lean`: calls with the true time of reception, the instant at which a key is out (last page of the key field in the MACK), tags contained in the first pages of a subframe | `Props/Lateness`: from C78 and C91 with the layout of the MACK (tags before the key) and the time of each page; `Props/LatenessExample`: `C92_late_signals_can_be_forged`, a run one minute late made with public keys only |
| C93 | The feature is a field of the cryptographic functions, on which the types depend; `Spec/WithoutP521.lean` carries keys and messages over from one build to the other | `Props/WithoutP521`: simulation through every function; `C93_never_p521` from the justified log of C29; `Props/WithoutP521Firmware`: the firmware, from `C62_same_panics` (other storage) and `C61_remote_other` (a firmware with another black box) |
| C94 | Two receivers of the model, with and without the root | `Props/RootUnused`: simulation through every function (the states differ only in the root); `Props/RootUnusedExample` |
| C95 | The whole receiver; `Spec/FirstFix` (a satellite that sends the same data) | `Props/FirstFix`: from below by counting the block numbers of `C62`'s machine (pigeonhole), from above through `C75_authenticates`; `Props/FirstFixExample` |
| C96 | `Model/Caught` as in C89; `Spec/CaughtMachine`: the reference machine of C62 with a rule for subframes that are passed over | `Lemmas/CaughtMachine`: simulation of the receiver (keys held, collectors) by the machine through returning and panicking calls; `Props/CaughtMachine`: run, determinism, independence of settings, exact effect of a subframe, totality; `Props/CaughtMachineExample` |
| C97 | `Model/Caught` as in C89; `Spec/Broadcast` as in C76 | `Lemmas/CaughtRecovery`: the machine of C96 started at any of its states never passes over a subframe of a genuine broadcast; `Lemmas/CaughtComplete`: lower bound for the authentication bits by induction over the calls; `Props/CaughtRecovery`: no panics, KROOT and keys accepted, data authenticated; `Props/CaughtRecoveryExample` |
| C98 | `Model/Link` as in C58, with what the client prints (`read_until_ready`) | `Spec/Transcript`; invariant over the steps: printed ++ on its way = written by the firmware = transcript of the calls made (`Props/LinkOutput`). The same at and after a panic, with the echo of the message at which the firmware halts. What is written of the status before a getter panics (data of the first 7650 s of week 0) is `Firmware.statusSaid`; `statusSaid_ok` checks it against `printAuthStatus`, and `StatusCutOff` (`Spec/Transcript`) says what it is after a panic |
| C58 C59 | `Model/Serial.lean`, `Model/Link.lean` | byte-level transition system of client, link and firmware; inductive invariant over all interleavings, progress, well-founded measure |
| C47 C48 | `Model/Osnma.lean` | **violated by the code**: negation proved with a concrete witness; partial positive theorem |
| C52 | `Model/Osnma.lean`, `Spec/Complete.lean` | availability: what was received (pages, words) is shown to be what the stores hold when the key arrives (`Lemmas/CompleteMack`, `CompleteNav`), forward execution of the tag checks (`CompleteTag`), and the exact count of C53 |

## 4. Findings (places where the code does not do what a user would expect)

1. `Gst::add_seconds` panics for every `s ≤ -604800` (`u16::try_from(weeks)` of a negative number) even when
   the result is representable, and on overflow/underflow of the week number (C01: exact domain proved).
2. `Gst::subframes_difference` is not "elapsed seconds / 30" for GSTs not aligned to subframes (C02).
3. `PubkeyStore::revoke` second branch sets `current = None` instead of `next = None`; latent, proved
   unreachable (the function is a no-op on reachable states).
4. `KeyStore::store_kroot` forgets `start_applicability` at the next KROOT with the same CID (C47 violated).
5. `KeyStore::store_kroot` ignores a fresh KROOT for a chain already stored; with a stored key more than 3000
   subframes old the receiver is locked out for ever (C48 violated).
6. `feed_osnma` can be made to panic by unauthenticated data (C39 violated): (a) DSM-KROOT with NB/KS sizes
   that match no signature; (b) signature bytes that do not parse (e.g. all zero) with the right padding hash;
   (c) DSM-PKR with NPKT = 3 and NB = 7.
7. Panics on authenticated but odd input: TOWH > 167, KROOT time 0, CMAC with a key size other than 128 bits,
   MACLT row with more tags than fit in the MACK.
8. Ages count subframes *seen* and saturate, so the reported GST and the COP check are wrong after reception
   gaps (C15: proved for contiguous reception, negation with a gap).
9. `reset_authbits` is never called by `Osnma`: data authenticated before "don't use"/alert is still returned.
10. `CollectDsm` keeps the first copy of a block; a corrupted DSM is retried only when the DSM id changes (C74:
    one wrong bit and the receiver never accepts this DSM-KROOT, however often it is repeated).
11. `validate_alert_message` reports `NoPublicKey` (not `NotAlert`) for a non-alert DSM-PKR.
12. `galmon-osnma` (and the serial client) decide that the TOW of a packet is wrong by comparing it with the
    previous packet of *any* satellite and subframe; a correct packet 15 s into a subframe is moved back one
    word after a packet at least 19 s into an earlier subframe (C57: counterexample; exact condition proved).
13. `ReadTransport::read_packet` returns `Ok(None)` (clean end) when the stream is cut inside the 6-byte header
    (C54: counterexample).
14. `galmon-osnma` panics on packets whose `gnss_sv` is not 1..36, whose `gnss_wn` exceeds 65535 or whose
    `contents`/`reserved1` have the wrong length; the serial client forwards any satellite number to the
    firmware, which panics.
15. `galmon-filter-inav` panics on a valid frame of nearly 65535 bytes in which required protobuf fields are missing: `prost` does not
    reject it, and the default values added when it is written anew do not fit the 16-bit size (C55: exact condition and witness).
16. A satellite that gets a place starts with `max_age` 255, so with all places taken it is the first to lose it to the next satellite
    without one.  Two or more satellites that rise together take the same place from each other at every word, while places of satellites that have
    set stay taken until their ages reach 255 subframes (about two hours); a satellite in view that is still to send a word of the subframe can lose
    its place to them as well (C65: counterexample).  None of them gets authenticated in that time.
17. The firmware panics (and stays so until reset) on any line on its serial port that is not well formed, an empty one included (C64).
18. `galmon-osnma` accepts a `--pkid` above 15 and the firmware an identifier above 15 in `pubkey_id.txt`, although a DSM-KROOT names the key
    in four bits: without a Merkle tree root nothing is then ever authenticated, without any message (C66).
19. Cosmetic: `log_word` (`navmessage.rs:717-723`) has its two arguments in the wrong order ("storing INAV word type E11 for 4"). `Debug` of a
    `DsmKroot` panics on a message whose length does not fit its key size (C69).
20. Without overflow checks (release builds, the firmware) a signed DSM-KROOT with time 0 is stored with a time at the end of week 65535 and blocks its
    chain, where a checked build panics (C70).
21. `Mack<Validated>` records that the MACK was validated but not with which key, PRN and subframe, and `process_mack` takes these as separate
    arguments: a program that validates a MACK under one key or subframe can process it under another (C71, C72). The tags are still verified
    under the key given, so this weakens only the check of MACSEQ and look-up table. The black box passes the same satellite and subframe to both, and the key that the ICD prescribes for each.
22. DSM-KROOTs are not checked for freshness: one of an earlier time and another chain, replayed with its genuine signature by a single satellite, is
    accepted and puts the old chain in force, so that the keys of the genuine satellites are rejected until the current DSM-KROOT is received again
    (`C77_replay_counterexample`).
23. The 3000-step limit of `Key::validate_key` does not apply to the derivation of the Slow MAC key in `process_tags`: a verified root key of the past
    chain for a far future time (or feeding in non-chronological order) makes each call that accepts a TESLA key evaluate one hash per 30 s between
    that time and the Slow MAC time (`C80_future_root_costs`).
24. Week numbers (C88): the root key's week is taken from 12 bits of the DSM-KROOT as it is, while times given to the library have 16 bits. After week 4095 (the year 2078) a program that counts weeks on can no longer be started, and one whose week number starts from 0 again accepts no key of the chain in force until it is restarted or the chain changes.
25. The serial client ends after sending its last line without reading the answer: the status after the last message, and so data that it has authenticated, is never
    printed (`C98_last_answer_missing`).


{"id": "C01", "title": "GST addition is exact second arithmetic across week boundaries", "statement": "Gst::add_seconds(s) returns the GST whose absolute time (wn*604800+tow) is exactly s seconds later, for every i32 s > -604800 whose result is representable (week number 0..65535), and panics for every other s (also for s <= -604800 with a representable result); it never returns a wrong or unnormalised time. Whenever add_subframes(n) with n subframes less than a week returns, add_subframes(-n) undoes it.", "quantifier": "every GST (u16 week, tow < 604800) and every i32 offset", "why_tests_cant": "about 4e10 GSTs times 2^32 offsets; failures live at week roll-overs, at week 0 and at offsets of a week or more", "anchors": ["galileo-osnma/src/gst.rs: Gst::new, Gst::add_seconds, Gst::add_subframes"]}
{"id": "C02", "title": "Subframe alignment and subframe difference are exact", "statement": "gst_subframe() is the latest multiple-of-30-second instant not after the GST and is idempotent; is_subframe() holds exactly for its fixed points; for GSTs that are both at the start of a subframe subframes_difference is exactly the elapsed seconds divided by 30, of either sign, across weeks, with no integer overflow; the comparison of GSTs is the comparison of absolute times.", "quantifier": "every pair of GSTs", "why_tests_cant": "unbounded pairs of times, and sign and week roll-over interactions", "anchors": ["galileo-osnma/src/gst.rs: gst_subframe, is_subframe, subframes_difference, derived Ord"]}
{"id": "C03", "title": "An Svn is always in 1..=36 and Svn::iter visits each satellite once", "statement": "Svn::try_from(n) succeeds exactly for 1 <= n <= 36, converting back gives n, and Svn::iter yields E01..E36 once each in increasing order.", "quantifier": "every integer of every supported integer type", "why_tests_cant": "the input domain is every value of twelve integer types", "anchors": ["galileo-osnma/src/svn.rs: Svn::try_from, Svn::iter, From<Svn>"]}
{"id": "C04", "title": "A collected subframe is exactly the 15 sections one satellite sent in one subframe", "statement": "Whenever CollectSubframe::feed returns an HKROOT and a MACK message and a GST, that call is for word 14, and the calls made since the last change of subframe contain, in order, calls for the same satellite with word numbers 0,1,...,14 whose sections concatenated are the two returned messages; the returned GST is the start of that subframe. Data of another satellite or another subframe is never mixed in.", "quantifier": "every sequence of feed calls (any satellites, any times, any order, any repetition)", "why_tests_cant": "the collector is stateful over 36 satellites; mixing bugs need particular interleavings", "anchors": ["galileo-osnma/src/subframe.rs: CollectSubframe::feed"]}
{"id": "C05", "title": "A satellite whose 15 words arrive in order is always collected, once", "statement": "If, after a change of subframe, a satellite delivers words 0..14 of one subframe in order (arbitrary calls for the other satellites of the same subframe and repeated or stray words of its own interleaved), the call delivering word 14 returns the messages; within a run of calls of one subframe each satellite is returned at most once.", "quantifier": "every interleaving with the other satellites, every duplication", "why_tests_cant": "unbounded interleavings of 36 satellites", "anchors": ["galileo-osnma/src/subframe.rs: CollectSubframe::feed"]}
{"id": "C06", "title": "Satellites do not interfere in the subframe collector", "statement": "Within one subframe, the results returned for one satellite are the same as if the calls for all the other satellites had never been made.", "quantifier": "every call sequence inside one subframe", "why_tests_cant": "interference is a property of pairs of whole histories", "anchors": ["galileo-osnma/src/subframe.rs: CollectSubframe::feed"]}
{"id": "C07", "title": "A completed DSM is the concatenation of the first received copy of each of its blocks", "statement": "When CollectDsm::feed returns a DSM, its id and type are those of the header just fed, its length is 13 times the number of blocks announced by the NB field of block 0 for that type (7..14 for KROOT, 13..16 for PKR), and its i-th 13-byte block is the first block with number i that was fed since the DSM id last changed.", "quantifier": "every sequence of headers and blocks", "why_tests_cant": "needs every order, duplication and corruption pattern of up to 16 blocks and id changes", "anchors": ["galileo-osnma/src/dsm.rs: CollectDsm::feed, store_block, done_and_size, number_of_blocks"]}
{"id": "C08", "title": "DSM collection does not depend on arrival order, and yields each DSM once", "statement": "While the DSM id stays the same, the DSM is returned exactly at the first call after which block 0 and all announced blocks have been seen, whatever the order and the repetitions, and never again until the id changes; if all blocks with equal number carry equal contents the returned bytes do not depend on the order.", "quantifier": "every order and multiplicity of blocks", "why_tests_cant": "16! orders, unbounded repetitions", "anchors": ["galileo-osnma/src/dsm.rs: CollectDsm::feed"]}
{"id": "C09", "title": "The MACK store returns exactly what was stored for that satellite and subframe", "statement": "After any chronological sequence of store calls, get(svn, gst) returns the first MACK message and NMA status stored for (svn, gst) when gst is one of the last MackDepth distinct subframes stored and fewer than NUM_SATS messages had been stored for gst before it, and None otherwise.", "quantifier": "every chronological history of stores, every storage size", "why_tests_cant": "ring-buffer wrap-around over unbounded histories and parametric sizes", "anchors": ["galileo-osnma/src/mack.rs: MackStorage::store, MackStorage::get, adjust_write_pointer"]}
{"id": "C10", "title": "The MACK store never invents or mislabels a message", "statement": "Whatever the order of the store calls (even with times going back and forth), a message returned by get(svn, gst) was passed to an earlier store call with exactly that svn, that gst and that NMA status.", "quantifier": "every history of stores, chronological or not", "why_tests_cant": "unbounded, adversarial histories", "anchors": ["galileo-osnma/src/mack.rs: MackStorage"]}
{"id": "C11", "title": "Stored CED and status is the latest words 1-5 of that satellite", "statement": "With a storage of at least as many satellites as are ever fed (for FullStorage: always), the 549 bits that the store holds for a satellite in the current subframe are the concatenation of the data fields of the most recent words of types 1,2,3,4,5 fed for it (zeros where none was fed), and no other word type, satellite or band changes them.", "quantifier": "every history of feed calls", "why_tests_cant": "state depends on the whole history through slot copying, slot choice and write-pointer wrap-around", "anchors": ["galileo-osnma/src/navmessage.rs: CollectNavMessage::feed, CedAndStatus::feed, copy_word"]}
{"id": "C12", "title": "Timing parameters come only from E1B words 6 and 10", "statement": "Same as C11 for the 141 bits of ADKD=4: they are the fields of the most recent words of types 6 and 10 fed for that satellite with band E1B; words received on E5b never change them.", "quantifier": "every history of feed calls", "why_tests_cant": "as C11", "anchors": ["galileo-osnma/src/navmessage.rs: TimingParameters::feed"]}
{"id": "C13", "title": "Authentication bits never survive a change of the data they cover", "statement": "If a feed_inav call changes the stored bits of a satellite, the authentication bits of the changed data are zero right after the call; feed_inav never increases the authentication bits of any data, so newly received unauthenticated data is never returned as authenticated.", "quantifier": "every state and every word", "why_tests_cant": "requires every combination of stored and received data", "anchors": ["galileo-osnma/src/navmessage.rs: copy_word, reset, feed"]}
{"id": "C14", "title": "Authenticated data of a satellite consists of words that satellite sent", "statement": "If get_ced_and_status(svn) (or get_timing_parameters) returns data, then for each of its word fields there is an earlier feed_inav call for that same svn whose word of that type carries exactly those bits (for timing parameters, on E1B), for every storage size, also when satellites have been evicted from the store.", "quantifier": "every history and every storage size", "why_tests_cant": "eviction reuses slots without clearing the data, so contamination would need special histories", "anchors": ["galileo-osnma/src/navmessage.rs: CollectNavMessage::feed, reset, process_mack"]}
{"id": "C15", "title": "The reported GST is the subframe of the most recent word in the data", "statement": "NavMessageData::gst is the start of the subframe in which the most recently received word of the returned data was transmitted.", "quantifier": "every history of calls", "why_tests_cant": "depends on saturating ages copied through the ring for whole histories", "anchors": ["galileo-osnma/src/navmessage.rs: increase_age, min_age, get_ced_and_status, NavMessageData::gst"]}
{"id": "C16", "title": "The getters return the most recent authenticated data", "statement": "get_ced_and_status / get_timing_parameters return Some exactly when some stored subframe holds data of that satellite with at least 40 authentication bits, and then the returned data is that of the latest such subframe.", "quantifier": "every history of calls", "why_tests_cant": "search order over a wrapped ring buffer for every write pointer", "anchors": ["galileo-osnma/src/navmessage.rs: get_ced_and_status, get_timing_parameters"]}
{"id": "C17", "title": "40 bits of successful tags are necessary, and are counted exactly", "statement": "Data is returned only if authbits >= 40. Processing a MACK adds to each stored entry of the satellite exactly the sum of the lengths of the tags of that MACK that verify for that data (saturating), and nothing to entries whose bits or satellite differ.", "quantifier": "every MACK, key and store content", "why_tests_cant": "all tag combinations over all stores", "anchors": ["galileo-osnma/src/navmessage.rs: validate_tag, add_authbits, MIN_AUTHBITS, process_mack, process_mack_slowmac"]}
{"id": "C18", "title": "A tag binds satellite, authenticating satellite, time, position, status and data", "statement": "The byte string MACed for a tag is PRND || PRNA || GST || CTR || NMAS || navigation data || zero padding as in ICD 6.7 (without PRND for tag0), and it determines every one of these values: two tags of the same kind with the same MACed bytes have the same PRND, PRNA, GST (week modulo 4096), CTR, status and data; messages of tag0, of ADKD 0/12 tags and of ADKD 4 tags are never equal.", "quantifier": "every value of all the fields and all data", "why_tests_cant": "injectivity is a statement about all pairs of inputs", "anchors": ["galileo-osnma/src/tesla.rs: validate_tag, validate_tag0, fill_buffer_header, fill_buffer_navdata, update_mac_with_navdata, store_gst"]}
{"id": "C19", "title": "Dummy tags are zero data and never authenticate anything", "statement": "Validation of a dummy tag (COP = 0) is the validation of all-zero data of the announced length, and processing a MACK all of whose tags have COP = 0 leaves every stored data and its authentication bits unchanged.", "quantifier": "every MACK, key and store", "why_tests_cant": "unbounded inputs", "anchors": ["galileo-osnma/src/tesla.rs: validate_tag_dummy, validate_tag0_dummy", "galileo-osnma/src/navmessage.rs: validate_dummy_tag, process_mack"]}
{"id": "C20", "title": "MACSEQ is checked over exactly the flexible tag-infos", "statement": "validate_macseq accepts exactly when the first 12 bits of the MAC of PRNA || GST || tag-info fields of the FLX slots of the MAC look-up table row and half-minute in increasing order equal the MACSEQ field; two MACKs accepted by the same key, time and satellite with the same MACed bytes agree on the flexible tag-infos.", "quantifier": "every MACK, key, time and satellite", "why_tests_cant": "unbounded inputs", "anchors": ["galileo-osnma/src/tesla.rs: validate_macseq", "galileo-osnma/src/maclt.rs: get_flx_indices"]}
{"id": "C21", "title": "An accepted MACK conforms to the MAC look-up table", "statement": "If Mack::validate succeeds then every tag-info in a fixed slot has exactly the ADKD of the slot and a PRND in 1..=36, equal to the transmitting satellite for self-authentication slots; get_flx_indices lists exactly the positions for which get_maclt_entry returns Flex; ADKD 4 slots are always self-authentication; unknown table ids and too large tag numbers are errors, never panics.", "quantifier": "every MACK and every (id, half-minute, tag number)", "why_tests_cant": "all MACK contents, all 256 table ids", "anchors": ["galileo-osnma/src/maclt.rs: get_maclt_entry, get_flx_indices, MACLT", "galileo-osnma/src/tesla.rs: Chain::validate_adkd", "galileo-osnma/src/bitfields.rs: Mack::validate"]}
{"id": "C22", "title": "TESLA derivation is iteration, one subframe per step", "statement": "derive(m+n) = derive(n) after derive(m); the derived key has the same chain and its GST is exactly n subframes earlier; the validation status is inherited.", "quantifier": "every key and every number of derivations", "why_tests_cant": "induction over the unbounded number of derivations", "anchors": ["galileo-osnma/src/tesla.rs: one_way_function, derive"]}
{"id": "C23", "title": "A TESLA key is accepted exactly when it derives to the trusted key", "statement": "For subframe-aligned keys validate_key returns Ok exactly when the chains are equal, the new key is later by at most 3000 subframes and iterating the one-way function once per elapsed subframe gives the bytes of the trusted key; the accepted key is the input key unchanged; otherwise the specific error is returned and no assertion fires. Acceptance is transitive along a chain.", "quantifier": "every pair of keys", "why_tests_cant": "all keys and all time gaps up to 3000 subframes", "anchors": ["galileo-osnma/src/tesla.rs: Key::validate_key"]}
{"id": "C24", "title": "Two different accepted TESLA keys for one instant exhibit a hash collision", "statement": "If a trusted key accepts two keys with the same GST but different bytes, then two different inputs of the one-way function with the same truncated output are exhibited.", "quantifier": "every pair of accepted keys", "why_tests_cant": "reduction argument over all keys and distances", "anchors": ["galileo-osnma/src/tesla.rs: validate_key, one_way_function"]}
{"id": "C25", "title": "Two different public keys accepted at one Merkle position exhibit a SHA-256 collision", "statement": "If validate_pkr (or validate_alert_message) accepts two DSM-PKR with the same message ID against one root and their leaves (type, key id, key) differ, two different byte strings with the same SHA-256 are exhibited.", "quantifier": "every pair of accepted DSM-PKR", "why_tests_cant": "reduction argument over all messages", "anchors": ["galileo-osnma/src/merkle_tree.rs: validate, calc_node, hash_leaf"]}
{"id": "C26", "title": "Every leaf of the genuine 16-leaf Merkle tree is accepted", "statement": "For every list of 16 leaves, the DSM-PKR formed from leaf i, message ID i and its sibling path is accepted against the root of the tree.", "quantifier": "every tree content and every position", "why_tests_cant": "all contents", "anchors": ["galileo-osnma/src/merkle_tree.rs: MerkleTree::validate"]}
{"id": "C27", "title": "A KROOT is accepted exactly when its fields, padding and signature are right", "statement": "Key::from_dsm_kroot returns Ok exactly when no chain field is reserved, the padding equals the truncated SHA-256 of message and signature, the key type matches the signature size and the ECDSA signature verifies over the NMA header followed by the DSM bytes from the second byte through KROOT; the resulting key has the KROOT bytes, the announced chain parameters and time WNK/TOWHK minus 30 s. The signed message determines the NMA header and every one of those fields.", "quantifier": "every DSM-KROOT, header and public key", "why_tests_cant": "all message contents", "anchors": ["galileo-osnma/src/tesla.rs: Key::from_dsm_kroot, Chain::from_dsm_kroot", "galileo-osnma/src/bitfields.rs: DsmKroot"]}
{"id": "C28", "title": "The signature scheme guessed from the message size is right for every genuine DSM-KROOT", "statement": "For every key size and both curves, a DSM-KROOT padded to whole 13-byte blocks is recognised with the right curve, and its signature and padding are located exactly; no length is ambiguous between the curves.", "quantifier": "all nine key sizes, both curves, all contents", "why_tests_cant": "tests cover one size", "anchors": ["galileo-osnma/src/bitfields.rs: ecdsa_function, digital_signature, padding"]}
{"id": "C29", "title": "Public keys only move forward", "statement": "In every reachable state of Osnma at most two public keys are held, the next one has a larger id than the current one, no assertion about the key store fires, and the id of the current key never decreases except that an alert empties the store; a public key smaller than the current one is never used again.", "quantifier": "every history of API calls", "why_tests_cant": "invariant over unbounded histories of PKR, KROOT and alerts", "anchors": ["galileo-osnma/src/osnma.rs: PubkeyStore"]}
{"id": "C30", "title": "The TESLA key store holds at most one key per chain and always the key of the chain in force is used", "statement": "In every reachable state the two stored TESLA keys belong to different chains, the key used to validate a MACK key is the stored key of the chain announced in the last verified NMA header, the unreachable arm of store_key is never taken, and as long as its chain is not revoked or replaced a stored key is only ever replaced by a later key of the same chain.", "quantifier": "every history of API calls", "why_tests_cant": "invariant over unbounded histories", "anchors": ["galileo-osnma/src/osnma.rs: KeyStore"]}
{"id": "C31", "title": "CED returned as authenticated is authentic (end to end)", "statement": "For every history of API calls, data returned by get_ced_and_status(svn) has at least 40 authbits and there is a list of distinct-purpose tags, of total length at least min(authbits, 65535), each received in a MACK of some satellite collected from the calls, each verifying as MAC over exactly the returned bits with PRND = svn and status Test or Operational, with a TESLA key of the following subframe (or the one ten later for ADKD 12) that derives through the one-way function to a root key whose ECDSA signature verifies with a public key that is either the one given at construction or Merkle-proved against the root given at construction.", "quantifier": "every history of API calls, all storage sizes, all crypto functions", "why_tests_cant": "the headline guarantee ranges over all adversarial inputs and histories", "anchors": ["galileo-osnma/src/osnma.rs: Osnma::feed_inav, feed_osnma, get_ced_and_status", "galileo-osnma/src/navmessage.rs", "galileo-osnma/src/tesla.rs", "galileo-osnma/src/merkle_tree.rs"]}
{"id": "C32", "title": "Timing parameters returned as authenticated are authentic (end to end)", "statement": "Same as C31 for get_timing_parameters: 141 bits, ADKD 4 tags only, key of the following subframe only.", "quantifier": "every history of API calls", "why_tests_cant": "as C31", "anchors": ["galileo-osnma/src/osnma.rs: Osnma::get_timing_parameters"]}
{"id": "C33", "title": "With only_slowmac no fast tag counts", "statement": "If Osnma was constructed with only_slowmac = true, get_timing_parameters returns None after every history, and every tag counted for CED is an ADKD 12 tag verified with the key of eleven subframes later.", "quantifier": "every history of API calls", "why_tests_cant": "absence over all histories", "anchors": ["galileo-osnma/src/osnma.rs: process_tags"]}
{"id": "C34", "title": "After a verified alert nothing is ever authenticated again", "statement": "Once a Merkle-verified alert message (or a verified KROOT whose header announces an alert) has been processed, no later call increases the authentication bits of any stored data, no public key or TESLA key is stored again, and no data received later is ever returned as authenticated.", "quantifier": "every continuation of the history", "why_tests_cant": "all continuations", "anchors": ["galileo-osnma/src/osnma.rs: alert_message_received"]}
{"id": "C35", "title": "A revoked chain is not used until its root key is verified again", "statement": "After a verified header with status don't use and CPKS chain revoked (or public key revoked) for chain c, no TESLA key of chain c is stored, and no tag is counted with a key of chain c until a KROOT of chain c is verified again.", "quantifier": "every history of API calls", "why_tests_cant": "all histories", "anchors": ["galileo-osnma/src/osnma.rs: process_nma_header, KeyStore::revoke"]}
{"id": "C36", "title": "After a key change the old public key is never accepted again", "statement": "Once a KROOT has been verified with public key id p, no KROOT announced under an id smaller than p is ever accepted, whatever is received later, unless an alert emptied the store, after which none is accepted at all.", "quantifier": "every continuation", "why_tests_cant": "all histories", "anchors": ["galileo-osnma/src/osnma.rs: make_pkid_current, store_new_pubkey, applicable_pubkey, PubkeyStore::revoke"]}
{"id": "C37", "title": "Without a Merkle tree root the public key set never grows", "statement": "An Osnma made by from_pubkey only ever verifies KROOTs with the given public key, and one made by from_merkle_tree without key verifies none until a DSM-PKR is Merkle-proved.", "quantifier": "every history of API calls", "why_tests_cant": "all histories", "anchors": ["galileo-osnma/src/osnma.rs: from_pubkey, from_merkle_tree, process_dsm_pkr_npk"]}
{"id": "C38", "title": "feed_inav and the getters never panic", "statement": "For every consistent storage size and every history of API calls whose GSTs are in week 1 or later (reported ages cannot underflow week 0), feed_inav, get_ced_and_status and get_timing_parameters do not panic.", "quantifier": "every history of API calls", "why_tests_cant": "index arithmetic and unwraps over all histories", "anchors": ["galileo-osnma/src/navmessage.rs"]}
{"id": "C39", "title": "No received data can make feed_osnma panic", "statement": "feed_osnma must not panic on unauthenticated input, whatever bytes are received. ", "quantifier": "every history of API calls", "why_tests_cant": "all adversarial byte strings", "anchors": ["galileo-osnma/src/osnma.rs: feed_osnma", "galileo-osnma/src/bitfields.rs: ecdsa_function, check_signature, merkle_tree_leaf"]}
{"id": "C40", "title": "All-zero OSNMA data is ignored", "statement": "feed_osnma with five zero bytes changes nothing observable: all later results are as if the call had not been made.", "quantifier": "every history and every continuation", "why_tests_cant": "all continuations", "anchors": ["galileo-osnma/src/osnma.rs: feed_osnma"]}
{"id": "C41", "title": "OSNMA data never changes navigation data", "statement": "feed_osnma never changes the stored navigation bits, satellites or times, and never decreases authentication bits: data that was returned before the call with some contents is still returned after it unless data of a later subframe has become authenticated.", "quantifier": "every state and call", "why_tests_cant": "all states", "anchors": ["galileo-osnma/src/osnma.rs: feed_osnma", "galileo-osnma/src/navmessage.rs: process_mack"]}
{"id": "C42", "title": "Tags sent with status don't use or reserved add no authentication bits", "statement": "Processing MACKs whose recorded NMA status is Reserved or DontUse leaves all authentication bits unchanged even if the tags verify.", "quantifier": "every MACK, key, store", "why_tests_cant": "all inputs", "anchors": ["galileo-osnma/src/navmessage.rs: validate_tag"]}
{"id": "C43", "title": "Galmon framing round-trips", "statement": "Writing any sequence of packets (encodings of at most 65535 bytes) with WriteTransport and reading the bytes with ReadTransport gives back the same sequence and then end of stream; write_packet reports exactly the bytes written; from a stream with a wrong magic value or truncated inside a frame only the whole frames before that point are read, never a wrong packet.", "quantifier": "every packet sequence, every truncation point and every byte stream", "why_tests_cant": "unbounded streams", "anchors": ["galileo-osnma/src/galmon/mod.rs: ReadTransport::read_packet, WriteTransport::write_packet"]}
{"id": "C44", "title": "galmon-osnma feeds the black box in chronological subframe order", "statement": "Whatever the packets on the input, the GSTs passed to feed_inav and feed_osnma by galmon-osnma (and forwarded by osnma-longan-nano-client) are in non-decreasing subframe order, valid (tow < 604800), never dummy words, and the TOW correction never moves a packet to another subframe or week.", "quantifier": "every packet stream", "why_tests_cant": "unbounded streams", "anchors": ["galileo-osnma/src/bin/galmon-osnma.rs: main", "galileo-osnma/src/bin/osnma-longan-nano-client.rs: main"]}
{"id": "C45", "title": "The serial line protocol round-trips", "statement": "Each line sent by the client for (svn, gst, band, INAV word or OSNMA data) is parsed by the firmware to exactly the same call on the black box, fits the 256-byte line buffer, and CR/LF framing separates successive lines.", "quantifier": "every satellite, time, band and contents", "why_tests_cant": "all values", "anchors": ["galileo-osnma/src/bin/osnma-longan-nano-client.rs: send_inav, send_osnma", "osnma-longan-nano/src/main.rs: rx_line, process_line"]}
{"id": "C46", "title": "The test-vector converter extracts the INAV word and OSNMA bits of each page", "statement": "For every 240-bit page with even and odd halves laid out as in the OS SIS ICD, the packet produced carries exactly the 128-bit word and the 40 OSNMA bits, with GST two seconds later per page starting at the file time (the number of days since 22 August 1999 that the date in the name of the file says, a leap second counting as the second before; a name with a date or time of day that does not exist is an error), and feeding them back through galmon-osnma delivers them unchanged.", "quantifier": "every page content and start time", "why_tests_cant": "all contents", "anchors": ["galileo-osnma/src/bin/osnma-test-vectors-to-galmon.rs: csv_line_to_pages, filename_to_gst"]}
{"id": "C47", "title": "The start of applicability of the chain in force is remembered", "statement": "After the chain in force has changed at some GST, Slow MAC processing for older subframes uses the key of the previous chain for as long as needed, also after further KROOTs of the new chain are verified.", "quantifier": "every history", "why_tests_cant": "needs a particular sequence of KROOTs", "anchors": ["galileo-osnma/src/osnma.rs: KeyStore::store_kroot, key_past_chain"]}
{"id": "C48", "title": "A receiver recovers from a long gap when a fresh KROOT is verified", "statement": "When a newly verified KROOT of the chain in force is more recent than the stored key, later MACK keys can be validated from it, even if the stored key is more than 3000 subframes old.", "quantifier": "every gap length", "why_tests_cant": "needs gaps over 25 hours", "anchors": ["galileo-osnma/src/osnma.rs: KeyStore::store_kroot, validate_key", "galileo-osnma/src/tesla.rs: validate_key"]}
{"id": "C49", "title": "DSM-KROOT fields are decoded as laid out in the ICD", "statement": "For every choice of field values, decoding the bytes laid out as in ICD Figure 7 gives back every field (NB, PKID, CIDKR, HF, MF, KS, TS, MACLT, WNK, TOWHK, alpha, KROOT, signature, padding), with reserved codes reported as reserved.", "quantifier": "every field value", "why_tests_cant": "product of all field values", "anchors": ["galileo-osnma/src/bitfields.rs: DsmKroot"]}
{"id": "C50", "title": "MACK fields are decoded as laid out in the ICD", "statement": "For every key and tag size of the chain tables and all contents, decoding a 60-byte MACK laid out as in ICD Figures 8, 9 and 11 gives back tag0, MACSEQ, COP, each tag and tag-info (PRND, ADKD, COP) and the key; no accessor panics for these sizes.", "quantifier": "all 45 size combinations and all contents", "why_tests_cant": "all contents", "anchors": ["galileo-osnma/src/bitfields.rs: Mack, TagAndInfo"]}
{"id": "C51", "title": "DSM-PKR, DSM header and NMA header fields are decoded as laid out in the ICD", "statement": "Same as C49 for the DSM-PKR (NB, MID, tree nodes, NPKT, NPKID, key, padding), the DSM header and the NMA header.", "quantifier": "every field value", "why_tests_cant": "product of all field values", "anchors": ["galileo-osnma/src/bitfields.rs: DsmPkr, DsmHeader", "galileo-osnma/src/tesla.rs: NmaHeader"]}
{"id": "C52", "title": "Genuine data does get authenticated", "statement": "If the store holds data of a satellite complete and unchanged for at most COP subframes, the MACK of the following subframe conforms to the look-up table with correct MACSEQ and carries a tag that verifies for that data, and the key of the subframe after that arrives in a MACK and derives to the stored key of the chain in force, then after that call the data is returned as authenticated once the tag bits reach 40.", "quantifier": "every such state", "why_tests_cant": "all data, keys, chains and sizes", "anchors": ["galileo-osnma/src/osnma.rs: validate_key, process_tags", "galileo-osnma/src/navmessage.rs: process_mack"]}
{"id": "C53", "title": "authbits is exactly the total length of the successful tags since the data last changed", "statement": "Along every history, the authbits of the entry of a satellite in the current subframe equal (saturating at 65535) the sum of the lengths of all tags that verified for exactly those bits and that satellite since the entry's bits were last changed or the entry was created.", "quantifier": "every history", "why_tests_cant": "accumulation over unbounded histories", "anchors": ["galileo-osnma/src/navmessage.rs: add_authbits, copy_word, adjust_write_pointer"]}
{"id": "C54", "title": "End of stream is reported only between packets", "statement": "ReadTransport::read_packet returns Ok(None) only if the stream ended exactly after a whole number of packets; a stream that ends inside a packet is an error.", "quantifier": "every byte stream", "why_tests_cant": "every truncation point of every stream", "anchors": ["galileo-osnma/src/galmon/mod.rs: ReadTransport::read_packet"]}
{"id": "C55", "title": "galmon-filter-inav copies exactly the INAV packets", "statement": "For every input, the output of galmon-filter-inav is exactly the packets read that have a Galileo INAV message, in the same order, written anew (for packets written by WriteTransport: byte for byte the same), and it ends as the reading ends; it panics exactly when such a packet does not fit a frame when it is written anew. If the output fails after some bytes, exactly the first bytes of that output were written and the program ends with the write error.", "quantifier": "every packet sequence", "why_tests_cant": "unbounded streams", "anchors": ["galileo-osnma/src/bin/galmon-filter-inav.rs: main"]}
{"id": "C56", "title": "galmon-osnma logs newly authenticated data, all of it, once, and nothing else", "statement": "Every CED or timing parameters logged was returned by the black box in that run and is authentic in the sense of C14; no satellite is logged twice in a row with the same data; whenever the data returned for a satellite after a packet differs from the data last logged for it, it is logged.", "quantifier": "every packet stream", "why_tests_cant": "unbounded streams and histories", "anchors": ["galileo-osnma/src/bin/galmon-osnma.rs: main"]}
{"id": "C57", "title": "Packets with a correct time are processed at their own time", "statement": "A packet whose time of week is correct is given to the black box with exactly that time; only packets with the known one-second-late TOW error are corrected.", "quantifier": "every packet stream", "why_tests_cant": "the correction depends on the previous packet of any satellite", "anchors": ["galileo-osnma/src/bin/galmon-osnma.rs: main"]}
{"id": "C58", "title": "The serial client and the firmware never get out of step", "statement": "Under every interleaving of client and firmware and every delay of the link: when the firmware is not reading its port at most the final LF of the previous line is unread (no overrun), the calls made are a prefix of those requested, there is no deadlock, and every execution ends with all the calls made unless the black box panics.", "quantifier": "every schedule, every sequence of lines", "why_tests_cant": "interleavings of two concurrent programs", "anchors": ["galileo-osnma/src/bin/osnma-longan-nano-client.rs: read_until_ready, main", "osnma-longan-nano/src/main.rs: rx_line, spin, ready"]}
{"id": "C59", "title": "The firmware reports exactly the authenticated satellites", "statement": "After each line the firmware prints the echo of the call and, for ADKD 4 and ADKD 0, a line that lists in order exactly the satellites for which the black box returns authenticated data, with the TOW of that data, or NONE.", "quantifier": "every state and line", "why_tests_cant": "all states", "anchors": ["osnma-longan-nano/src/main.rs: print_auth_status, process_line"]}
{"id": "C60", "title": "galmon-osnma runs to the end of its input unless a packet is malformed or the black box panics", "statement": "On every input stream galmon-osnma processes all the packets and then exits as the reading ends, exactly when no packet has a time out of range, a satellite number outside 1..36 (when not dropped as late) or a word or OSNMA field of the wrong length (when used), and the black box does not panic on the resulting calls; otherwise it panics. Also in a build without overflow checks, a packet with a signal identifier and a week number that does not fit 16 bits ends the program.", "quantifier": "every packet stream", "why_tests_cant": "unbounded streams, every combination of fields", "anchors": ["galileo-osnma/src/bin/galmon-osnma.rs: main"]}
{"id": "C61", "title": "The serial set-up is a remote galmon-osnma", "statement": "The serial client runs to the end of its input exactly when no packet has a time out of range or, when used, a word or OSNMA field of the wrong length. Whenever galmon-osnma runs to the end on an input stream, the serial client also does, the firmware processes all the lines that it sends, makes the same calls and ends with the same authenticated data as galmon-osnma; the same holds when client and firmware run concurrently over the byte-level link, under every schedule, and the client has then printed everything but the answer to its last line.", "quantifier": "every packet stream, every interleaving and delay of the bytes on the serial link", "why_tests_cant": "unbounded streams; equality of two different programs", "anchors": ["galileo-osnma/src/bin/osnma-longan-nano-client.rs: main", "galileo-osnma/src/bin/galmon-osnma.rs: main", "osnma-longan-nano/src/main.rs: spin"]}
{"id": "C62", "title": "Acceptance decisions are those of a reference machine", "statement": "In every history that does not panic, the sequence of messages accepted (KROOTs, public keys, alerts, TESLA keys) is exactly that emitted by a deterministic reference machine that sees only the OSNMA pages, the Merkle tree root and the public key given at construction: it collects subframes, then DSMs, then verifies with the keys accepted so far. Hence the keys accepted and held do not depend on the storage size, on the Slow MAC setting or on the navigation words fed; nor does whether a history panics, if the parameters of the chains signed so far fit together (see C39).", "quantifier": "every history of calls, every storage size, every trust anchor and setting", "why_tests_cant": "unbounded histories; equality of the decisions of two arbitrary receivers", "anchors": ["galileo-osnma/src/osnma.rs: Osnma::feed_osnma, OsnmaDsm::process_dsm, validate_key, KeyStore, PubkeyStore", "galileo-osnma/src/subframe.rs: CollectSubframe::feed", "galileo-osnma/src/dsm.rs: CollectDsm::feed"]}
{"id": "C63", "title": "The authenticated navigation data is that of a reference machine", "statement": "In every history that does not panic, with pages and words in chronological order and not more satellites than places, each getter returns exactly what a deterministic reference machine says is authenticated: the data of the most recent kept subframe whose authentication bits reach 40, those bits, and the time of its newest field. The machine (which contains that of C62) adds, for each accepted TESLA key, the lengths of the tags of the MACK messages one and eleven subframes before that are accepted and count for the data, and keeps the bits of a satellite until its data changes.", "quantifier": "every chronological history of calls, every storage size, trust anchor and setting, every satellite and kind of data", "why_tests_cant": "unbounded histories; the value returned depends on all words and pages received", "anchors": ["galileo-osnma/src/osnma.rs: Osnma, validate_key, process_tags", "galileo-osnma/src/navmessage.rs: CollectNavMessage", "galileo-osnma/src/mack.rs: MackStorage"]}
{"id": "C64", "title": "The firmware never misreads what arrives on its serial port", "statement": "Whatever bytes arrive: a line is the bytes other than LF up to a CR (or the first 256 of them); if the firmware gets through it, the line is UTF-8 text whose words are a satellite 1..36, a week number, a time of week below 604800, the band 1 or 5 and data in hexadecimal, and exactly the corresponding call is made, or the data has the length of neither message and no call is made. It waits exactly while there is no complete line, and panics exactly on the other lines or when the black box panics. No line has two readings, and the lines of the client are read as meant.", "quantifier": "every byte sequence, every state of the firmware", "why_tests_cant": "every malformed or overlong line", "anchors": ["osnma-longan-nano/src/main.rs: rx_line, process_line, spin"]}
{"id": "C65", "title": "There is room for as many satellites in view as places", "statement": "A storage with N places serves N satellites in view: a word changes only the place of its satellite, else a free one, else the one with the oldest field; a satellite in view keeps its place and its data as long as not more than N satellites are in view, however many have been heard before, and its genuine data gets authenticated as in C52.", "quantifier": "every chronological history, every storage size, satellite and kind of data", "why_tests_cant": "which satellite loses its place depends on the order of all words received", "anchors": ["galileo-osnma/src/navmessage.rs: CollectNavMessage::feed, max_age, CedAndStatus::feed, TimingParameters::feed"]}
{"id": "C66", "title": "The programs trust exactly what the user gave them", "statement": "galmon-osnma starts exactly when its arguments name a Merkle tree root (32 bytes in hexadecimal), a public key with its identifier, or both, but not two keys, and these can be read, and it never panics at start-up; whatever it then logs as authenticated, for any packets, is authentic for exactly that root and key under the Slow MAC setting given. The firmware builds exactly when its files hold a key, an identifier below 256 and a root (white space around them aside), and whatever bytes arrive, each satellite in its status lines has data authentic for that key and root. A key with an identifier above 15, alone, never authenticates anything.", "quantifier": "every combination of arguments, every file content, every packet stream or byte sequence on the serial port", "why_tests_cant": "combinations of arguments and texts, then unbounded input", "anchors": ["galileo-osnma/src/bin/galmon-osnma.rs: main, load_pubkey, load_pubkey_p521", "osnma-longan-nano/build.rs: main, read_pubkey, read_merkle_tree_root", "osnma-longan-nano/src/main.rs: OsnmaInterface::new, spin"]}
{"id": "C67", "title": "Galmon packets are read as protobuf says", "statement": "Whatever bytes a frame holds, they are read as a message with certain Galileo I/NAV data (or none) exactly if they are a sequence of protobuf fields, those with numbers in navmon.proto have the types given there, and the data are what the fields say: the last field of each number counts, the parts of a split message are put together, unknown fields and groups are skipped, missing fields are 0 or empty. No bytes have two readings. All other bytes are rejected. What the programs write is such a message, with the data meant, and signed numbers are written extended with their sign, as protobuf prescribes.", "quantifier": "every byte sequence, every message", "why_tests_cant": "every encoding of every message: field order, repetition, unknown fields, padding, nesting", "anchors": ["galileo-osnma/src/galmon/navmon.proto: NavMonMessage, GalileoInav", "galileo-osnma/src/galmon/mod.rs: transport::ReadTransport::read_packet, WriteTransport::write_packet", "galileo-osnma/src/bin/osnma-test-vectors-to-galmon.rs: main"]}
{"id": "C68", "title": "The converter accepts exactly the well-formed files", "statement": "The test-vector converter succeeds exactly on UTF-8 files with a header line and then lines made of a number below 2^32, a field that is ignored and any number of 30-byte pages in hexadecimal, separated by commas, with a time in the range of GST; then its output is exactly one packet per page, by time and then by line, whatever the lines; otherwise it fails or panics, exactly when the first wrong line is malformed or runs past the end of GST, and writes nothing. No file has two readings.", "quantifier": "every byte sequence as file, every start time", "why_tests_cant": "every malformed file; every number of lines and pages", "anchors": ["galileo-osnma/src/bin/osnma-test-vectors-to-galmon.rs: main, csv_line_to_pages"]}
{"id": "C69", "title": "Logging changes nothing", "statement": "Whatever the state of the black box and the history of calls, with all log levels enabled each call gives the same result as with none: the log statements neither panic nor have an effect. A MACK message can always be formatted with Debug; a DSM-PKR and a DSM-KROOT exactly if their lengths fit the sizes that they announce (so a malformed DSM-KROOT makes Debug panic, but the library does not format it). A satellite is shown as E and two digits.", "quantifier": "every state and history, every message of every length", "why_tests_cant": "all states in which a log statement is reached", "anchors": ["galileo-osnma/src/bitfields.rs: fmt", "galileo-osnma/src/osnma.rs: process_dsm_pkr, validate_mack", "galileo-osnma/src/navmessage.rs: log_word, log_age, CollectNavMessage::adjust_write_pointer", "galileo-osnma/src/svn.rs: fmt"]}
{"id": "C70", "title": "Release builds behave like checked builds", "statement": "In a build without overflow checks (cargo --release, the firmware), whatever the state: a call or a history of calls that returns in a build with overflow checks returns the same, and so do the getters; from 6 minutes after the origin of GST on, feed_osnma has the same outcome in both builds unless it completes a DSM-KROOT whose time is the origin. There the builds differ: such a DSM-KROOT, if signed, makes the checked build panic, while the release build stores the root key with a time at the end of week 65535, after which no TESLA key of that chain is accepted. add_seconds wraps modulo 65536 weeks and panics exactly for -604800 s or less.", "quantifier": "every state, every call and history, every duration", "why_tests_cant": "equality of two builds on all states and unbounded histories", "anchors": ["galileo-osnma/src/gst.rs: Gst::add_seconds, Gst::add_subframes", "galileo-osnma/src/tesla.rs: Key::derive, Key::validate_key, Key::from_dsm_kroot", "galileo-osnma/src/osnma.rs: process_tags", "galileo-osnma/src/navmessage.rs: process_mack, get_ced_and_status"]}
{"id": "C71", "title": "Validated means validated", "statement": "Whatever public functions of the crate a program calls and in whatever order, with whatever data: a PublicKey<Validated> is one that the program itself declared trusted or one proved by a DSM-PKR against a Merkle tree root that it trusts, and all such keys can be had; a Key<Validated> leads, together with a root key that is signed (with an NMA header) under such a public key, to a common key of that chain, so it is on the chain of that root key unless two different keys with the same one-way image are exhibited; without that exception if the program never derives earlier keys from validated ones; conversely every key from which a signed root key derives can be validated, as can every key derived from it; an NmaHeader<Validated> is exactly a header under which such a DSM-KROOT is signed; a Mack<Validated> has, for some satellite and subframe, a right MACSEQ and conforming tags under a Key<Validated>.", "quantifier": "every finite sequence of calls of public constructors and validation functions, every argument, every crypto", "why_tests_cant": "closure of a type under all programs that can produce its values", "anchors": ["galileo-osnma/src/validation.rs: Validated, NotValidated", "galileo-osnma/src/tesla.rs: Key::from_bitslice, Key::from_slice, Key::from_dsm_kroot, Key::one_way_function, Key::derive, Key::validate_key", "galileo-osnma/src/merkle_tree.rs: MerkleTree::validate_pkr, PublicKey::force_valid", "galileo-osnma/src/bitfields.rs: Mack::validate"]}
{"id": "C72", "title": "CollectNavMessage used directly is sound", "statement": "A program that uses CollectNavMessage directly, with any sequence of feed, process_mack, process_mack_slowmac and reset_authbits calls: if a getter returns data then the reported authbits (at least 40) are the total length (capped at 65535) of tags that were submitted since the last reset_authbits, each counted at most as often as it was submitted, each with the PRN of the satellite, the right ADKD, a non-zero COP, status test or operational, and equal to the truncated MAC of the returned bits under a validated key; every field of the data was fed for that satellite; after reset_authbits nothing is returned until tags are submitted; no call panics if MACKs are processed with aligned times other than the origin of GST and with keys of a size that the MAC admits, and no getter does 255 subframes after the origin.", "quantifier": "every sequence of calls, every word, MACK, key, time, satellite, status, storage size, crypto", "why_tests_cant": "invariant over unbounded sequences of calls with arbitrary arguments", "anchors": ["galileo-osnma/src/navmessage.rs: CollectNavMessage::feed, process_mack, process_mack_slowmac, reset_authbits, get_ced_and_status, get_timing_parameters"]}
{"id": "C73", "title": "Hearing the same page or word more than once changes nothing", "statement": "When several stations deliver the same pages and words, feeding all copies is the same as feeding the first copy of each: the same calls return or panic and the black box ends in the same state, so that all getters answer the same. A page of OSNMA data counts as a copy if it is for the same satellite, subframe and page number, even if its data is different (a second, corrupted, copy does no harm); a word if it is the same word of the same satellite, band and subframe. This holds if subframes come in order, the first copies of the pages of each satellite come in order, words do not change within a subframe, and satellites whose words are heard again still have their place in the store (for instance because all satellites fit).", "quantifier": "every history of calls by any number of stations, every storage size, crypto and constructor", "why_tests_cant": "invariant over unbounded histories; equality of whole states", "anchors": ["galileo-osnma/src/osnma.rs: Osnma::feed_inav, Osnma::feed_osnma", "galileo-osnma/src/subframe.rs: CollectSubframe::feed", "galileo-osnma/src/navmessage.rs: CollectNavMessage::feed"]}
{"id": "C74", "title": "A corrupted block of a DSM does no lasting harm", "statement": "If a block of a DSM was received wrongly, the DSM is still accepted once its genuine blocks are received again, in any order and with any repetitions.", "quantifier": "every history of calls before and after, every DSM-KROOT, every storage size, crypto and constructor", "why_tests_cant": "unbounded histories of subframes; which copy of a block counts depends on all that was received", "anchors": ["galileo-osnma/src/dsm.rs: CollectDsm::feed", "galileo-osnma/src/osnma.rs: OsnmaDsm::process_dsm"]}
{"id": "C75", "title": "From a cold start a genuine broadcast gets authenticated", "statement": "A receiver that was given the public key and nothing else, and hears a genuine broadcast of which any pages may be missing, never panics; once all blocks of the DSM-KROOT were received (in any order, from any satellites) it has accepted it; from that subframe on it accepts the TESLA key of every subframe in which some satellite was heard completely; and once tags of 40 bits or more in total of the unchanged data of a satellite, and their keys, were heard, the getter returns exactly that data.", "quantifier": "every genuine broadcast (any chain, keys, satellites, up to 25 hours), every part of it that is heard, every storage size, crypto and setting", "why_tests_cant": "unbounded histories; liveness: the whole way from the first page to authenticated data, for everything that may be missing", "anchors": ["galileo-osnma/src/osnma.rs: Osnma::from_pubkey, Osnma::feed_inav, Osnma::feed_osnma, Osnma::get_ced_and_status", "galileo-osnma/src/dsm.rs: CollectDsm::feed", "galileo-osnma/src/subframe.rs: CollectSubframe::feed", "galileo-osnma/src/tesla.rs: Key::from_dsm_kroot, Key::validate_key", "galileo-osnma/src/mack.rs: MackStorage::store", "galileo-osnma/src/navmessage.rs: CollectNavMessage::process_mack"]}
{"id": "C76", "title": "Joining a genuine broadcast from any state", "statement": "A receiver in any state that some history led to (whatever was heard before: other chains, other keys, corrupted or forged pages), which holds the public key of a genuine broadcast, given or proved by a DSM-PKR, and then hears this broadcast under a DSM id other than the last one heard, never panics (given that the parameters of the chains signed so far fit together, see C39); once all blocks of the DSM-KROOT were received it has accepted exactly this DSM-KROOT, and apart from it nothing but TESLA keys; from that subframe on it accepts the TESLA key of every subframe in which some satellite was heard completely; and the data gets authenticated as after a cold start, Slow MAC included unless the TESLA chain in force changed after the tag.", "quantifier": "every history before, every genuine broadcast that follows it (the same chain renewed, another chain, another public key), every part of it that is heard, every storage size, crypto and setting", "why_tests_cant": "unbounded histories; liveness from every reachable state", "anchors": ["galileo-osnma/src/osnma.rs: Osnma::feed_osnma, PubkeyStore, KeyStore::store_kroot, KeyStore::store_key, KeyStore::key_past_chain", "galileo-osnma/src/dsm.rs: CollectDsm::feed", "galileo-osnma/src/subframe.rs: CollectSubframe::feed", "galileo-osnma/src/tesla.rs: Key::from_dsm_kroot, Key::validate_key"]}
{"id": "C77", "title": "Spoofed satellites do not stop authentication", "statement": "Let a receiver that follows a genuine broadcast (it has verified its NMA header and holds a key of its chain, as after C75/C76) be fed in chronological order with pages of some genuine satellites and with anything at all under the numbers of the other satellites. As long as no DSM-KROOT with another NMA header and no alert is verified, either the TESLA key of every subframe in which some genuine satellite was heard completely is accepted, no other key of the chain is, and the data is authenticated by the tags of genuine satellites as without the spoofing, or a reported key gives an explicit collision of the one-way function. (A replayed DSM-KROOT of another chain, signed in the past, is accepted and does stop authentication: see the counterexample.)", "quantifier": "every history before, every genuine broadcast, every set of genuine satellites, every content under the other numbers, every storage size, crypto and setting", "why_tests_cant": "quantifies over all behaviours of an attacker over unbounded histories", "anchors": ["galileo-osnma/src/osnma.rs: Osnma::feed_osnma, KeyStore::store_kroot, KeyStore::store_key, OsnmaData::process_tags", "galileo-osnma/src/dsm.rs: CollectDsm::feed", "galileo-osnma/src/subframe.rs: CollectSubframe::feed", "galileo-osnma/src/tesla.rs: Key::validate_key", "galileo-osnma/src/mack.rs: MackStorage::store"]}
{"id": "C78", "title": "What a key authenticates was received before the key", "statement": "Whatever is fed and in whatever order: every tag that contributes to the authbits of data given by a getter was in time, i.e. some call reported its TESLA key as accepted, and by the calls before that one all the pages with the tag and all the words with the data had been received; if the words came in chronological order the data is, field by field, the one last received before the subframe of the tag, and no field is older than the COP of the tag allows. Hence, once a TESLA key has been accepted, and as long as its chain is neither revoked nor displaced, nothing received afterwards can be authenticated with this key or an earlier one: the tags with such keys, and their data, were received before. If all calls are in chronological order, tags and data were received in subframes before the one in which the key is sent.", "quantifier": "every history of calls in any order, every cut of it after the acceptance of a key, every satellite and kind of data, every storage size, crypto and setting", "why_tests_cant": "this is the security condition of TESLA; it quantifies over all histories, including those of an attacker who knows the disclosed keys", "anchors": ["galileo-osnma/src/osnma.rs: OsnmaData::validate_key, OsnmaData::process_tags, KeyStore::store_key", "galileo-osnma/src/navmessage.rs: CollectNavMessage::process_mack, CollectNavMessage::find_gst, CollectNavMessage::process_mack_slowmac", "galileo-osnma/src/mack.rs: MackStorage::store, MackStorage::get"]}
{"id": "C79", "title": "The interleaving of satellites and the order of the words do not matter", "statement": "Let two histories of calls be the same up to repeatedly exchanging two neighbouring calls of this kind: words of two satellites or of two types in the same subframe; pages of two satellites in the same subframe, at most one of them the last page of the subframe; a word and a page that is not the last of its subframe. If no two words are exchanged, both histories lead to the very same state, or both panic, from any state. Otherwise, if the histories are chronological and there are not more satellites than places, both give the same messages about keys and the same result (data, authbits and time) of every getter; if the parameters of the chains signed so far fit together (see C39), neither panics if the other does not.", "quantifier": "every pair of histories that differ in such exchanges, any number of them, every state, storage size, crypto and setting", "why_tests_cant": "quantifies over all schedules in which satellites received in parallel reach the library", "anchors": ["galileo-osnma/src/osnma.rs: Osnma::feed_inav, Osnma::feed_osnma", "galileo-osnma/src/subframe.rs: CollectSubframe::feed", "galileo-osnma/src/navmessage.rs: CollectNavMessage::feed, CollectNavMessage::process_mack", "galileo-osnma/src/mack.rs: MackStorage::store"]}
{"id": "C80", "title": "Every call needs a bounded amount of cryptography", "statement": "Whatever was fed before, by whomever: feed_inav evaluates no cryptographic primitive, and feed_osnma none unless the page completes a subframe of its satellite; then, if the calls are made in chronological order and no root key verified so far is for a later time than the call, it evaluates at most 3015 hashes, 21 MACs for each satellite for which there is room in the storage (at most 36), and one operation on an elliptic curve, each on at most 177 bytes; at most 15 + N hashes if the TESLA key in force is at most N subframes old during the call. In general the bound is 3005 + D hashes, where the keys held are for times at most D subframes after the one 300 s before the call: a root key for a later time makes a call need many more (see the counterexample).", "quantifier": "every history of calls, every call after it, every storage size, crypto and setting", "why_tests_cant": "a bound for all histories, including those made by an attacker to make the receiver busy (a denial of service on a small device)", "anchors": ["galileo-osnma/src/osnma.rs: Osnma::feed_inav, Osnma::feed_osnma, OsnmaData::validate_key, OsnmaData::process_tags, KeyStore::key_past_chain", "galileo-osnma/src/tesla.rs: Key::validate_key, Key::derive, Key::from_dsm_kroot, Key::validate_tag, Key::validate_macseq", "galileo-osnma/src/navmessage.rs: CollectNavMessage::process_mack, CollectNavMessage::process_mack_slowmac", "galileo-osnma/src/merkle_tree.rs: MerkleTree::validate_pkr"]}
{"id": "C81", "title": "The documented storage sizes suffice and more storage never hurts", "statement": "Two receivers that differ only in the sizes of their storage are given the same calls. (a) If the words and the pages come in chronological order and the satellites heard fit in the smaller storage, then whenever the smaller receiver reports data of a satellite, the larger one reports data too, of the same time or later; unless it is made of words received later, it is the same data with the same time and at least as many authentication bits. (b) With the documented sizes (MackDepth 12 and NavMessageDepth 13; 2 and 3 if Slow MAC is not used) a larger storage changes nothing: whatever is reported is reported the same, with the same time and authentication bits, and when nothing is reported a larger storage could only report data older than the last NavMessageDepth subframes with words. In particular FullStorage is the largest size that makes sense. If the parameters of the chains signed so far fit together (see C39), the larger receiver does not panic if the smaller one does not. (c) The sizes are needed: with 11 or 12 in place of 12 or 13, data authenticated by Slow MAC is lost.", "quantifier": "every pair of storage sizes with one within the other, every history of calls (in order), both constructors, only_slowmac or not, every satellite and data type", "why_tests_cant": "The storage size is a type parameter with infinitely many values, and the claim compares two complete executions of the library on every history; a test picks one size and one history.", "anchors": ["galileo-osnma/src/storage.rs: StaticStorage", "galileo-osnma/src/storage.rs: FullStorage", "galileo-osnma/src/storage.rs: SmallStorage", "galileo-osnma/src/mack.rs: MackStorage", "galileo-osnma/src/navmessage.rs: CollectNavMessage", "galileo-osnma/src/osnma.rs: Osnma"]}
{"id": "C82", "title": "Reported data is kept and does not get older", "statement": "Words and pages are fed in chronological order, with not more satellites than the storage has places. Once the receiver reports authenticated data for a satellite, and if until the end of the subframe in course the words of that satellite do not change its data, then whatever is fed afterwards (words with other data in later subframes, invalid tags, keys, messages of any kind): the receiver goes on reporting data for it until at least as many later subframes with words as the storage has places have been received; what is reported is of the same time or a later one and made of words received up to a not earlier point; and as long as it is from the same subframe, it is the same data with at least as many authentication bits. (If the data changes in the middle of a subframe, the time reported goes back: counterexample.)", "quantifier": "all storage sizes, settings, keys and cryptographic functions; all histories and all continuations of them in chronological order; all satellites and kinds of data", "why_tests_cant": "tests follow a report for a few steps; this is about every continuation of every history", "anchors": ["galileo-osnma/src/osnma.rs: Osnma::get_ced_and_status", "galileo-osnma/src/osnma.rs: Osnma::get_timing_parameters", "galileo-osnma/src/navmessage.rs: CollectNavMessage::feed", "galileo-osnma/src/navmessage.rs: CollectNavMessage::process_mack"]}
{"id": "C83", "title": "What is reported for a satellite does not depend on the words of the other satellites", "statement": "Two receivers with the same settings are given, in chronological order and with not more satellites than places, the same OSNMA pages and the same navigation words with a kind of data (CED and status, or timing parameters) of a satellite. The other words (of other satellites, or with the other kind of data or none, after the first word of the satellite) may differ arbitrarily in content, band and satellite, and be missing in one of the two, as long as the words that start a subframe are not. Then both receivers report the same for this data of this satellite: both nothing, or the same data with the same time and authentication bits; they accept the same keys; and, if the parameters of the chains signed fit together (see C39), if one does not panic neither does the other.", "quantifier": "every pair of such histories of any length, every storage size, setting, key and cryptographic functions, every satellite and kind of data", "why_tests_cant": "The claim compares two executions on every pair of histories that differ only in words beside the point; a test can only compare some of them.", "anchors": ["galileo-osnma/src/navmessage.rs: CollectNavMessage::feed", "galileo-osnma/src/navmessage.rs: CollectNavMessage::process_mack", "galileo-osnma/src/osnma.rs: Osnma::feed_inav", "galileo-osnma/src/osnma.rs: Osnma::get_ced_and_status", "galileo-osnma/src/osnma.rs: Osnma::get_timing_parameters"]}
{"id": "C84", "title": "Replayed signals bring no keys and authenticate nothing", "statement": "A receiver has verified no other DSM-KROOT than that of a genuine broadcast. Then, whatever is fed, each TESLA key that it accepts for a subframe of the broadcast is the key that the broadcast discloses in that subframe, or else the derivations of the two keys meet, which is an explicit collision of the one-way function. Hence, if it is fed with recorded MACK messages of the broadcast, each in another subframe than that in which it was sent (later or earlier, under the number of any satellite, with any HKROOT messages and words), it accepts no TESLA key, and whatever the getters return afterwards was received before the replay, with tags received before it and keys accepted before it. (The time passed with each page is trusted: the library does not compare it with anything.)", "quantifier": "every history before, every replay of a genuine broadcast (any delay, per satellite and subframe), every storage size, crypto and setting", "why_tests_cant": "quantifies over all ways in which an attacker can rebroadcast recorded signals over unbounded histories", "anchors": ["galileo-osnma/src/osnma.rs: Osnma::feed_osnma", "galileo-osnma/src/osnma.rs: OsnmaData::validate_key", "galileo-osnma/src/tesla.rs: Key::validate_key", "galileo-osnma/src/tesla.rs: Key::derive", "galileo-osnma/src/mack.rs: MackStorage::store"]}
{"id": "C85", "title": "Using only Slow MAC never reports more", "statement": "Two receivers with the same storage, Merkle tree root and public key, of which one has only_slowmac set and the other one has not, are given the same words and pages in chronological order, with not more satellites than places. Both accept the same keys. Whenever the one with only_slowmac reports data of a satellite, the other one reports data too, of the same time or later; unless it is made of words received later, it is the same data with the same time and at least as many authentication bits. If the parameters of the chains signed so far fit together (see C39), the latter does not panic if the former does not.", "quantifier": "every history of calls in order, every storage size, key and cryptographic functions, every satellite and kind of data", "why_tests_cant": "The claim compares two complete executions of the library on every history.", "anchors": ["galileo-osnma/src/osnma.rs: Osnma::from_merkle_tree", "galileo-osnma/src/osnma.rs: Osnma::from_pubkey", "galileo-osnma/src/osnma.rs: OsnmaData::process_tags", "galileo-osnma/src/navmessage.rs: CollectNavMessage::process_mack", "galileo-osnma/src/navmessage.rs: CollectNavMessage::process_mack_slowmac"]}
{"id": "C86", "title": "Nothing heard in addition takes away authenticated data", "statement": "Two receivers with the same storage and keys have verified the NMA header of the broadcast and hold a key of its chain. From then on both are given the same navigation words, and OSNMA pages of genuine satellites; one of them is given more OSNMA pages, of genuine satellites or with anything in them. Calls are in chronological order, with not more satellites than places, and there is room for the MACK messages of 12 subframes (2 if Slow MAC is not used). Then each TESLA key that the first one accepts is accepted by the second one; whenever the first reports data of a satellite, so does the second, of the same time or later, and unless it is made of words received later, it is the same data with at least as many authentication bits. The only ways out: a verified KROOT with another NMA header or an alert message after the start, a collision of the one-way function, or data that changes back to an earlier value after the last page of a subframe. With less room for MACK messages it is not so: a receiver that hears one more subframe may report nothing.", "quantifier": "every history of calls in order, every set of further pages at any positions, every storage size, key and cryptographic functions, every satellite and kind of data", "why_tests_cant": "The claim compares two executions of the library for every history and every choice of the pages added, including pages made by an attacker.", "anchors": ["galileo-osnma/src/osnma.rs: Osnma::feed_osnma", "galileo-osnma/src/osnma.rs: Osnma::feed_inav", "galileo-osnma/src/osnma.rs: OsnmaData::process_tags", "galileo-osnma/src/subframe.rs: CollectSubframe::feed", "galileo-osnma/src/mack.rs: MackStorage::store", "galileo-osnma/src/navmessage.rs: CollectNavMessage::process_mack", "galileo-osnma/src/navmessage.rs: CollectNavMessage::process_mack_slowmac", "galileo-osnma/src/tesla.rs: Key::validate_key"]}
{"id": "C87", "title": "What is authenticated with more satellites than places", "statement": "In every history that does not panic, with pages and words in chronological order, of any number of satellites, each getter returns exactly what a deterministic reference machine says is authenticated. The machine has, for each subframe and kind of data, as many places as the storage. A word goes to the place of its satellite; if it has none, to the last free one; if there is none, to the one whose oldest field is oldest, the last of several. A satellite that takes the place of another starts with no authentication bits, and for the fields not yet received its data is what was in the place; a tag counts only if the satellite had a place in the subframe before, all of whose fields it received itself recently enough, with the same data. With room for all satellites the machine authenticates what that of C63 does.", "quantifier": "every chronological history of calls of any number of satellites, every storage size, trust anchor and setting, every satellite and kind of data", "why_tests_cant": "Which satellite has a place, and what its data is, depends on the order of all words received; the histories are unbounded.", "anchors": ["galileo-osnma/src/osnma.rs: Osnma::feed_inav", "galileo-osnma/src/osnma.rs: Osnma::get_ced_and_status", "galileo-osnma/src/osnma.rs: Osnma::get_timing_parameters", "galileo-osnma/src/navmessage.rs: CollectNavMessage::feed", "galileo-osnma/src/navmessage.rs: CollectNavMessage::process_mack", "galileo-osnma/src/navmessage.rs: CollectNavMessage::process_mack_slowmac"]}
{"id": "C88", "title": "Which week numbers work", "statement": "On the air a week number has 12 bits, in the API 16. Everything that is hashed or MACed has the week modulo 4096: a tag or MACSEQ is checked, and the one-way function computed, in the same way for two times of the same time of week whose weeks differ by a multiple of 4096. The time of a root key is in the weeks 0 to 4095. So a receiver that runs over the end of week 4095 goes on if it is given week 4096, but a new receiver that is given all pages in weeks from 4097 on never accepts a TESLA key and never returns authenticated data, whatever is received; and a receiver that has accepted a key and is then given pages with earlier times (the week starting from 0 again) accepts no key of that chain from them, until a verified DSM-KROOT revokes the chain or is of another one.", "quantifier": "every history of calls, every storage size, trust anchor and cryptographic functions, every key and tag", "why_tests_cant": "The claim is about every history in those weeks, with any received data.", "anchors": ["galileo-osnma/src/tesla.rs: Key::store_gst", "galileo-osnma/src/tesla.rs: Key::from_dsm_kroot", "galileo-osnma/src/tesla.rs: Key::validate_key", "galileo-osnma/src/osnma.rs: OsnmaData::validate_key", "galileo-osnma/src/gst.rs: Gst"]}
{"id": "C89", "title": "After a caught panic the receiver can be used on", "statement": "A program that catches the panics of feed_osnma on received DSMs (catch_unwind) can go on with the same object. Such a panic happens in the check of the DSM, before anything of what the DSM would change is changed: the keys, the trust anchors and what the getters return are as before the call, and nothing was logged as accepted. After any number of caught panics what the getters return is still authentic, in the sense of C31 and C32; feed_inav still never panics, and the getters do not for words from week 1 on; feed_osnma panics exactly under the condition of C39, only in this way; and the same DSM, repeated, does not panic again before a block of another DSM was received.", "quantifier": "every history of calls with any number of caught panics, every received data, every storage size, trust anchor and cryptographic functions", "why_tests_cant": "The claim is about every interleaving of malformed DSMs with genuine data, and about states left by an unfinished call.", "anchors": ["galileo-osnma/src/osnma.rs: Osnma::feed_osnma", "galileo-osnma/src/osnma.rs: OsnmaDsm", "galileo-osnma/src/osnma.rs: OsnmaData::process_dsm", "galileo-osnma/src/dsm.rs: CollectDsm::feed"]}
{"id": "C90", "title": "Public keys received over the air: from the Merkle root to authenticated data", "statement": "A receiver that was given the root of the Merkle tree learns public keys from the signal. Whatever happened before without an alert: if a genuine broadcast of a DSM-PKR follows, in a new DSM id, and each of its blocks is received in a whole subframe of some satellite, the key is accepted exactly once, and is held if its id is larger than those of the keys held. feed_osnma does not panic on such a broadcast. If a genuine broadcast under this key follows, its KROOT is accepted with this key, which is then the one in use, and the navigation data that its tags cover is authenticated, as in C76. In particular a receiver that starts with the root and no public key authenticates data after it heard a DSM-PKR and then a broadcast under the key.", "quantifier": "every earlier history without an alert, every broadcast of a key proved by the root and of a chain under this key, any loss of pages as long as each block is once received whole, any storage size", "why_tests_cant": "The claim is about the end-to-end effect of every genuine broadcast with every pattern of losses after every earlier history.", "anchors": ["galileo-osnma/src/osnma.rs: Osnma::from_merkle_tree", "galileo-osnma/src/osnma.rs: Osnma::feed_osnma", "galileo-osnma/src/osnma.rs: OsnmaData::process_dsm", "galileo-osnma/src/merkle_tree.rs: MerkleTree", "galileo-osnma/src/dsm.rs: CollectDsm::feed"]}
{"id": "C91", "title": "Forged data means broken cryptography", "statement": "Let the operator of the system have its public keys, the leaves of its Merkle tree, the last keys of its TESLA chains, the DSM-KROOTs that it signed and the tags that its satellites made, and let the receiver be given a public key and tree root of the operator. Whatever is fed: every public key and alert that is accepted is a leaf of the tree of the operator, every accepted KROOT was signed by it (same header, root key, chain and time), every accepted TESLA key is the one of its subframe of a chain of the operator, or the acceptance messages of the run give explicit evidence of a forged signature, a SHA-256 collision with the tree, a collision of the one-way function with the chain, or an inversion of it. If a getter gives data, then unless there is such evidence, the tags behind it (at least 40 bits) are each either a tag that the satellites made, of this very data, satellite and subframe, or a tag forged before its key was accepted (in chronological order: before the subframe in which the key is sent). So data that the satellites never tagged is only given if at least 40 bits of tags were forged in time, or there is such evidence; and a run in which everything that is accepted is the operator's contains no such evidence.", "quantifier": "every history of calls, every operator that follows the ICD, every cryptographic functions, trust anchors and storage sizes", "why_tests_cant": "It is a reduction for every attacker and every received data; tests can only try single forgeries.", "anchors": ["galileo-osnma/src/osnma.rs: Osnma::feed_osnma", "galileo-osnma/src/osnma.rs: Osnma::get_ced_and_status", "galileo-osnma/src/tesla.rs: Key::validate_key", "galileo-osnma/src/tesla.rs: Key::from_dsm_kroot", "galileo-osnma/src/merkle_tree.rs: MerkleTree", "galileo-osnma/src/navmessage.rs: CollectNavMessage::process_mack"]}
{"id": "C92", "title": "How late signals may be received", "statement": "The library takes the time that is passed with each call as it is; OSNMA is secure only if this time is right to some extent. If no signal is received (in true time) more than 28 seconds after the time that is passed with it, or more than 328 seconds with only_slowmac, then whatever is fed, each tag that counts for the data given by a getter was contained in pages that were received before the satellites began to transmit the last page of its TESLA key; and so was the data, if the words are fed in chronological order. Hence data that the satellites never tagged is only given if at least 40 bits of tags were forged by somebody who could not have had the keys, or there is evidence of broken cryptography as in C91. On the other hand, signals that are 60 seconds late can be forged with keys that are public: the receiver gives false data although nothing is broken.", "quantifier": "every history of calls with any times of reception within the bound, every storage size, trust anchor and setting, every chain, every operator", "why_tests_cant": "It is a statement about every attacker who delays or forges signals, and every instant of disclosure.", "anchors": ["galileo-osnma/src/osnma.rs: Osnma::from_pubkey", "galileo-osnma/src/osnma.rs: Osnma::from_merkle_tree", "galileo-osnma/src/osnma.rs: OsnmaData::process_tags", "galileo-osnma/src/osnma.rs: Osnma::get_ced_and_status", "galileo-osnma/src/navmessage.rs: CollectNavMessage::process_mack", "galileo-osnma/src/navmessage.rs: CollectNavMessage::process_mack_slowmac"]}
{"id": "C93", "title": "Builds without P-521 behave the same unless a P-521 key is used", "statement": "The crate built without its default feature p521 (as the Longan nano firmware is), fed with the same calls as a build with it, does not panic if the other one does not, accepts the same KROOTs, public keys, alerts and TESLA keys in the same order, and returns the same data, as long as the public key given at construction is a P-256 key and no DSM-PKR with a P-521 key is accepted. A build without the feature never accepts a P-521 key nor a KROOT signed with P-521. In particular the firmware, built without the feature and with a smaller storage, processes all the lines sent by the client for a stream on which galmon-osnma (with the feature) runs to the end, makes the same calls and accepts the same keys, and whatever it has authenticated galmon-osnma has too, at least as recent (given room for the satellites received and the same only_slowmac).", "quantifier": "every sequence of calls, Merkle tree root, public key, storage sizes and cryptographic functions", "why_tests_cant": "unit tests run in one build configuration; the claim relates two builds over all histories", "anchors": ["galileo-osnma/src/merkle_tree.rs: pubkey_from_pkr", "galileo-osnma/src/bitfields.rs: DsmKroot::check_signature", "osnma-longan-nano/Cargo.toml: default-features = false", "osnma-longan-nano/src/main.rs: main"]}
{"id": "C94", "title": "The Merkle tree root matters only when a DSM-PKR is verified with it", "statement": "A receiver made with from_merkle_tree(root, Some(key)) behaves like the one made with from_pubkey(key) until it accepts a public key or an alert from a DSM-PKR: fed with the same calls, as long as no such message is accepted, the receiver without the root does not panic if the one with it does not, accepts the same KROOTs and TESLA keys and returns the same data. In particular DSM-PKRs that do not verify have no effect at all.", "quantifier": "every sequence of calls, root, public key, storage size and cryptographic functions", "why_tests_cant": "relates two receivers over all histories, including those with arbitrary forged DSM-PKRs", "anchors": ["galileo-osnma/src/osnma.rs: Osnma::from_merkle_tree", "galileo-osnma/src/osnma.rs: Osnma::from_pubkey", "galileo-osnma/src/osnma.rs: process_dsm_pkr"]}
{"id": "C95", "title": "Time to first authentication", "statement": "How long a receiver must listen. From below, for any input in chronological order: a DSM-KROOT of n blocks is accepted only after the HKROOT messages of at least n (7 or more) different satellite-subframes were heard whole; so get_ced_and_status and get_timing_parameters return data only after at least 7, and after at least 20 if the receiver was constructed without a public key (13 for the DSM-PKR); with k satellites that is at least 7/k (20/k) subframes. All the words of the data came at least one subframe before the tag, and the tag one (Slow MAC only: eleven) subframes before its key, both in subframes heard whole. On a genuine broadcast, a receiver with the public key has accepted the KROOT by the end of a subframe exactly if all its blocks were heard. From above: one satellite heard whole in as many consecutive subframes as the DSM-KROOT has blocks, sending them cyclically from any block on, and sending the same data and a right tag of at least 40 bits for it in the last but one of them, is enough: the data is then returned. With the Slow MAC only, thirteen consecutive subframes (or as many as there are blocks) are enough and, with words in chronological order, thirteen are needed.", "quantifier": "every sequence of calls, storage size and cryptographic functions (from above: every genuine broadcast and any other pages and words of it)", "why_tests_cant": "a bound over all histories, including adversarial ones; the upper bound ranges over all broadcasts and losses", "anchors": ["galileo-osnma/src/osnma.rs: Osnma::feed_osnma", "galileo-osnma/src/osnma.rs: process_dsm", "galileo-osnma/src/dsm.rs: CollectDsm::feed", "galileo-osnma/src/osnma.rs: Osnma::get_ced_and_status"]}
{"id": "C96", "title": "What is accepted when panics are caught is determined by the pages", "statement": "For a program that catches panics (e.g. with catch_unwind) and uses the same receiver on: which KROOTs, public keys, alerts and TESLA keys are accepted, and in which order, is determined by the pages with OSNMA data that were fed and the trust anchors, by the same rules as without panics (C62), except that a subframe that completes a DSM which cannot be processed without a panic (malformed, or with fields out of range, for a key that the receiver holds) is passed over: it gives no message and no TESLA key, and has no other influence on what is accepted later. The navigation words, the storage sizes and the setting of only_slowmac have no influence. After any pages of times from 360 s after the epoch on, the program can go on (as long as the signed chains are sensible, see C39).", "quantifier": "every history of calls with panics caught at any of them, trust anchors, storage sizes and cryptographic functions", "why_tests_cant": "what is left behind by a panic in the middle of a call, for any malformed data at any time, cannot be enumerated by tests", "anchors": ["galileo-osnma/src/osnma.rs: Osnma::feed_osnma", "galileo-osnma/src/osnma.rs: process_dsm", "galileo-osnma/src/osnma.rs: process_dsm_kroot", "galileo-osnma/src/osnma.rs: process_dsm_pkr", "galileo-osnma/src/dsm.rs: CollectDsm::feed"]}
{"id": "C97", "title": "Joining a genuine broadcast after caught panics", "statement": "For a program that catches panics and uses the same receiver on: whatever was fed before, and however many panics were caught, if the receiver holds the public key of a genuine broadcast and then hears this broadcast, or any part of it in any order with any navigation words, under a DSM id other than the last one heard, then no further call panics (given that the parameters of the signed chains fit together, see C39); once all blocks of the DSM-KROOT were received it has been accepted, exactly once, and apart from it nothing but TESLA keys; from that subframe on the TESLA key of every subframe in which some satellite was heard completely is accepted; and the navigation data gets authenticated as without panics (C76): data that has not changed, for which different tags of together 40 bits or more were heard, is returned with at least as many authentication bits.", "quantifier": "every history of calls with panics caught at any of them, every genuine broadcast that follows it, every part of it that is heard, trust anchors, storage sizes and cryptographic functions", "why_tests_cant": "liveness from every state that any history, including panics in the middle of a call, can leave behind", "anchors": ["galileo-osnma/src/osnma.rs: Osnma::feed_osnma", "galileo-osnma/src/osnma.rs: process_dsm", "galileo-osnma/src/osnma.rs: process_dsm_kroot", "galileo-osnma/src/osnma.rs: Osnma::get_ced_and_status", "galileo-osnma/src/dsm.rs: CollectDsm::feed", "galileo-osnma/src/subframe.rs: CollectSubframe::feed"]}
{"id": "C98", "title": "What the serial client prints is what the firmware says", "statement": "Under every interleaving of client and firmware and every delay of the link: what the client prints is a beginning of what the firmware says, without loss, repetition or reordering, and what the firmware says is READY and then, for each call in order, the echo of the call, the status of the timing parameters and of the CED after that call, and READY. Before a line is processed everything about the lines before it has been printed. At the end everything has been printed but the answer to the last line, for which the client does not wait. If the black box panics at a call that is not the last, the session ends there under every schedule: the calls before it have been made and no other, and what is printed is the transcript of the calls before it and the echo of that call. All of it is ASCII, so that reading it as text does not fail.", "quantifier": "every sequence of calls, every interleaving and delay of the bytes, every point of the execution, trust anchors, storage sizes and cryptographic functions", "why_tests_cant": "all interleavings of two programs, byte by byte", "anchors": ["galileo-osnma/src/bin/osnma-longan-nano-client.rs: read_until_ready", "galileo-osnma/src/bin/osnma-longan-nano-client.rs: main", "osnma-longan-nano/src/main.rs: print_auth_status", "osnma-longan-nano/src/main.rs: spin"]}

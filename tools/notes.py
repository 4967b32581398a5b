NOTES={
'C01':(None,'The exact domain is proved: ok iff s > -604800 and the result is representable; finding 1.'),
'C02':(None,'Finding 2: the difference is not exact for unaligned GSTs (counterexample proved).'),
'C15':('partial','False of the code with reception gaps (finding 8, counterexample). Proved: exact time for contiguous reception into a storage without eviction; for any storage when the reported age is below 255 subframes; bounds for reception with gaps; C15_exact_partial gives the exact reported time for every reception with gaps, and C15_exact_iff_no_gap_partial the exact condition under which it is the right time.'),
'C39':('partial','False of the code: three counterexamples made without secrets (finding 6). Proved: the exact set of received DSMs that panic, and that nothing else does.'),
'C47':('partial','False of the code (finding 4): counterexample, a repeated KROOT resets the start of applicability so old-chain Slow MAC tags are no longer checked. Proved: what holds until the second KROOT.'),
'C48':('partial','False of the code (finding 5): counterexample, and for every history a fresh KROOT of the chain in force is never used. Proved: recovery for gaps of at most 3000 subframes.'),
'C54':('partial','False of the code (finding 13): a stream cut inside a packet header is reported as a clean end (counterexample). Proved: None means fewer than a whole header (6 bytes) was left.'),
'C55':(None,'Proved for every input stream; finding 15: a crafted packet makes it panic (exact condition proved, witness with the messages of navmon.proto).'),
'C57':('partial','False of the code (finding 12): counterexample, the TOW correction fires on a right packet. Proved: the exact condition under which a packet keeps its own time.'),
'C65':('partial','False of the code (finding 16): counterexample, satellites newly in view take the same place from each other for as long as the old ones have fields less than 255 subframes old. Proved: the exact rule for one word; satellites with a complete entry keep it while those heard in the last K subframes fit and their oldest field is younger than K; C52 for any satellite that keeps its place.'),
'C74':('partial','False of the code (finding 10): counterexample, a DSM-KROOT of which one bit was wrong is never accepted, however often it is received rightly, until a block of another DSM id comes. Proved: once all blocks of an id were seen nothing more is made of blocks of this id; after a subframe with another id (or none) the genuine blocks, in any order and repeated, are accepted exactly once (DSM-KROOT: C74_recovery_partial; DSM-PKR: C74_recovery_pkr_partial).'),
'C98':('proved','The transcript is Spec/Transcript. After a panic: C98_shown_after_panic, C98_last_line_after_panic, C98_panic_ends_session; if it is not the black box but a getter that panics (possible only for data of the first 7650 s of week 0) the echo is followed by the status cut off at the first satellite whose getter panics (StatusCutOff in Spec/Transcript). C98_last_answer_missing: finding 25.'),
}

{"claims": [
 {"property": "C01", "status": "proved", "theorems": ["Gringo.Props.C01_header_roundtrip", "Gringo.Props.C01_accepts_iff", "Gringo.Props.C01_decoded"], "note": ""},
 {"property": "C02", "status": "proved", "theorems": ["Gringo.Props.C02_ping", "Gringo.Props.C02_pong", "Gringo.Props.C02_get_peer_addrs", "Gringo.Props.C02_get_block", "Gringo.Props.C02_peer_error"], "note": "PeerError: text shorter than 2^64 bytes and within the allocation limit"},
 {"property": "C03", "status": "proved", "theorems": ["Gringo.Props.C03_roundtrip"], "note": ""},
 {"property": "C04", "status": "proved", "theorems": ["Gringo.Props.C04_refuses"], "note": ""},
 {"property": "C05", "status": "proved", "theorems": ["Gringo.Props.C05_within_frame"], "note": ""},
 {"property": "C06", "status": "partial", "theorems": ["Gringo.Props.C06_position_partial", "Gringo.Props.C06_refuted"], "note": "false of the code: body bytes the decoder leaves unread stay in the stream; proved when the decoder consumes the body"},
 {"property": "C07", "status": "proved", "theorems": ["Gringo.Props.C07_exact_split", "Gringo.Props.C07_frames_first", "Gringo.Props.C07_interrupted"], "note": "All streams, of any number of frames, also if the connection is closed after any number of them."},
 {"property": "C08", "status": "proved", "theorems": ["Gringo.Props.C08_stops_at_fault", "Gringo.Props.C08_only_faults"], "note": ""},
 {"property": "C09", "status": "proved", "theorems": ["Gringo.Props.C09_causal", "Gringo.Props.C09_bound", "Gringo.Props.C09_enough", "Gringo.Props.C09_disconnected"], "note": ""},
 {"property": "C10", "status": "proved", "theorems": ["Gringo.Props.C10_pow_roundtrip"], "note": ""},
 {"property": "C11", "status": "partial", "theorems": ["Gringo.Props.C11_canonical_partial", "Gringo.Props.C11_canonical_sizes_partial", "Gringo.Props.C11_refuted"], "note": "False of the code; exact condition, the sizes for which it holds and refutation for all others proved."},
 {"property": "C12", "status": "proved", "theorems": ["Gringo.Props.C12_header_roundtrip", "Gringo.Props.C12_header_refused_iff"], "note": "Up to Difficulty and TotalKernelSum, which the wire does not carry."},
 {"property": "C13", "status": "proved", "theorems": ["Gringo.Props.C13_decoded_shape", "Gringo.Props.C13_decoded_safe"], "note": ""},
 {"property": "C14", "status": "proved", "theorems": ["Gringo.Props.C14_block_roundtrip"], "note": ""},
 {"property": "C15", "status": "proved", "theorems": ["Gringo.Props.C15_canonical", "Gringo.Props.C15_side_effect", "Gringo.Props.C15_idempotent"], "note": ""},
 {"property": "C16", "status": "proved", "theorems": ["Gringo.Props.C16_block_limits", "Gringo.Props.C16_tx_limits", "Gringo.Props.C16_decoded_counts"], "note": ""},
 {"property": "C17", "status": "partial", "theorems": ["Gringo.Props.C17_no_inputs_partial", "Gringo.Props.C17_refuted"], "note": "False of the code for every transaction with inputs (feature bytes not written); proved without inputs."},
 {"property": "C18", "status": "proved", "theorems": ["Gringo.Props.C18_tx_sorted"], "note": ""},
 {"property": "C19", "status": "partial", "theorems": ["Gringo.Props.C19_compact_roundtrip_partial", "Gringo.Props.C19_refuted"], "note": "Holds up to 255 outputs and kernels; refuted beyond (one-byte counts)."},
 {"property": "C20", "status": "proved", "theorems": ["Gringo.Props.C20_locator_roundtrip", "Gringo.Props.C20_locator_decoded", "Gringo.Props.C20_locator_fatal"], "note": ""},
 {"property": "C21", "status": "proved", "theorems": ["Gringo.Props.C21_headers_roundtrip", "Gringo.Props.C21_headers_limit"], "note": ""},
 {"property": "C22", "status": "partial", "theorems": ["Gringo.Props.C22_ipv4_partial", "Gringo.Props.C22_mapped_partial", "Gringo.Props.C22_list_partial", "Gringo.Props.C22_decoded", "Gringo.Props.C22_refuted", "Gringo.Props.C22_refuted_list"], "note": "IPv4 proved; false of the code for every genuine IPv6 address"},
 {"property": "C23", "status": "proved", "theorems": ["Gringo.Props.C23_hand_roundtrip", "Gringo.Props.C23_shake_roundtrip", "Gringo.Props.C23_hand_gate", "Gringo.Props.C23_shake_gate"], "note": "IPv4 addresses in the hand; IPv6 is C22_refuted"},
 {"property": "C24", "status": "partial", "theorems": ["Gringo.Props.C24_hand_accepted_partial", "Gringo.Props.C24_refuted", "Gringo.Props.C24_refuted_pair"], "note": "false of the code: the shake carries no genesis hash; the hand half holds"},
 {"property": "C25", "status": "partial", "theorems": ["Gringo.Props.C25_no_genesis_partial", "Gringo.Props.C25_refuted_accept", "Gringo.Props.C25_refuted_connect"], "note": "false of the code: the genesis hash is never compared; only its presence and the version are enforced"},
 {"property": "C26", "status": "proved", "theorems": ["Gringo.Props.C26_history", "Gringo.Props.C26_self_connection", "Gringo.Props.C26_own_hand", "Gringo.Props.C26_cycle"], "note": ""},
 {"property": "C27", "status": "partial", "theorems": ["Gringo.Props.C27_decoders_partial", "Gringo.Props.C27_refuted_shake", "Gringo.Props.C27_refuted_hand", "Gringo.Props.C27_refuted_peer_error", "Gringo.Props.C27_refuted_compact", "Gringo.Props.C27_refuted_remote_hand", "Gringo.Props.C27_refuted_remote_compact"], "note": "False of the code for the messages named in the refutations (unbounded make); proved for the other decoders."},
 {"property": "C28", "status": "proved", "theorems": ["Gringo.Props.C28_input", "Gringo.Props.C28_kernel", "Gringo.Props.C28_output", "Gringo.Props.C28_output_too_long"], "note": ""},
 {"property": "C29", "status": "proved", "theorems": ["Gringo.Props.C29_version_schedule", "Gringo.Props.C29_no_version_after"], "note": ""},
 {"property": "C30", "status": "proved", "theorems": ["Gringo.Props.C30_header_rule"], "note": ""},
 {"property": "C31", "status": "partial", "theorems": ["Gringo.Props.C31_future_partial", "Gringo.Props.C31_refuted", "Gringo.Props.C31_far_future_accepted", "Gringo.Props.C31_decoded_time"], "note": "False for the 62135596800 largest time stamps (wrap-around); proved below them."},
 {"property": "C32", "status": "proved", "theorems": ["Gringo.Props.C32_block_rule", "Gringo.Props.C32_real_block"], "note": ""},
 {"property": "C33", "status": "partial", "theorems": ["Gringo.Props.C33_coinbase_signed_partial", "Gringo.Props.C33_refuted"], "note": "False: only coinbase kernels are checked."},
 {"property": "C34", "status": "partial", "theorems": ["Gringo.Props.C34_coinbase_once_partial", "Gringo.Props.C34_refuted", "Gringo.Props.C34_inputs_unchecked"], "note": "False: IsSorted admits repetition; only the coinbase output and kernel are unique."},
 {"property": "C35", "status": "proved", "theorems": ["Gringo.Props.C35_next_difficulty", "Gringo.Props.C35_exact"], "note": "Lower bound for every list; exact value of the 71-block window without overflow."},
 {"property": "C36", "status": "partial", "theorems": ["Gringo.Props.C36_monotone_partial", "Gringo.Props.C36_refuted"], "note": "UpperTimeBound and LowerTimeBound are swapped in effect: the clamp always picks one value, so the result does not depend on block times. Refuted in general form; weak monotonicity holds."},
 {"property": "C37", "status": "partial", "theorems": ["Gringo.Props.C37_window_partial", "Gringo.Props.C37_refuted"], "note": "Holds for exactly 71 blocks; false for any longer list."},
 {"property": "C38", "status": "partial", "theorems": ["Gringo.Props.C38_from_hash_partial", "Gringo.Props.C38_refuted_zero", "Gringo.Props.C38_refuted_large"], "note": "Formula and monotonicity for a non-zero prefix; zero prefix panics, large prefixes give 0."},
 {"property": "C39", "status": "proved", "theorems": ["Gringo.Props.C39_short_id"], "note": ""},
 {"property": "C40", "status": "proved", "theorems": ["Gringo.Props.C40_cuckaroo", "Gringo.Props.C40_cuckoo"], "note": ""},
 {"property": "C41", "status": "proved", "theorems": ["Gringo.Props.C41_terminates", "Gringo.Props.C41_fuel"], "note": ""},
 {"property": "C42", "status": "proved", "theorems": ["Gringo.Props.C42_accepts_cycles"], "note": ""},
 {"property": "C43", "status": "partial", "theorems": ["Gringo.Props.C43_sound_partial", "Gringo.Props.C43_verify_partial", "Gringo.Props.C43_refuted", "Gringo.Props.C43_refuted_verify"], "note": "Holds when no endpoint is shared by more than two edges; false in general, with a 42-nonce witness for Cuckaroo.Verify."},
 {"property": "C44", "status": "proved", "theorems": ["Gringo.Props.C44_cuckoo", "Gringo.Props.C44_cuckaroo", "Gringo.Props.C44_cuckoo_edge", "Gringo.Props.C44_cuckaroo_edge"], "note": ""},
 {"property": "C45", "status": "proved", "theorems": ["Gringo.Props.C45_siphash24", "Gringo.Props.C45_siphash_block"], "note": ""},
 {"property": "C46", "status": "proved", "theorems": ["Gringo.Props.C46_getters_agree"], "note": "All histories; see also C49_refuted: the state never changes."},
 {"property": "C47", "status": "proved", "theorems": ["Gringo.Props.C47_accept_rule", "Gringo.Props.C47_later_seconds"], "note": ""},
 {"property": "C48", "status": "partial", "theorems": ["Gringo.Props.C48_refuted", "Gringo.Props.C48_refuted_list", "Gringo.Props.C48_real_block", "Gringo.Props.C48_unknown_parent_partial"], "note": "False of the code: Difficulty is not on the wire, so every wire block that extends a stored one is rejected."},
 {"property": "C49", "status": "partial", "theorems": ["Gringo.Props.C49_refuted", "Gringo.Props.C49_tip_partial"], "note": "False of the code: ProcessBlock never applies a block."},
 {"property": "C50", "status": "proved", "theorems": ["Gringo.Props.C50_answer", "Gringo.Props.C50_limit", "Gringo.Props.C50_following"], "note": ""},
 {"property": "C51", "status": "partial", "theorems": ["Gringo.Props.C51_refuted_misses", "Gringo.Props.C51_refuted_diverges", "Gringo.Props.C51_refuted_fresh", "Gringo.Props.C51_error_partial", "Gringo.Props.C51_terminates_partial"], "note": "False of the code: the loop stops at the first valid block, and need not end."},
 {"property": "C52", "status": "proved", "theorems": ["Gringo.Props.C52_process_headers"], "note": ""},
 {"property": "C53", "status": "partial", "theorems": ["Gringo.Props.C53_refuted_hash", "Gringo.Props.C53_refuted_bytes", "Gringo.Props.C53_distinct_partial"], "note": "False of the code for Testnet1, Testnet2 and Mainnet (same hash) and for serialisation; the other pairs of hashes differ."},
 {"property": "C54", "status": "partial", "theorems": ["Gringo.Props.C54_peers", "Gringo.Props.C54_serialisable_partial", "Gringo.Props.C54_refuted"], "note": "The filter is proved. That the answer can always be serialised is false: an address without host part ends the process."},
 {"property": "C55", "status": "partial", "theorems": ["Gringo.Props.C55_add", "Gringo.Props.C55_histories_partial", "Gringo.Props.C55_refuted"], "note": "All but the bound: 10001 entries instead of 10000."},
 {"property": "C56", "status": "partial", "theorems": ["Gringo.Props.C56_refuted", "Gringo.Props.C56_refuted_how", "Gringo.Props.C56_refuted_run", "Gringo.Props.C56_marks_partial"], "note": "False of the code: Ban of a known address never returns. C56_refuted_how says how it ends in every case, C56_refuted_run in the running pool."},
 {"property": "C57", "status": "partial", "theorems": ["Gringo.Props.C57_partial", "Gringo.Props.C57_refuted", "Gringo.Props.C57_refuted_closing", "Gringo.Props.C57_goroutines_partial"], "note": "Refuted as stated: connections whose handshake fails are never closed (C57_refuted), and slots are given back before the socket is closed (C57_refuted_closing). Proved: at most 15 connections with a successful handshake that nobody has begun to close, also counting those whose goroutines have not ended."},
 {"property": "C58", "status": "partial", "theorems": ["Gringo.Props.C58_partial", "Gringo.Props.C58_counter", "Gringo.Props.C58_dead", "Gringo.Props.C58_refuted", "Gringo.Props.C58_refuted_race"], "note": "Refuted as stated, twice: a turn with nothing to dial keeps its slot for ever, after 15 of them the pool never dials; and lost updates of the unsynchronised counter can leave the pool with one connection and no further dialling. Proved: with room left, and the counter intact or no connection left, the loop dials a dialable entry in its next steps; the counter never exceeds 16."},
 {"property": "C59", "status": "proved", "theorems": ["Gringo.Props.C59_choice"], "note": ""},
 {"property": "C60", "status": "proved", "theorems": ["Gringo.Props.C60_ping", "Gringo.Props.C60_pong"], "note": "Ping is answered by one Pong with the chain state, Pong by nothing; both record the sender."},
 {"property": "C61", "status": "partial", "theorems": ["Gringo.Props.C61_refuted", "Gringo.Props.C61_known_remote_partial", "Gringo.Props.C61_only_blocks", "Gringo.Props.C61_program_partial"], "note": "Refuted: a rejected block is relayed when the remote address is not a table key. Holds when it is one; also in the whole program, over all runs, when every remote address is the one dialled."},
 {"property": "C62", "status": "proved", "theorems": ["Gringo.Props.C62_targets", "Gringo.Props.C62_once", "Gringo.Props.C62_pool"], "note": ""},
 {"property": "C63", "status": "partial", "theorems": ["Gringo.Props.C63_refuted", "Gringo.Props.C63_partial"], "note": "Refuted: a block higher in one of height and total difficulty lowers the other. Holds when they compare the same way."},
 {"property": "C64", "status": "proved", "theorems": ["Gringo.Props.C64_not_fatal", "Gringo.Props.C64_kept", "Gringo.Props.C64_goroutines"], "note": ""},
 {"property": "C65", "status": "proved", "theorems": ["Gringo.Props.C65_at_most_once", "Gringo.Props.C65_exactly_once", "Gringo.Props.returned_flag"], "note": "Interleaving model of all goroutines of a peer, any number of callers."},
 {"property": "C66", "status": "proved", "theorems": ["Gringo.Props.C66_completes", "Gringo.Props.C66_by_other"], "note": "Bound on the steps of every schedule and no stuck state; the handling of a message itself is taken to end."},
 {"property": "C67", "status": "partial", "theorems": ["Gringo.Props.C67_refuted", "Gringo.Props.C67_reached", "Gringo.Props.C67_refuted_run", "Gringo.Props.C67_lost_race_partial"], "note": "Refuted: the handler waits for itself forever. Holds when somebody else has started to disconnect before."},
 {"property": "C68", "status": "proved", "theorems": ["Gringo.Props.C68_order", "Gringo.Props.C68_received"], "note": "Also combined with the read loop of the receiving side."},
 {"property": "C69", "status": "proved", "theorems": ["Gringo.Props.C69_sign_verify", "Gringo.Props.C69_secp256k1"], "note": "Over any lawful curve, and on secp256k1 without assumptions."},
 {"property": "C70", "status": "partial", "theorems": ["Gringo.Props.C70_unique_up_to_sign_partial", "Gringo.Props.C70_refuted", "Gringo.Props.C70_secp256k1_partial", "Gringo.Props.C70_secp256k1_refuted"], "note": "False: (R, N-s) and (R, s+N) also verify; these are the only ones for a given R."},
 {"property": "C71", "status": "partial", "theorems": ["Gringo.Props.C71_serialised_partial", "Gringo.Props.C71_refuted", "Gringo.Props.C71_secp256k1", "Gringo.Props.C71_half", "Gringo.Props.C71_secp256k1_refuted"], "note": "True exactly when the nonce point has the ordinate that ModSqrtFast returns; of two opposite nonces exactly one has it."},
 {"property": "C72", "status": "proved", "theorems": ["Gringo.Props.C72_message_injective", "Gringo.Props.C72_message_length", "Gringo.Props.C72_challenge_injective", "Gringo.Props.C72_secp256k1"], "note": ""},
 {"property": "C73", "status": "proved", "theorems": ["Gringo.Props.C73_homomorphic", "Gringo.Props.C73_homomorphic_mod", "Gringo.Props.C73_zero_value", "Gringo.Props.C73_secp256k1"], "note": "Over any lawful curve, and on secp256k1 without assumptions."},
 {"property": "C74", "status": "partial", "theorems": ["Gringo.Props.C74_bound_partial", "Gringo.Props.C74_refuted", "Gringo.Props.C74_first"], "note": "The group order itself can be returned."},
 {"property": "C75", "status": "partial", "theorems": ["Gringo.Props.C75_refuted", "Gringo.Props.C75_refuted_transaction", "Gringo.Props.C75_refuted_ban", "Gringo.Props.C75_survives_partial", "Gringo.Props.main_like", "Gringo.Props.likeMain_preserved"], "note": "Refuted: any transaction, and any rejected block or headers from a peer known by its remote address, crashes or hangs the node. Every other message is handled and its answers can be serialised."},
 {"property": "C76", "status": "proved", "theorems": ["Gringo.Props.C76_no_echo"], "note": "Sequential model of PropagateBlock."},
 {"property": "C77", "status": "partial", "theorems": ["Gringo.Props.C77_partial", "Gringo.Props.C77_refuted"], "note": "Refuted as stated by a race between the goroutine of an old connection and a reconnect."},
 {"property": "C78", "status": "partial", "theorems": ["Gringo.Props.C78_refuted", "Gringo.Props.C78_one_connection_partial", "Gringo.Props.C78_goroutines_partial"], "note": "False of the code: the pool learns of the end of a connection before its socket is closed and may have dialled again (C78_refuted); connections with a failed handshake stay open too (C57_refuted). Proved: at most one connection per address that nobody has begun to close, and no dialling while there is one."},
 {"property": "C79", "status": "partial", "theorems": ["Gringo.Props.C79_closed_partial", "Gringo.Props.C79_waits_partial", "Gringo.Props.C79_sockets_partial", "Gringo.Props.C79_goroutines_partial", "Gringo.Props.C79_refuted_twice", "Gringo.Props.C79_refuted_panic", "Gringo.Props.C79_refuted_deadlock"], "note": "Refuted as stated in three ways. Proved: when the closing goroutines have ended, every registered connection is closed or being closed, and stays closed; a closing goroutine does not end before the socket it closes is closed; and every connection whose read loop is not in Ban gets over (socket closed, handlers ended, place given back) by steps of this process alone."},
 {"property": "C80", "status": "partial", "theorems": ["Gringo.Props.C80_banned_partial", "Gringo.Props.C80_refuted", "Gringo.Props.C67_refuted_run", "Gringo.Props.C80_goroutines_partial"], "note": "Refuted as stated: the mark can be overwritten. Proved for a ban by the own handler."},
 {"property": "C81", "status": "partial", "theorems": ["Gringo.Props.C81_delivered_partial", "Gringo.Props.C81_prefix_partial", "Gringo.Props.C81_refuted", "Gringo.Props.C81_refuted_ipv6", "Gringo.Props.longBlock_long"], "note": "Delivery in order proved for every list of deliverable messages and every schedule of the sender. False for bodies over 20 000 000 bytes (the sender does not check the limit) and for IPv6 addresses; transactions with inputs are excluded (see C17)."},
 {"property": "C82", "status": "partial", "theorems": ["Gringo.Props.C82_queued", "Gringo.Props.C82_arrives", "Gringo.Props.C82_refuted"], "note": "Proved for 32-byte hashes and locators of at most 14 hashes; other arguments crash the sending process."},
 {"property": "C83", "status": "partial", "theorems": ["Gringo.Props.C83_header_fields_partial", "Gringo.Props.C83_refuted"], "note": "The proof of work fixes the transmitted header fields; nothing ties the header to the contents: any two valid blocks can swap them."},
 {"property": "C84", "status": "partial", "theorems": ["Gringo.Props.C84_range_partial", "Gringo.Props.C84_add_outputs", "Gringo.Props.C84_refuted"], "note": "Range proofs are checked; sums are not, so for every conceivable balance rule there is an accepted block violating it."},
 {"property": "C85", "status": "partial", "theorems": ["Gringo.Props.C85_signed_partial", "Gringo.Props.C85_refuted", "Gringo.Props.C85_refuted_locked"], "note": "Only the coinbase signature covers fee and lock height; a kernel with any lock height can be added to any block."},
 {"property": "C86", "status": "partial", "theorems": ["Gringo.Props.C86_valid_partial", "Gringo.Props.C86_refuted", "Gringo.Props.C86_refuted_wire"], "note": "Accepted blocks are valid or have the hash of the tip. Anything with the proof of the tip is accepted, as the hash covers the nonces only; shown also for bytes from the wire."},
 {"property": "C87", "status": "partial", "theorems": ["Gringo.Props.C87_at_most_one_partial", "Gringo.Props.C87_refuted"], "note": "At most one of each; but none is accepted too, and then no signature is checked."},
 {"property": "C88", "status": "partial", "theorems": ["Gringo.Props.C88_linked_partial", "Gringo.Props.C88_refuted"], "note": "Holds when the parent is found by hash and height; a block with the wrong height is taken for one with an unknown parent and accepted."},
 {"property": "C89", "status": "partial", "theorems": ["Gringo.Props.C89_each_valid_partial", "Gringo.Props.C89_refuted", "Gringo.Props.C89_refuted_twice"], "note": "Each header is valid; links and heights are not looked at."},
 {"property": "C90", "status": "partial", "theorems": ["Gringo.Props.C90_order_partial", "Gringo.Props.C90_refuted"], "note": "Inputs are only checked to be in order."},
 {"property": "C91", "status": "partial", "theorems": ["Gringo.Props.C91_grows_partial", "Gringo.Props.C91_refuted"], "note": "Grows when the proof difficulty is not 0 and the sum does not overflow; with fifteen of sixteen proofs the difficulty is 0 and the total stays."},
 {"property": "C92", "status": "partial", "theorems": ["Gringo.Props.C92_described", "Gringo.Props.C92_nothing_lost_partial", "Gringo.Props.C92_refuted"], "note": "The description holds. Nothing is lost when the shake fills its frame; false of the code when the frame of the shake is longer than the shake: ReadMessage leaves the surplus in the stream."},
 {"property": "C93", "status": "partial", "theorems": ["Gringo.Props.C93_not_dialled_partial", "Gringo.Props.C93_refuted", "Gringo.Props.C93_refuted_accepting"], "note": "False of the code: when the handshake fails after the dial, the connection stays open; the same for an accepted connection. Holds when the address does not resolve or nobody answers."},
 {"property": "C94", "status": "partial", "theorems": ["Gringo.Props.C94_described_partial", "Gringo.Props.C94_refuted"], "note": "False of the code: AcceptNewPeer sets neither the syncer nor the address, so the first message panics. The description by the hand holds."},
 {"property": "C95", "status": "proved", "theorems": ["Gringo.Props.C95_answers_in_order", "Gringo.Props.C95_all_answered"], "note": ""},
 {"property": "C96", "status": "proved", "theorems": ["Gringo.Props.C96_history"], "note": ""},
 {"property": "C97", "status": "partial", "theorems": ["Gringo.Props.C97_exchange_partial", "Gringo.Props.C97_block_partial", "Gringo.Props.C97_headers", "Gringo.Props.C97_ping", "Gringo.Props.C97_refuted"], "note": "Proved for all requests whose answers can be serialised and fit the message limit; pings and headers without such a condition. False for blocks whose serialisation is longer than 20000000 bytes: the asking node hangs up (C97_refuted)."},
 {"property": "C98", "status": "partial", "theorems": ["Gringo.Props.C98_weight_partial", "Gringo.Props.C98_refuted"], "note": "False of the code: the weight is not checked (a TODO in consensus/block.go). Only the list limits of the decoder bound it, by 13000000."},
 {"property": "C99", "status": "partial", "theorems": ["Gringo.Props.C99_size", "Gringo.Props.C99_legal_fits_partial", "Gringo.Props.C99_refuted"], "note": "The exact size is proved. Blocks of legal weight fit when range proofs have at most 2400 bytes; with proofs of 5134 bytes, which the decoder admits, they need not (C99_refuted)."},
 {"property": "C100", "status": "proved", "theorems": ["Gringo.Props.C100_write", "Gringo.Props.C100_stream", "Gringo.Props.C100_both_ends", "Gringo.Props.C100_cut_partial"], "note": "C100_both_ends is the property for every sequence of well-formed frames. C100_cut_partial adds the codec: it is for the messages of C81 (no IPv6 addresses, no transactions with inputs)."},
 {"property": "C101", "status": "partial", "theorems": ["Gringo.Props.C101_refuted", "Gringo.Props.C101_relayed", "Gringo.Props.C101_sorted_partial", "Gringo.Props.C101_insertion"], "note": "Refuted for every unsorted block and every sorting algorithm; an unsorted block that the node rejects does reach several peers (C101_relayed). Holds for blocks in order when the sort makes no swaps on them (insertion sort, used for up to 12 elements)."},
 {"property": "C102", "status": "partial", "theorems": ["Gringo.Props.C102_start_partial", "Gringo.Props.C102_header", "Gringo.Props.C102_refuted"], "note": "Refuted: no genesis block passes Validate. The rest of the statement holds."},
 {"property": "C103", "status": "partial", "theorems": ["Gringo.Props.C103_refuted", "Gringo.Props.C103_unbounded", "Gringo.Props.C103_waits_partial", "Gringo.Props.C103_freed_partial"], "note": "False: a peer that stops reading keeps every sender waiting for ever, without bound on their number. Proved: waiting happens only when the connection takes no bytes or the peer is not started, and a disconnect frees every caller."},
 {"property": "C104", "status": "partial", "theorems": ["Gringo.Props.C104_refuted", "Gringo.Props.C104_one_message_partial"], "note": "False: n copies of an accepted block at the head height make n relays to a peer whose record is lower. Proved: one message makes at most one relay to each peer and none to a peer known to have the block or more."},
 {"property": "C105", "status": "partial", "theorems": ["Gringo.Props.C105_refuted", "Gringo.Props.C105_moves_partial", "Gringo.Props.C105_refuted_unread"], "note": "False: once a remote has accepted the connection and says nothing, the dialling loop waits for its handshake for ever: no other address is dialled, also after Stop. Proved: in every reachable state in which the loop is not waiting for a remote it can move, or all 15 places are taken. The same after a successful handshake, when the remote does not take the first message (C105_refuted_unread)."},
 {"property": "C106", "status": "proved", "theorems": ["Gringo.Props.C106_text", "Gringo.Props.C106_distinct", "Gringo.Props.C106_kept", "Gringo.Props.C106_only", "Gringo.Props.C106_colon", "Gringo.Props.C106_six", "Gringo.Props.C106_no_host"], "note": "The text of addresses and its resolution are modelled on package net (Go/Net.lean); host names are a parameter and do not occur in C106_text, C106_distinct and C106_kept. C106_only says which texts are addresses at all. C106_six and C106_no_host say how IPv6 addresses and addresses without an IP, which can be configured but not told, are written and read."},
 {"property": "C107", "status": "partial", "theorems": ["Gringo.Props.C107_literal", "Gringo.Props.C107_answers", "Gringo.Props.C107_remote_partial", "Gringo.Props.C107_relays_partial", "Gringo.Props.C107_refuted", "Gringo.Props.C107_six_partial"], "note": "False: a peer may tell 0.0.0.0 with a port; the connection dialled to it has the remote address 127.0.0.1, for which there is no entry, so a ban finds nothing. Proved: every key is a literal IPv4 address after every history, every answer can be serialised, and for all other addresses remote and key agree. C107_six_partial says the same of configured IPv6 addresses."},
 {"property": "C108", "status": "partial", "theorems": ["Gringo.Props.Print.C108_ids", "Gringo.Props.Print.C108_hash_partial", "Gringo.Props.Print.C108_refuted", "Gringo.Props.Print.C108_features"], "note": "False for hashes under 16 bytes, which print like themselves with a zero byte in front. Proved for short ids and commitments of every length and for hashes of 16 bytes or more."},
 {"property": "C109", "status": "proved", "theorems": ["Gringo.Props.C109_shake", "Gringo.Props.C109_changes", "Gringo.Props.C109_history", "Gringo.Props.C109_height_unknown"], "note": "The handshake tells no height: until its first message a peer counts as being at height 0, whatever difficulty it told (C109_height_unknown)."},
 {"property": "C110", "status": "partial", "theorems": ["Gringo.Props.C110_refuted", "Gringo.Props.C110_never_falls_partial"], "note": "False: no history of messages moves the head, and no message the node sends while handling them asks for a header or block. Proved: nothing falls."},
 {"property": "C111", "status": "partial", "theorems": ["Gringo.Props.C111_refuted", "Gringo.Props.C111_pong_partial"], "note": "False: the opening ping says height 1 and total difficulty 1 whatever the chain is, and the other end records it. The pong is right and is recorded."},
 {"property": "C112", "status": "partial", "theorems": ["Gringo.Props.C112_crash_partial", "Gringo.Props.C112_headers", "Gringo.Props.C112_refuted"], "note": "Exactly one way to crash is left: a valid block on a stored parent whose proof of work has a hash with eight leading zero bytes makes FromHash divide by zero. C112_refuted shows it for a hash function with such a value. ProcessHeaders never crashes."},
 {"property": "C113", "status": "partial", "theorems": ["Gringo.Props.C113_hand_partial", "Gringo.Props.C113_shake_partial", "Gringo.Props.C113_refuted"], "note": "The frames in closed form. Refuted for the shipped node: it is on Testnet1 but announces the genesis of Testnet4, total difficulty 1 and the address 0.0.0.0:0."},
 {"property": "C114", "status": "partial", "theorems": ["Gringo.Props.C114_same_length_partial", "Gringo.Props.C114_keeps_length_partial", "Gringo.Props.C114_refuted"], "note": "Holds only if the receiver already has the length of the commitment. Read fills the receiver as it is, so a fresh commitment stays empty and no error is reported."},
 {"property": "C115", "status": "proved", "theorems": ["Gringo.Props.C115_once", "Gringo.Props.C115_done", "Gringo.Props.C115_at_once"], "note": "Model/Relay.lean: every read of the record in a goroutine of PropagateBlock is its own step, beside every step of the pool."},
 {"property": "C116", "status": "partial", "theorems": ["Gringo.Props.C116_refuted", "Gringo.Props.C116_stays_behind_partial"], "note": "False of the code: height and total difficulty are read one after the other without a lock, so a peer that tells twice in between is left out though its record is behind all the time (C116_refuted, from every state with a connection). Proved: not left out if the same one of the two numbers stays behind."},
 {"property": "C117", "status": "partial", "theorems": ["Gringo.Props.C117_made", "Gringo.Props.C117_equation_partial", "Gringo.Props.C117_refuted", "Gringo.Props.C117_secp256k1_made", "Gringo.Props.C117_secp256k1_partial"], "note": "False of the code: only abscissas are compared, so the opposite number is accepted too (C117_refuted). Proved: what SignMessage returns, and acceptance if and only if the equation holds up to sign, with the hashed bytes spelled out."},
 {"property": "C118", "status": "partial", "theorems": ["Gringo.Props.C118_refuted", "Gringo.Props.C118_still_partial"], "note": "False of the code: quit is closed before the socket, and the handlers and the waiting call only look at quit, so the call can return while the connection is open (C118_refuted). Proved: nothing is read, handled or written after it has returned, and the connection is closed or closing it is the next step of whoever disconnects."},
 {"property": "C119", "status": "proved", "theorems": ["Gringo.Props.C119_finished", "Gringo.Whole.refines"], "note": "In the composed model of the pool and the goroutines of every connection, which refines the pool model (refines)."},
 {"property": "C120", "status": "proved", "theorems": ["Gringo.Props.C120_written", "Gringo.Props.C120_moves", "Gringo.Props.C120_takes"], "note": "Whatever the schedule. That an accepted message may be lost when the peer is disconnected is part of C68."},
 {"property": "C121", "status": "partial", "theorems": ["Gringo.Props.C121_place_partial", "Gringo.Props.C121_run_partial", "Gringo.Props.C121_lost_partial", "Gringo.Props.C121_refuted", "Gringo.Props.C80_goroutines_partial"], "note": "Proved for every connection of every reachable state of the composed model, before and after Stop, while no goroutine of Stop is at work, unless the read loop of the connection is in Ban. Missing: a read loop that bans its own peer keeps the place for ever (C121_lost_partial; C121_refuted shows that this state is reached), and the time while the goroutines of Stop are at work, when closing may deadlock (C79_refuted_deadlock)."},
 {"property": "C122", "status": "proved", "theorems": ["Gringo.Props.C122_what_is_written", "Gringo.Props.C122_what_is_seen", "Gringo.Props.C122_others_ok"], "note": "One connection with the bytes that arrive and the bytes that are written (Model/Talk.lean), joining the goroutines, the read loop, the handling and the serialisation. C122_what_is_seen is for the messages for which C81 claims delivery. C122_others_ok: the hypothesis about the rest of the program is met by every step of the composed pool model."},
 {"property": "C123", "status": "proved", "theorems": ["Gringo.Props.C123_ends", "Gringo.Props.C123_at_rest"], "note": "C123_ends: the steps of this process and those by which the connection takes bytes are well-founded, from every state. C123_at_rest: what holds where they end. A connection that breaks, or a malformed frame, may stop the read handler at any time in the model; the claim is about runs in which this does not happen."},
 {"property": "C124", "status": "proved", "theorems": ["Gringo.Props.C124_what_a_peer_sees", "Gringo.Props.C124_parts"], "note": "For every reachable state of the whole program at the level of bytes; the parts (C57, C64, C78-C80, C105, C119, C121-C123) are shown to hold of it by refinement."},
 {"property": "C125", "status": "proved", "theorems": ["Gringo.Props.C125_no_more_than_came_in"], "note": "Counted over all connections; the answers to the requests of the connection itself are taken away first. Until the process ends."},
 {"property": "C126", "status": "proved", "theorems": ["Gringo.Props.C126_sent_on"], "note": "The address must stay behind in one of the two fields: C116_refuted shows that a record that is behind in alternating fields can be passed over."},
 {"property": "C127", "status": "proved", "theorems": ["Gringo.Props.C127_ends", "Gringo.Props.C127_at_rest", "Gringo.Props.C127_block_written"], "note": "What can keep a closed connection from ending is named in the statement: a read loop in Ban waits for itself (C67) or for another connection; a read loop waits for the lock that a goroutine of Stop holds while it waits for the read loop (C131). The loop of the pool may be waiting for the other side while it dials or shakes hands."},
 {"property": "C128", "status": "proved", "theorems": ["Gringo.Props.C128_parts", "Gringo.Props.C128_first_bytes", "Gringo.Props.C128_conversation", "Gringo.Props.C128_record", "Gringo.Props.C128_ends", "Gringo.Props.C128_handshake_at_rest", "Gringo.Props.C128_at_rest"], "note": "For the connections the node opens; those it accepts crash it (C94). The receiver has a 4-byte IPv4 address, as in C113. The shake is not compared with the own genesis hash (C25). The body of a shake frame may be longer than the shake: the rest is then read as the next frame (C128_first_bytes says only that the shake is not longer than the frame). What can keep a closed connection from ending is named in the statement, as in C127."},
 {"property": "C129", "status": "partial", "theorems": ["Gringo.Props.C129_survives_partial", "Gringo.Props.C129_serves_partial", "Gringo.Props.C129_no_trouble", "Gringo.Props.C129_polite_partial", "Gringo.Props.C129_refuted_shake", "Gringo.Props.C129_refuted_transaction", "Gringo.Props.C129_refuted_compact", "Gringo.Props.C129_refuted_ban"], "note": "False of the code: a shake announcing a name too long for the memory, any transaction, and any compact block whose decoding panics end the process, from every state that waits for them; a block or headers the node does not accept may end it when the connection breaks while a message is being written (Ban returns from Close and writes to a nil map). Proved: the process can have ended only if what came in on some connection begins with one of these; otherwise nobody is banned and everybody is served. Assumed: point and range proof decoding (external) does not panic, memory for the biggest message."},
 {"property": "C130", "status": "proved", "theorems": ["Gringo.Props.C130_alike", "Gringo.Props.C130_same"], "note": "The chain does not change while the node runs (C49), so that one chain is all they need to have in common. Lists of addresses do depend on other peers: that is their purpose. Assumed: memory for the biggest message."},
 {"property": "C131", "status": "partial", "theorems": ["Gringo.Props.C131_left_partial", "Gringo.Props.C131_for_ever", "Gringo.Props.C131_refuted"], "note": "False of the code: a goroutine of Stop takes the lock of an address and waits in Close for a read loop that needs the same lock for the ping, pong or block it has just read; from every state in which such a message was just read Stop may come to wait so, and then for ever (unless the process ends). Proved: at rest after Stop every connection is over or held in one of two named ways (in Ban, or in this deadlock), and a goroutine of Stop that has not ended waits for such a connection."},
 {"property": "C132", "status": "partial", "theorems": ["Gringo.Props.C132_waiting_partial", "Gringo.Props.C132_refuted"], "note": "False of the code: from every moment at which a peer has stopped reading in the middle of a message, as many goroutines come to wait to send to it as the other peers send blocks the node accepts. Proved: at any time no more wait, but for one, than blocks with the height of the chain have come in."},
 {"property": "C133", "status": "proved", "theorems": ["Gringo.Props.C133_in_proportion"], "note": "For a node with the storage that is shipped. 148 bytes of greeting; the multiple is 2831/15, a request for addresses against a full answer."},
 {"property": "C134", "status": "partial", "theorems": ["Gringo.Props.C134_acyclic_partial", "Gringo.Props.C134_ends_partial", "Gringo.Props.C134_rest_partial", "Gringo.Props.C134_refuted"], "note": "A network of any number of nodes that relay one block. Proved for connections without cycles: whatever the schedule, and whatever messages get lost, no node gets the block twice and the one that sent it does not get it back, so there are fewer deliveries than nodes; n nodes have done with the block after 4 n\u00b2 steps at the latest, and can always go on until then. Missing: connections with cycles, where it is false: in every ring of three or more nodes at the height of the block, each taking the next one to be behind, the block goes round as often as you like (C134_refuted), because a node that sends a block does not record that the peer now has it, and ProcessBlock answers a block it already has as if it were new. Assumed of all else that happens in a node: it does not make the node forget that a peer has the block."},
 {"property": "C135", "status": "partial", "theorems": ["Gringo.Props.C135_everyone_partial", "Gringo.Props.C135_once_partial", "Gringo.Props.C135_refuted"], "note": "Proved, for any connections, of nodes that are at the height of the block, take it, and take their neighbours to be behind: at rest every node that there is a way to has got it, and without cycles exactly once; that the nodes come to rest is C134_rest_partial. Missing: nodes at other heights, where it is false (C135_refuted): there a block, such as one on top of the chain, reaches the neighbours of its sender and nobody else; and other work of the nodes meanwhile."},
 {"property": "C136", "status": "proved", "theorems": ["Gringo.Props.C136_maps"], "note": "Also no two readers at once. Values are left out of the model, so it has at least the schedules of the code."},
 {"property": "C137", "status": "partial", "theorems": ["Gringo.Props.C137_fields_partial", "Gringo.Props.C137_sections_partial", "Gringo.Props.C137_refuted"], "note": "False for the status, peer, height, total difficulty and capabilities of a record, the number of connections and the lists of a block; refuted with schedules. Proved: no race at the chain, the nonces, the protocol version and the time of connection; only one writer at a time for peer, height, total difficulty and capabilities, and none but the holder while the lock of the record is held. Full: no race at any of them."},
 {"property": "C138", "status": "proved", "theorems": ["Gringo.Props.C138_no_ring", "Gringo.Props.C138_given_back"], "note": "Locks only; what waits for channels or for the end of a connection is in C66, C67, C79, C105."},
 {"property": "C139", "status": "partial", "theorems": ["Gringo.Props.Print.C139_text_partial", "Gringo.Props.Print.C139_refuted"], "note": "Proved for Ping, GetPeerAddrs, GetBlock and GetBlockHeaders, across kinds. False for Pong, which prints as a Ping, and for PeerAddrs, which prints where in memory the addresses are. Full: the same for those two."},
 {"property": "C140", "status": "partial", "theorems": ["Gringo.Props.C140_bound_partial", "Gringo.Props.C140_failed", "Gringo.Props.C140_refuted", "Gringo.Props.C140_refuted_failed", "Gringo.Props.C140_refuted_lost"], "note": "False of the code: an address that answers with another protocol version stays marked as never tried and may be dialled for ever instead (C140_refuted), so may one whose connection ends again and again (C140_refuted_lost), and while such an address is there no failed address is ever dialled again, under any schedule (C140_failed, C140_refuted_failed). Proved: other addresses are dialled at most as often as there were waiting addresses, plus how often an address came to be waiting, plus how many attempts left their address untried."},
 {"property": "C141", "status": "partial", "theorems": ["Gringo.Props.C141_text", "Gringo.Props.C141_port", "Gringo.Props.C141_wire_partial", "Gringo.Props.C141_refuted"], "note": "Proved for the shipped node after any messages from the wire, and which texts are addresses and ports. False of Add, which compares texts: zeros before the port make another entry for the same address, up to the whole table. Full: the same for all calls of Add."},
 {"property": "C142", "status": "partial", "theorems": ["Gringo.Props.C142_headers_partial", "Gringo.Props.C142_blocks_partial", "Gringo.Props.C142_lookup", "Gringo.Props.C142_refuted", "Gringo.Props.C142_refuted_sql"], "note": "Proved for a node whose head is the last block of its storage, whose blocks have different hashes and headers that can be sent; blocks also have to be short enough to be sent (C97_refuted). False of the code: the head is the one found at the start, so what the storage gets later is never told (C142_refuted); the SQL storage returns nothing at all (C142_refuted_sql)."},
 {"property": "C143", "status": "partial", "theorems": ["Gringo.Props.C143_distinct_partial", "Gringo.Props.C143_refuted", "Gringo.Props.C143_refuted_wire"], "note": "Proved: connections that nobody has begun to close are with different addresses if the texts in the table are as the node writes them. False of the code: fifteen texts of one address, or fifteen ports of one host, can take all places, and then nothing else is dialled while they stay."},
 {"property": "C144", "status": "partial", "theorems": ["Gringo.Props.C144_shipped_partial", "Gringo.Props.C144_chain_partial", "Gringo.Props.C144_refuted_blocks", "Gringo.Props.C144_refuted_addresses", "Gringo.Props.C144_refuted_bans"], "note": "Proved: at every crash point the chain the node is started with is the chain it had (nothing it did has changed it). False of the code: accepted blocks, learned addresses and bans are lost."},
 {"property": "C145", "status": "partial", "theorems": ["Gringo.Props.C145_room_partial", "Gringo.Props.C145_full", "Gringo.Props.C145_refuted"], "note": "Proved: a told address enters the table unless it has 10001 entries. False of the code: nothing is ever removed, and any peer can fill the table for ever with forty messages about one host."},
 {"property": "C146", "status": "partial", "theorems": ["Gringo.Props.C146_order_partial", "Gringo.Props.C146_refuted"], "note": "When the goroutines of one call have ended, its block is not sent any more and no block of a later call has been sent. C146_refuted: for every history and every connected peer behind both blocks, the second block can be handed to the connection before the first."},
 {"property": "C147", "status": "partial", "theorems": ["Gringo.Props.C147_marked_partial", "Gringo.Props.C147_refuted", "Gringo.Props.C147_refuted_next"], "note": "Maturity is not looked at: any valid accepted block may spend any output of any block in addition, also the coinbase output of its parent. What holds: a valid block has at most one coinbase output, and an input that spends it carries the flag."},
 {"property": "C148", "status": "partial", "theorems": ["Gringo.Props.C148_coinbase_partial", "Gringo.Props.C148_refuted"], "note": "Any output of any valid block can be added again, any number of times, without its coinbase flag. What holds: two outputs of a valid block with the same commitment are not both coinbase outputs."},
 {"property": "C149", "status": "partial", "theorems": ["Gringo.Props.C149_refuted", "Gringo.Props.C149_refuted_full", "Gringo.Props.C149_taken_partial", "Gringo.Props.answers_said"], "note": "Refuted: in every reachable state of the whole program no connection was ever sent a transaction, whatever came in and whatever the pool of transactions took. Handing a transaction to the pool is proved."},
 {"property": "C150", "status": "partial", "theorems": ["Gringo.Props.C150_refuted", "Gringo.Props.C150_heard_partial", "Gringo.Props.frame_of_type"], "note": "Refuted: nothing but pings, pongs, requests for addresses, addresses, headers and blocks is ever written on a connection. That an error message from a peer ends the connection is proved."},
 {"property": "C151", "status": "proved", "theorems": ["Gringo.Props.C151"], "note": "For any run of the whole program. The model does not tell apart why a read fails in a step of the remote side: end of stream, broken connection or undecodable message."},
 {"property": "C152", "status": "partial", "theorems": ["Gringo.Props.C152_refuted", "Gringo.Props.C152_once_partial"], "note": "False of the code: one ping is sent when the connection is opened, never another, and nothing follows when it is not answered (C152_refuted). What holds: C152_once_partial."}
]}

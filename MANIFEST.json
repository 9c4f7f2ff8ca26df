{
 "claims": [
  {
   "property": "C01",
   "status": "proved",
   "theorems": [
    "Verif.C01_writer",
    "Verif.C01_round_trip",
    "Verif.C01_lookup",
    "Verif.C01_lookup_absent"
   ],
   "note": "Every bencode value within the limits (64-bit numbers, strings < 2 GiB, < 65536 objects); the byte after the buffer must be readable. C01_lookup gives the key lookups."
  },
  {
   "property": "C02",
   "status": "partial",
   "theorems": [
    "Verif.C02_terminates_partial",
    "Verif.C02_endless_recursion_violated",
    "Verif.C02_nested_overread_violated",
    "Verif.C02_wellformed_overread_violated"
   ],
   "note": "False in general: endless recursion on d-4:, reads past the end by the nesting depth, and by one byte for every well-formed dictionary (violated theorems). C02_terminates_partial: buffers below 64 KiB without negative or oversized length prefixes, followed by two NUL bytes and enough readable memory."
  },
  {
   "property": "C03",
   "status": "partial",
   "theorems": [
    "Verif.C03_info_hash_partial",
    "Verif.C03_value_named_info_violated"
   ],
   "note": "All files whose first info key holds a dictionary with pieces, except those with a text value info before it (C03_value_named_info_violated). SHA-1 is a parameter."
  },
  {
   "property": "C04",
   "status": "partial",
   "theorems": [
    "Verif.C04_layout_multi_partial",
    "Verif.C04_layout_single",
    "Verif.C04_boundary_violated",
    "Verif.C04_empty_tail_violated",
    "Verif.C04_zero_piece_size_violated"
   ],
   "note": "Single-file torrents fully; multi-file except files ending exactly on a piece boundary, where the reported end offset and last piece size are 0 (C04_boundary_violated), and empty files there (C04_empty_tail_violated)."
  },
  {
   "property": "C05",
   "status": "proved",
   "theorems": [
    "Verif.C05_hex_roundtrip",
    "Verif.C05_hex_case_insensitive",
    "Verif.C05_hex_defined",
    "Verif.C05_hex_short_is_ub"
   ],
   "note": "Round trip, case-insensitivity and definedness for text of at least 2*size characters; shorter text is an out-of-bounds read (C05_hex_short_is_ub); callers guard the length."
  },
  {
   "property": "C06",
   "status": "proved",
   "theorems": [
    "Verif.C06_base32_inverts",
    "Verif.C06_base32_case_insensitive"
   ],
   "note": "Against an RFC 4648 encoder specification, padded or not, any length and letter case."
  },
  {
   "property": "C07",
   "status": "proved",
   "theorems": [
    "Verif.C07_url_roundtrip",
    "Verif.C07_url_charset",
    "Verif.C07_url_decode_means"
   ],
   "note": "Round trip for all byte strings and the character set of the encoded form."
  },
  {
   "property": "C08",
   "status": "proved",
   "theorems": [
    "Verif.C08_magnet_fields",
    "Verif.C08_bare_hash",
    "Verif.C08_bare_hash_spaced",
    "Verif.C08_no_hash_rejected",
    "Verif.C08_malformed_escape_undefined"
   ],
   "note": "Every parameter list in every order, hash as hex or base32 in any letter case, any URL-encoded name and trackers; also bare hashes, and rejection of links without a hash. With several hash parameters the last one counts."
  },
  {
   "property": "C09",
   "status": "partial",
   "theorems": [
    "Verif.C09_blocks_tile_partial",
    "Verif.C09_last_piece_violated"
   ],
   "note": "All torrents except multi-file ones whose size is a multiple of the piece size (C09_last_piece_violated)."
  },
  {
   "property": "C10",
   "status": "proved",
   "theorems": [
    "Verif.C10_progress_exact",
    "Verif.C10_out_of_range_is_ub"
   ],
   "note": "Refinement of the cached counters to a recount over the piece list, for every history of in-range operations; out-of-range indices are undefined behaviour (C10_out_of_range_is_ub)."
  },
  {
   "property": "C100",
   "status": "partial",
   "theorems": [
    "Verif.C100_left_partial",
    "Verif.C100_zero_partial",
    "Verif.C100_length_violated",
    "Verif.C100_multiple_violated",
    "Verif.C100_selected_violated"
   ],
   "note": "Proved for all histories in which arriving blocks have the length of the block they are taken for and the size is not a multiple of the piece size. Violated: a longer block makes more bytes finished than there are, and the number left wraps to almost 2^64; a complete torrent of a multiple of the piece size tells one piece left; the number for selected files leaves out kept pieces and so falls when the torrent is stopped. The separate API half-step that changes the selection without a refresh is excluded."
  },
  {
   "property": "C101",
   "status": "partial",
   "theorems": [
    "Verif.C101_shown_partial",
    "Verif.C101_files_partial",
    "Verif.C101_stop_partial",
    "Verif.C101_neighbour_violated",
    "Verif.C101_last_violated",
    "Verif.C101_empty_violated"
   ],
   "note": "Proved for files whose pieces have fewer than 2^32 bytes and histories in which blocks have the length asked for: no read outside, the number of pieces exact, the fraction that of its pieces with arrived blocks of the others, at most 1, 1 only when all bytes are there and always when all pieces are, unchanged by stopping; each file at its place. Violated: bytes of other files in shared pieces count, so a complete file shows half and one without a byte a quarter; a short last piece counts as a full one; an empty file behind a full last piece is read outside. Rounding of floats is not modelled."
  },
  {
   "property": "C102",
   "status": "partial",
   "theorems": [
    "Verif.C102_ports_partial",
    "Verif.C102_tcp_partial",
    "Verif.C102_udp_partial",
    "Verif.C102_moved_partial",
    "Verif.C102_quiet_partial",
    "Verif.C102_end_partial",
    "Verif.C102_taken_violated",
    "Verif.C102_zero_violated",
    "Verif.C102_gone_violated"
   ],
   "note": "Proved: never another port than the set ones; exactly the set ports wished of routers, each once; with free ports (and a UDP port that is not 0) always listened to; a new TCP port tried at once; other settings disturb nothing; nothing before the first torrent and after the end. Violated: a port taken when it is tried is never tried again, while routers forward it; after a first torrent with UDP port 0, UDP is never listened to, whatever is set; settings changed after the core is gone call the deleted listener. Settings changed by several threads at once are not modelled."
  },
  {
   "property": "C103",
   "status": "partial",
   "theorems": [
    "Verif.C103_progress_partial",
    "Verif.C103_selection_partial",
    "Verif.C103_nothing_partial",
    "Verif.C103_last_violated",
    "Verif.C103_jump_violated",
    "Verif.C103_kept_violated"
   ],
   "note": "Proved for histories in which blocks have the length asked for and sizes that are not a multiple of the piece size: both fractions are those of pieces, with the blocks that arrived of pieces not there, each once; the cut at 1 is never needed; 1 only when every byte is there and always when all pieces are. For the selection: with fewer than 2^32 bytes arrived of unfinished selected pieces, and empty kept entries of pieces of the torrent. Violated: a short last piece counts as a full one, so the fraction also jumps when it is checked; an entry of a saved state for a piece that does not exist is read outside. Rounding of floats is not modelled."
  },
  {
   "property": "C104",
   "status": "partial",
   "theorems": [
    "Verif.C104_torrent_partial",
    "Verif.C104_exact_partial",
    "Verif.C104_peer_partial",
    "Verif.C104_stopped",
    "Verif.C104_restart_partial",
    "Verif.C104_first_violated",
    "Verif.C104_reused_violated",
    "Verif.C104_start_violated",
    "Verif.C104_wrap_violated"
   ],
   "note": "Proved: from a start on, the torrent's speeds are one for each measure the bytes counted in that second, in 32 bits and exact below 2^32; a connection that was there at the measure before is shown with the bytes of that second, in 32 bits; none after a stop, and connections made after it are not measured against those of before. Violated: bytes of a connection before its first measure are never shown as its speed; a connection at the address of one closed in the same second is measured against its bytes; starting a running torrent hides the bytes of that second; 2^32 bytes in a second are shown as none. Counters are unbounded in the model; that both counters count the same blocks is not stated here."
  },
  {
   "property": "C105",
   "status": "partial",
   "theorems": [
    "Verif.C105_fill_partial",
    "Verif.C105_outside",
    "Verif.C105_keys_partial",
    "Verif.C105_key_padding_partial",
    "Verif.C105_seconds_partial",
    "Verif.C105_same_violated",
    "Verif.C105_few_violated",
    "Verif.C105_padding_violated"
   ],
   "note": "Proved for any generator: at places that are a multiple of 8, or for fewer than 8 bytes, exactly the bytes asked for are those of the next numbers, each used once; a short buffer is never filled in silence; private keys and padding of public keys are filled so, and keys of a thread in turn are of different numbers; different seconds give different seeds. Violated: generators are seeded with the second of their first use, so two threads that start in the same second make the same private key, and a first key is one of 2^32, told by the time; padding of 8 bytes or more in the third and fourth message is stored as words at places that are not a multiple of 8, which is undefined. The generator itself is a parameter; buffers are taken to begin at a multiple of 8."
  },
  {
   "property": "C11",
   "status": "partial",
   "theorems": [
    "Verif.C11_received_bytes_partial",
    "Verif.C11_received_bytes_violated"
   ],
   "note": "Holds for torrents whose last piece is shorter than the others; C11_received_bytes_violated: for every size that is a multiple of the piece size the report misses one piece."
  },
  {
   "property": "C12",
   "status": "partial",
   "theorems": [
    "Verif.C12_bitfield_roundtrip_partial",
    "Verif.C12_short_bitfield_violated",
    "Verif.C12_bitfield_float_violated"
   ],
   "note": "Round trip below 2^24 pieces; a short bitfield and piece indices above 2^24 (float index arithmetic) violate it."
  },
  {
   "property": "C13",
   "status": "partial",
   "theorems": [
    "Verif.C13_selection_partial",
    "Verif.C13_small_files_violated",
    "Verif.C13_empty_file_violated"
   ],
   "note": "Non-empty files, no three consecutive files in one piece; the excluded cases are violated (C13_small_files_violated, C13_empty_file_violated)."
  },
  {
   "property": "C14",
   "status": "partial",
   "theorems": [
    "Verif.C14_store_partial",
    "Verif.C14_load_partial",
    "Verif.C14_load_block_partial",
    "Verif.C14_latest_block_partial",
    "Verif.C14_allocate",
    "Verif.C14_boundary_violated",
    "Verif.C14_temp_move_violated",
    "Verif.C14_empty_store_violated"
   ],
   "note": "Proved for single files and for multi-file torrents in which no file ends on a piece boundary, with all files allocated: any history of stores writes exactly the linear memory (C14_store_partial), any load returns it (C14_load_partial, C14_load_block_partial, C14_latest_block_partial). Violated: a piece ending with a file on a piece boundary is never written or read (C14_boundary_violated), growing a temporary file misplaces the end piece (C14_temp_move_violated), an empty block list is undefined behaviour. Assumed: the operating system's file reads and writes succeed and distinct files have distinct paths."
  },
  {
   "property": "C15",
   "status": "partial",
   "theorems": [
    "Verif.C15_cache_transparent_partial",
    "Verif.C15_stale_block_violated",
    "Verif.C15_flush_loses_block_violated",
    "Verif.C15_write_error_violated",
    "Verif.C15_double_flush_violated"
   ],
   "note": "C15_cache_transparent_partial: for every interleaving of stores, background writes and clears over any torrent layout without boundary file ends, reading a piece gives the last stored bytes, provided stores do not overlap a block still cached and do not run while a partly filled group is being flushed. The four violated theorems show the code fails without each condition: a repeated block reads stale, a store during flush() is lost, a failed storage write drops blocks, flush() twice is undefined behaviour."
  },
  {
   "property": "C16",
   "status": "proved",
   "theorems": [
    "Verif.C16_buffers_in_bounds",
    "Verif.C16_store_keeps_blocks",
    "Verif.C16_oversized_block_violated"
   ],
   "note": "All histories of stores of at most 16 KiB with data length equal to the announced length, any flush interleaving. C16_oversized_block_violated shows what happens with larger blocks."
  },
  {
   "property": "C17",
   "status": "partial",
   "theorems": [
    "Verif.C17_have_joined",
    "Verif.C17_have",
    "Verif.C17_failed",
    "Verif.C17_finished_partial",
    "Verif.C17_bitfield_violated",
    "Verif.C17_deselected_violated",
    "Verif.C17_reselected_violated",
    "Verif.C17_stalled_violated"
   ],
   "note": "Downloader, connections, posted checks and the timer modelled as a step function; have messages proved to follow a successful check in every history; a failed piece stops counting and is wanted again; the report of the end is proved for histories in which a change of the selection is one event. Not proved in general because violated: bitfield with unchecked pieces, piece completed between deselection and refresh, selection changed between posting and reporting, no request after a failed check (stall)."
  },
  {
   "property": "C18",
   "status": "partial",
   "theorems": [
    "Verif.C18_piece_complete_partial",
    "Verif.C18_misaligned_violated",
    "Verif.C18_empty_block_violated",
    "Verif.C18_unfinished_resumed"
   ],
   "note": "C18_piece_complete_partial: any history of aligned blocks with the right length. False for blocks at unaligned offsets (C18_misaligned_violated) and for empty blocks (C18_empty_block_violated)."
  },
  {
   "property": "C19",
   "status": "partial",
   "theorems": [
    "Verif.C19_once_partial",
    "Verif.C19_not_received_partial",
    "Verif.C19_limit_partial",
    "Verif.C19_speed_partial",
    "Verif.C19_wanted_partial",
    "Verif.C19_allowed",
    "Verif.C19_unchoke_violated",
    "Verif.C19_other_peer_violated",
    "Verif.C19_early_have_violated",
    "Verif.C19_deselected_violated"
   ],
   "note": "For every history: no block asked for twice while pending, none that is there, at most 100 pending and at most the speed limit after asking; wanted pieces only, which the peer said it has, for peers that keep to the protocol. Pending ends at an unchoke and at completion of the piece; on the wire the requests are still open, so the property is violated there (theorems named violated)."
  },
  {
   "property": "C20",
   "status": "partial",
   "theorems": [
    "Verif.C20_at_most_once",
    "Verif.C20_order_partial",
    "Verif.C20_order",
    "Verif.C20_granted_partial",
    "Verif.C20_kept",
    "Verif.C20_flush",
    "Verif.C20_alive_partial",
    "Verif.C20_overtaken_violated",
    "Verif.C20_stalled_violated",
    "Verif.C20_wrap_violated",
    "Verif.C20_negative_violated"
   ],
   "note": "Proved over all histories: no request is sent twice or to another peer, all requests of connected peers are sent or wait, blocks of one size are sent in order, bytes sent stay within the grants when these are not negative, and waiting blocks are looked at again while the manager does not grant at once during sending. False in four cases, each with a witness: smaller blocks overtake, blocks stall when bytes are granted at once during sending, blocks stall when the lengths sum up to 2^32, and a negative grant counts as 2^32-1 bytes."
  },
  {
   "property": "C21",
   "status": "proved",
   "theorems": [
    "Verif.C21_reconstructs",
    "Verif.C21_next_is_missing",
    "Verif.C21_requests_rotate",
    "Verif.C21_message_round_trip"
   ],
   "note": "Any order and repetition of the sender's pieces, any metadata size below 4 GiB (message round trip: indices below 2^31)."
  },
  {
   "property": "C22",
   "status": "partial",
   "theorems": [
    "Verif.C22_any_metadata_accepted_violated",
    "Verif.C22_id_belongs_to_data_partial"
   ],
   "note": "False: downloaded metadata is never compared to the magnet's hash (C22_any_metadata_accepted_violated). What holds: the torrent's new id is the hash of the data it was given."
  },
  {
   "property": "C23",
   "status": "partial",
   "theorems": [
    "Verif.C23_builders",
    "Verif.C23_round_trip_partial",
    "Verif.C23_parser_in_bounds",
    "Verif.C23_large_message_violated",
    "Verif.C23_empty_block_violated"
   ],
   "note": "Every message below 64 KiB with non-empty blocks, all field values, any trailing data. False for messages of 64 KiB and more (the 16-bit message size wraps) and for piece messages without data. C23_parser_in_bounds: no input makes the parser read outside the buffer."
  },
  {
   "property": "C24",
   "status": "partial",
   "theorems": [
    "Verif.C24_stream_partial",
    "Verif.C24_cut_independent_partial",
    "Verif.C24_messages_partial",
    "Verif.C24_endless_loop_violated",
    "Verif.C24_unknown_id_violated"
   ],
   "note": "All streams of messages with known ids below 64 KiB (any content), all cuts. False for a message of exactly 64 KiB (endless loop) and for unknown message ids (following messages are dropped depending on the cut)."
  },
  {
   "property": "C25",
   "status": "partial",
   "theorems": [
    "Verif.C25_interest_inverted_violated",
    "Verif.C25_choke_partial",
    "Verif.C25_own_flags_partial",
    "Verif.C25_own_flags_set_partial"
   ],
   "note": "Peer choking and both own flags hold over all histories; the peer's interest is reported inverted in every state (C25_interest_inverted_violated)."
  },
  {
   "property": "C26",
   "status": "proved",
   "theorems": [
    "Verif.C26_rc4_is_textbook",
    "Verif.C26_rc4_roundtrip",
    "Verif.C26_rc4_init"
   ],
   "note": "Refinement to textbook RC4 and chunk-independent round trip; non-empty keys (an empty key is undefined behaviour in the model and never used by the callers)."
  },
  {
   "property": "C27",
   "status": "partial",
   "theorems": [
    "Verif.C27_powm_partial",
    "Verif.C27_mulm_partial",
    "Verif.C27_lengths",
    "Verif.C27_one_violated",
    "Verif.C27_overflow_violated"
   ],
   "note": "Powm is right for all operands of all lengths except exponent 0 with modulus 1 (returns 1) and moduli strictly between 2^63 and 2^64 (signed overflow in the division by one digit is reachable); both exceptions are shown to fail by concrete operands. The modulus of the key exchange has 12 digits."
  },
  {
   "property": "C28",
   "status": "proved",
   "theorems": [
    "Verif.C28_agreement",
    "Verif.C28_message",
    "Verif.C28_secret"
   ],
   "note": "For all random bytes, paddings and former values of the variables. The random generator is an input."
  },
  {
   "property": "C29",
   "status": "partial",
   "theorems": [
    "Verif.C29_first_partial",
    "Verif.C29_served_partial",
    "Verif.C29_wrong_violated",
    "Verif.C29_refused_violated"
   ],
   "note": "Proved: a torrent that is identified is always one that is served; the torrent with the lowest address (for instance the only one) is identified, with the initial message and the answer of the standard, however the bytes arrive, if no byte of SHA1(req3 S) equals the byte of the text req3 S at its place. Violated otherwise: the comparison is inverted (any torrent of which all 20 bytes differ is taken) and the text is used in place of its hash, so with two torrents the wrong one is reached and with one torrent about one peer in thirteen is refused."
  },
  {
   "property": "C30",
   "status": "partial",
   "theorems": [
    "Verif.C30_prefix_partial",
    "Verif.C30_first_violated"
   ],
   "note": "Every history of an open stream in which data packets are parts of the stream at most 32767 places ahead of the first missing part and at most 32768 behind it: 16-bit numbers tell nothing more. Missing: the opening itself, where the property is violated."
  },
  {
   "property": "C31",
   "status": "partial",
   "theorems": [
    "Verif.C31_kept_partial",
    "Verif.C31_in_flight",
    "Verif.C31_timeout",
    "Verif.C31_fin_violated"
   ],
   "note": "Every history of an open stream of writes, packets, timers and closes without FIN or RESET of the peer; with a FIN the property is violated. The byte count holds in all histories."
  },
  {
   "property": "C32",
   "status": "proved",
   "theorems": [
    "Verif.C32_header_size",
    "Verif.C32_inside",
    "Verif.C32_round_trip"
   ],
   "note": "Every datagram below 4 GiB, every memory behind it."
  },
  {
   "property": "C33",
   "status": "partial",
   "theorems": [
    "Verif.C33_invariant_partial",
    "Verif.C33_recorded",
    "Verif.C33_timeout",
    "Verif.C33_own_id_violated",
    "Verif.C33_reload_violated"
   ],
   "note": "Bucket sizes, placement and uniqueness of ids proved for every history of responses and timeouts. False in the code for the own and all-zero id, which are recorded, and after loading into a table in use, which doubles every node."
  },
  {
   "property": "C34",
   "status": "partial",
   "theorems": [
    "Verif.C34_distance",
    "Verif.C34_strict_order",
    "Verif.C34_consistent_partial",
    "Verif.C34_id_order",
    "Verif.C34_nearest_violated"
   ],
   "note": "Distance, logarithm and strict order for all ids; consistency with the XOR distance except for ids at distance 0 and 1, which are never considered closer than anything (C34_nearest_violated)."
  },
  {
   "property": "C35",
   "status": "partial",
   "theorems": [
    "Verif.C35_accepted_partial",
    "Verif.C35_lifetime",
    "Verif.C35_needs_token",
    "Verif.C35_forgery_violated",
    "Verif.C35_same_sum_violated",
    "Verif.C35_no_rotation_violated"
   ],
   "note": "Exactly which tokens are accepted, for every rotation history and every packet. False in the code: a token for one address gives those of all others, and the secrets rotate only once after a start because the refresh timer is not scheduled again."
  },
  {
   "property": "C36",
   "status": "partial",
   "theorems": [
    "Verif.C36_stored_partial",
    "Verif.C36_expiry_partial",
    "Verif.C36_sound",
    "Verif.C36_family_violated",
    "Verif.C36_never_expires_violated"
   ],
   "note": "Exact contents for every history with at most 32 addresses and without clashes between IPv4 and IPv6; soundness and the cap for every history. False in the code with both families, and because refreshes stop: peers are then never removed. C58_answers gives what a query returns."
  },
  {
   "property": "C37",
   "status": "partial",
   "theorems": [
    "Verif.C37_lookup_partial",
    "Verif.C37_keeps_closest_partial",
    "Verif.C37_exact_violated",
    "Verif.C37_far_violated",
    "Verif.C37_requeried_violated",
    "Verif.C37_outstanding_violated",
    "Verif.C37_early_finish_violated",
    "Verif.C37_stops"
   ],
   "note": "Bounds, no duplicates and one query per node for all histories; closeness by highest bit only. The exact order, nodes far away after 32 queries, the nodes of the start, outstanding requests and finishing early are violations."
  },
  {
   "property": "C38",
   "status": "partial",
   "theorems": [
    "Verif.C38_round_trip_partial",
    "Verif.C38_marker_violated"
   ],
   "note": "Round trip proved for every table whose node bytes do not contain the end marker; a node id containing the marker makes the load read outside the text. Spare nodes are not saved."
  },
  {
   "property": "C39",
   "status": "partial",
   "theorems": [
    "Verif.C39_limit_partial",
    "Verif.C39_limit_start_partial",
    "Verif.C39_at_most_asked_partial",
    "Verif.C39_closed_partial",
    "Verif.C39_queued_partial",
    "Verif.C39_refill",
    "Verif.C39_amount_violated"
   ],
   "note": "Proved for limits, amounts and priorities that are positive int values and at most two channels per request: over any period after any history the grants on a limited channel are at most limit times time, half a byte of rounding per tick, and the burst held at the start; each request is answered at most once, between 0 and what it asked; the queued count is exact. C39_amount_violated shows it false for amounts of 2^31 bytes and more, which peers can send."
  },
  {
   "property": "C40",
   "status": "partial",
   "theorems": [
    "Verif.C40_safe",
    "Verif.C40_limit",
    "Verif.C40_limit_only",
    "Verif.C40_fill",
    "Verif.C40_right_partial",
    "Verif.C40_used",
    "Verif.C40_single_partial",
    "Verif.C40_unwanted_partial",
    "Verif.C40_asked",
    "Verif.C40_right_violated",
    "Verif.C40_single_violated",
    "Verif.C40_unwanted_violated",
    "Verif.C40_unwanted_twice_violated"
   ],
   "note": "Proved for every history: nothing is read out of bounds, automatic connections respect the limit, connectNext uses the limit up, no peer is stuck as connected without a connection. Proved with conditions on the addresses: each connection refers to its own known peer through all insertions, one connection per known peer, banned peers are not dialled. Violated: an IPv6 address whose beginning is a known IPv4 address is taken for it; a banned peer that connects to us, or that a tracker names twice, is dialled again; without a stream a peer gets two connections."
  },
  {
   "property": "C41",
   "status": "partial",
   "theorems": [
    "Verif.C41_kept",
    "Verif.C41_genuine",
    "Verif.C41_once_partial",
    "Verif.C41_both_partial",
    "Verif.C41_two_ports_violated",
    "Verif.C41_https_violated",
    "Verif.C41_default_port_violated",
    "Verif.C41_path_violated"
   ],
   "note": "No address with a port (or https) is lost and no entry is made up, for all lists. One entry per host is proved if each host has one port and https addresses have a port; false otherwise (host with two ports, https without port). False also for http addresses without port (refused) and for the path of a http address that joins a udp one."
  },
  {
   "property": "C42",
   "status": "partial",
   "theorems": [
    "Verif.C42_matched_partial",
    "Verif.C42_memory_partial",
    "Verif.C42_peers",
    "Verif.C42_connected",
    "Verif.C42_announced",
    "Verif.C42_orderly_partial",
    "Verif.C42_no_peers",
    "Verif.C42_short_violated",
    "Verif.C42_zero_violated",
    "Verif.C42_mistaken_violated",
    "Verif.C42_asked",
    "Verif.C42_closed"
   ],
   "note": "Datagrams are matched by action and transaction id for every tracker state and list of waiting callbacks, peers and numbers are exactly those encoded. False for datagrams under 8 bytes (read out of bounds), for the transaction id 0 with datagrams under 16 bytes, and for announces asked for while replies are awaited (a repeated announce reply becomes a connect reply); the partial theorems exclude exactly these."
  },
  {
   "property": "C43",
   "status": "partial",
   "theorems": [
    "Verif.C43_length_partial",
    "Verif.C43_no_length",
    "Verif.C43_chunked_partial",
    "Verif.C43_terminates_partial",
    "Verif.C43_chunks_violated",
    "Verif.C43_prefix_violated",
    "Verif.C43_space_violated",
    "Verif.C43_case_violated",
    "Verif.C43_number_violated",
    "Verif.C43_chunk_memory_violated"
   ],
   "note": "Complete headers of \"name: value\" lines are read exactly, termination is proved for any input with an empty line. Missing because false: incomplete headers (reading diverges), several chunks, values after a colon without space, small letters in values, lengths that are no number, incomplete chunks (read behind the buffer)."
  },
  {
   "property": "C44",
   "status": "partial",
   "theorems": [
    "Verif.C44_restart_partial",
    "Verif.C44_rest_partial",
    "Verif.C44_list_partial",
    "Verif.C44_full_size_violated"
   ],
   "note": "State file and list of torrents: saving then loading into any previous state is proved to give the state back, for every state with less than 4 GiB and few enough files. Violated: the full size is written and read with 32 bits (C44_full_size_violated). The file system itself is not modelled: what is loaded is what was saved."
  },
  {
   "property": "C45",
   "status": "partial",
   "theorems": [
    "Verif.C45_load_partial",
    "Verif.C45_restart_partial",
    "Verif.C45_crash_partial",
    "Verif.C45_set_partial",
    "Verif.C45_encryption_violated",
    "Verif.C45_preferUtp_violated",
    "Verif.C45_directory_violated",
    "Verif.C45_unreadable_violated",
    "Verif.C45_empty_violated",
    "Verif.C45_id_violated"
   ],
   "note": "Proved: what save writes load reads, whatever was in memory, but for preferUtp and encryption; over all histories of calls and restarts quitting and starting keeps the settings but for those two; settings changed by a call survive a crash after the call. Conditions: a directory is set, neither it nor the id contains ]]>, the id is not changed by setInternalValues. Violated: encryption and preferUtp are not written, preferUtp is not compared either, ]]> in the directory cuts it or makes the whole file unreadable, an empty directory is replaced, a new id is not saved. Writing the file is taken to succeed as one step."
  },
  {
   "property": "C46",
   "status": "partial",
   "theorems": [
    "Verif.C46_message_partial",
    "Verif.C46_first_partial",
    "Verif.C46_sent_partial",
    "Verif.C46_something_partial",
    "Verif.C46_again_violated",
    "Verif.C46_first_violated",
    "Verif.C46_first_garbage_violated",
    "Verif.C46_ipv6_dropped_violated",
    "Verif.C46_skipped_violated"
   ],
   "note": "For every history of IPv4 connection sets: messages are well formed, dropped peers are exactly those gone since the update before, added are the first 50 connected; when messages are sent is characterised. Violated: connected peers are listed again, an update can be left out, the first message after an update with dropped peers is cut at a stale place (undefined behaviour), dropped IPv6 peers."
  },
  {
   "property": "C47",
   "status": "partial",
   "theorems": [
    "Verif.C47_unique_partial",
    "Verif.C47_new_file",
    "Verif.C47_new_magnet",
    "Verif.C47_refused",
    "Verif.C47_unnamed",
    "Verif.C47_merge",
    "Verif.C47_remove",
    "Verif.C47_removed_partial",
    "Verif.C47_restart_partial",
    "Verif.C47_race_violated",
    "Verif.C47_metadata_violated",
    "Verif.C47_missing_violated",
    "Verif.C47_garbage_violated"
   ],
   "note": "Proved in every state: a file or magnet of a hash that is there adds no torrent and brings its trackers to that torrent, returning Merged exactly if there are new ones; a new hash is appended; removal takes one torrent out. Proved for histories in which no two threads add one hash at once, metadata has the magnet's hash and the state folder is intact: at most one torrent per hash, none left after removal, the same ones after a restart. Violated: two threads adding at once, metadata of another torrent (C22), re-adding a torrent whose .torrent file was lost, data that is no torrent file. Merging is taken as one step with the search. The files of a duplicate .torrent are not used even if the torrent still waits for its metadata."
  },
  {
   "property": "C48",
   "status": "partial",
   "theorems": [
    "Verif.C48_stopped",
    "Verif.C48_started",
    "Verif.C48_error",
    "Verif.C48_active",
    "Verif.C48_works",
    "Verif.C48_checking_partial",
    "Verif.C48_stays_partial",
    "Verif.C48_stays_kept_partial",
    "Verif.C48_restarts_partial",
    "Verif.C48_returns_partial",
    "Verif.C48_hangs_violated",
    "Verif.C48_gone_violated",
    "Verif.C48_stays_violated",
    "Verif.C48_revived_violated",
    "Verif.C48_lost_violated",
    "Verif.C48_forgotten_violated",
    "Verif.C48_checking_violated",
    "Verif.C48_empty_violated"
   ],
   "note": "Proved for every history of the model: a manual stop that returns leaves the torrent reported stopped; what a start returns agrees with the state reported; data is exchanged only while active is reported. Proved with conditions: check and report agree when checks do not overlap, a stopped torrent stays stopped over ends and launches, a running one restarts, stop/quit/remove return when no work waits in the pool. Violated: a stop can hang, the handler of a finished metadata download uses a destroyed torrent, a failed start is saved as started, a waiting start revives a stopped torrent, a started magnet is lost at shutdown, a restarted magnet is forgotten, a check called off hides the next one, a second start of a torrent whose .torrent file is gone reports Success. The race inside MetadataDownload::stop is not modelled."
  },
  {
   "property": "C49",
   "status": "partial",
   "theorems": [
    "Verif.C49_lookup_partial",
    "Verif.C49_last_range_violated",
    "Verif.C49_earlier_bucket_violated",
    "Verif.C49_round_trip",
    "Verif.C49_path_violated"
   ],
   "note": "Proved: an address between two ranges of its bucket gets the country of its range; loading a saved table gives the same table. Missing because false: the last range of each of the 256 buckets and ranges that start in an earlier bucket give no country, and the saved file has another name than the loaded one."
  },
  {
   "property": "C50",
   "status": "proved",
   "theorems": [
    "Verif.C50_pop",
    "Verif.C50_once",
    "Verif.C50_kinds"
   ],
   "note": "Every history of alerts, registrations and pops. Calls are taken one after another (each holds the mutex)."
  },
  {
   "property": "C51",
   "status": "partial",
   "theorems": [
    "Verif.C51_defined",
    "Verif.C51_once",
    "Verif.C51_datagram",
    "Verif.C51_retry",
    "Verif.C51_kept",
    "Verif.C51_outcome_partial",
    "Verif.C51_lost_violated",
    "Verif.C51_shared_violated"
   ],
   "note": "All schedules of datagrams, timers, closing and cancelling: at most one outcome, at most one retry, one request per datagram, no request forgotten, no null timer. Missing: 'exactly one outcome' is proved for fair executions without shared clients and without a timer lookup during a hand-out; it is false otherwise (C51_lost_violated, C51_shared_violated)."
  },
  {
   "property": "C52",
   "status": "partial",
   "theorems": [
    "Verif.C52_compact_round_trip",
    "Verif.C52_order_partial",
    "Verif.C52_families_violated"
   ],
   "note": "Round trip for all addresses; order and equality within one family. False across families: IPv4 == IPv6 is not symmetric (C52_families_violated)."
  },
  {
   "property": "C53",
   "status": "partial",
   "theorems": [
    "Verif.C53_worker_partial",
    "Verif.C53_asked_partial",
    "Verif.C53_check_partial",
    "Verif.C53_boundary_violated",
    "Verif.C53_missing_violated",
    "Verif.C53_longer_violated",
    "Verif.C53_last_violated"
   ],
   "note": "Proved for torrents whose last piece is shorter than the others, pieces of at most 2 GiB, any contents of files that are stored whole or, except the last one, with only their ends kept as files not selected are, any pieces of whole files, any number of workers and any order of what they find. Violated: if the size is a multiple of the piece size a worker reads past the table of the pieces to check; if a file in the middle of a piece is missing the bytes left in the buffer are taken; of a file longer than it should be no pieces are found; the end of the last file is not found if only its ends are kept. Not modelled: the four workers change the progress at the same time without a lock; stopping the check."
  },
  {
   "property": "C54",
   "status": "partial",
   "theorems": [
    "Verif.C54_metadata_overflow_violated",
    "Verif.C54_missing_type_violated",
    "Verif.C54_in_bounds_partial"
   ],
   "note": "False: a data message longer than announced overflows the metadata buffer, and a message without msg_type is handled with an uninitialised type. C54_in_bounds_partial: messages whose data fits the announced size."
  },
  {
   "property": "C55",
   "status": "partial",
   "theorems": [
    "Verif.C55_ipv4_text_partial",
    "Verif.C55_lost_digit_violated"
   ],
   "note": "All ports and all octets except 100-109 and 200-209, which lose a digit (C55_lost_digit_violated). IPv6 text is produced by asio and not modelled."
  },
  {
   "property": "C56",
   "status": "partial",
   "theorems": [
    "Verif.C56_announce_partial",
    "Verif.C56_announces_node_id_violated",
    "Verif.C56_not_found_violated"
   ],
   "note": "Accepting and storing an announce proved on bytes; the client announces the id of the answering node instead of the hash."
  },
  {
   "property": "C57",
   "status": "partial",
   "theorems": [
    "Verif.C57_reads_partial",
    "Verif.C57_nodes_violated",
    "Verif.C57_values_violated",
    "Verif.C57_token_violated",
    "Verif.C57_error_violated",
    "Verif.C57_memory_violated",
    "Verif.C57_uninitialised_violated"
   ],
   "note": "Exact for all messages in which everything of fixed size has its size; false for others."
  },
  {
   "property": "C58",
   "status": "partial",
   "theorems": [
    "Verif.C58_answers",
    "Verif.C58_reply_wellformed",
    "Verif.C58_negative_size_violated"
   ],
   "note": "Functional specification for every bencoded message; well-formedness of whatever is sent for every packet. A datagram with a transaction length of 2^32-1 makes the node copy a range of length -1."
  },
  {
   "property": "C59",
   "status": "partial",
   "theorems": [
    "Verif.C59_bounded",
    "Verif.C59_closest_partial",
    "Verif.C59_neighbour_violated"
   ],
   "note": "Bounds, uniqueness and activity proved for every table; closeness on the logarithmic scale for nodes at distance 2 or more from the own id. Nodes nearer than that are never given."
  },
  {
   "property": "C60",
   "status": "partial",
   "theorems": [
    "Verif.C60_get_peers_partial",
    "Verif.C60_find_node_partial",
    "Verif.C60_ping",
    "Verif.C60_ipv6_violated"
   ],
   "note": "Query, reply and reading composed on bytes, for IPv4 nodes; ping without restriction; false with IPv6 nodes."
  },
  {
   "property": "C61",
   "status": "partial",
   "theorems": [
    "Verif.C61_reads_partial",
    "Verif.C61_waits",
    "Verif.C61_refused",
    "Verif.C61_overrun_violated",
    "Verif.C61_split_violated"
   ],
   "note": "Exact reading, waiting and refusal are proved for headers that arrived whole with a Content-Length. Missing: chunked replies (only their first chunk is read, see C43); peers in a list of dictionaries and IPv6 peers, which the code ignores; numbers from 2^31. False for lengths near 2^32 and for headers that arrive in parts."
  },
  {
   "property": "C62",
   "status": "partial",
   "theorems": [
    "Verif.C62_complete_partial",
    "Verif.C62_wrap_violated",
    "Verif.C62_duplicates_violated"
   ],
   "note": "Histories in which numbers do not pass 65535 (violated there) and the code does not run out of buffers (violated: endless loop)."
  },
  {
   "property": "C63",
   "status": "proved",
   "theorems": [
    "Verif.C63_memory",
    "Verif.C63_numbers"
   ],
   "note": "Every history allowed by Orderly (16-bit numbers as read from datagrams, no write before the peer answers, a posted close runs before the next timer call; an example shows the last is needed). The search for a free buffer that never ends with 65536 buffers in use (C62_duplicates_violated) is no memory error and is not excluded here."
  },
  {
   "property": "C64",
   "status": "partial",
   "theorems": [
    "Verif.C64_selective",
    "Verif.C64_ack",
    "Verif.C64_complete_partial",
    "Verif.C64_wrap_violated"
   ],
   "note": "Nothing is acknowledged that has not arrived: C64_selective for every history, C64_ack for the histories of C30 (faithful peer, from an open stream on). That everything near the ack is named is proved while numbers do not pass 65535. Violated where they do: behind a packet 0 that came early (C62_wrap_violated) nothing is named."
  },
  {
   "property": "C65",
   "status": "partial",
   "theorems": [
    "Verif.C65_parts_partial",
    "Verif.C65_ipv6_violated"
   ],
   "note": "Round trip for every protocol, host, port and path that can be told apart; false for hosts with ':' (IPv6 literals)."
  },
  {
   "property": "C66",
   "status": "partial",
   "theorems": [
    "Verif.C66_safe_partial",
    "Verif.C66_one_partial",
    "Verif.C66_stopped_partial",
    "Verif.C66_interval",
    "Verif.C66_retry",
    "Verif.C66_fallback",
    "Verif.C66_moved_violated",
    "Verif.C66_forgotten_violated",
    "Verif.C66_late_start_violated",
    "Verif.C66_refresh_violated"
   ],
   "note": "Proved for orderly histories (trackers added and started while stopped, no stop while a start or restart is posted, no manual refresh), with everything else in any order. Outside of them false: four witnesses."
  },
  {
   "property": "C67",
   "status": "partial",
   "theorems": [
    "Verif.C67_request_partial",
    "Verif.C67_headers_partial",
    "Verif.C67_query_violated",
    "Verif.C67_nopath_violated"
   ],
   "note": "Proved for paths without a query of their own and without spaces and line ends: what a server reads are exactly the fields, values and headers. Violated: if the URL of the tracker has a query (?passkey=...) the request has two question marks and no field info_hash; if it has no path the request has no leading slash."
  },
  {
   "property": "C68",
   "status": "partial",
   "theorems": [
    "Verif.C68_memory_partial",
    "Verif.C68_content_partial",
    "Verif.C68_overflow_violated",
    "Verif.C68_usual_overflow_violated",
    "Verif.C68_stale_violated"
   ],
   "note": "Proved for torrents in which no file ends at the end of a piece: no request of any peer reaches outside the buffer, and blocks inside the torrent are sent with the content of the files. False otherwise: a file starting inside a piece and ending with it makes a plain request overrun the buffer; requests for pieces that do not exist send what is left in the buffer."
  },
  {
   "property": "C69",
   "status": "partial",
   "theorems": [
    "Verif.C69_safe_partial",
    "Verif.C69_have_violated",
    "Verif.C69_have_max_violated",
    "Verif.C69_block_violated",
    "Verif.C69_bitfield_violated",
    "Verif.C69_early_violated",
    "Verif.C69_blocks_violated",
    "Verif.C69_counted_violated"
   ],
   "note": "Proved for all histories in which peers send nothing before the handshake, one bitfield long enough, `have` of pieces the torrent has, and blocks that begin inside their piece, for torrents of pieces of at most 65535 blocks. Violated: `have` past the last piece, `have` of 2^32-1, a block that begins past the end of its piece, a bitfield too short, `have` before the handshake, pieces of 65536 blocks."
  },
  {
   "property": "C70",
   "status": "partial",
   "theorems": [
    "Verif.C70_exact_partial",
    "Verif.C70_other_partial",
    "Verif.C70_size_violated",
    "Verif.C70_reserve_violated"
   ],
   "note": "Every bencoded dictionary is read exactly and other values are ignored. Violated for a text with size 4294967295."
  },
  {
   "property": "C71",
   "status": "partial",
   "theorems": [
    "Verif.C71_introduced_partial",
    "Verif.C71_unable_partial",
    "Verif.C71_malformed_partial",
    "Verif.C71_unknown_partial",
    "Verif.C71_told_partial",
    "Verif.C71_sought_partial",
    "Verif.C71_crash_violated",
    "Verif.C71_short_violated",
    "Verif.C71_self_violated",
    "Verif.C71_silent_violated",
    "Verif.C71_family_violated"
   ],
   "note": "Proved for whole messages among connections of one address family: the introduction (exactly the two messages), the error when the other is not connected, what the peer that is told does, and when help is sought. Violated: a peer that did not announce the extension makes the program use a null pointer by asking; an error message without a number is read behind its end; a peer may be introduced to itself; no answer when the other does not support it; an IPv6 address is taken for an IPv4 peer with the same first bytes."
  },
  {
   "property": "C72",
   "status": "partial",
   "theorems": [
    "Verif.C72_read_partial",
    "Verif.C72_other_partial",
    "Verif.C72_own_partial",
    "Verif.C72_routed_partial",
    "Verif.C72_address_violated",
    "Verif.C72_list_violated",
    "Verif.C72_text_violated"
   ],
   "note": "Proved for every handshake that is a bencoded value, with numbers (without sign) in the dictionary m, and for the handshake of the client itself: framing, numbers, client, metadata size, answer. Violated: the address of the peer is sent as text but read as four bytes; a list or dictionary in m makes the program read a null pointer; a text in m is taken for a number together with what follows it."
  },
  {
   "property": "C73",
   "status": "partial",
   "theorems": [
    "Verif.C73_paced_partial",
    "Verif.C73_twice_violated"
   ],
   "note": "Proved when no peer comes up twice in a list and incoming peers were not known. Violated: a peer named twice by a tracker is dialled twice at once."
  },
  {
   "property": "C74",
   "status": "partial",
   "theorems": [
    "Verif.C74_saved_partial",
    "Verif.C74_metadata_partial",
    "Verif.C74_plain_partial",
    "Verif.C74_magnet_violated",
    "Verif.C74_paths_partial",
    "Verif.C74_names_violated",
    "Verif.C74_trackers_violated"
   ],
   "note": "Proved: a file that was read, with any trackers added, is saved and read back as exactly the same torrent; likewise the info dictionary that a link got from peers with the trackers of the link. Violated: a link without metadata is saved with piece length 0, and reading it divides by zero; an info of several files whose bytes were not kept loses the names; a tracker beside an empty list of trackers is added to the list."
  },
  {
   "property": "C75",
   "status": "partial",
   "theorems": [
    "Verif.C75_written_partial",
    "Verif.C75_attribute_violated",
    "Verif.C75_empty_violated",
    "Verif.C75_text_violated"
   ],
   "note": "Proved for every tree of elements with text or CDATA, names of letters, no empty node, fewer than 65536 parsed elements, text without < and CDATA without ]]>: every path is found exactly if it was written and shows its value. Violated: with attributes value() returns the attribute's value; value() of an empty last element reads past the vector; text is not escaped. isspace of a negative char is taken as false."
  },
  {
   "property": "C76",
   "status": "proved",
   "theorems": [
    "Verif.C76_sha1",
    "Verif.C76_parts"
   ],
   "note": "For every message, in one part or several. The length in bits is taken modulo 2^64 in the program and in the standard as written down here, which defines it up to that length only."
  },
  {
   "property": "C77",
   "status": "partial",
   "theorems": [
    "Verif.C77_exchange_partial",
    "Verif.C77_pieces_violated",
    "Verif.C77_plain_violated"
   ],
   "note": "Proved for the whole exchange between two instances of the program, for all private keys, paddings and initial messages, message 3 in any pieces, for secrets for which the lookup of C29 works and with the key messages and message 4 each in one piece: what either end writes the other reads, in any portions and pieces. Violated: when padding arrives before message 4 by itself the initiator advances its key stream and never understands the answer; a listener that answers that plain text is chosen goes on decrypting."
  },
  {
   "property": "C78",
   "status": "partial",
   "theorems": [
    "Verif.C78_read_partial",
    "Verif.C78_info_partial",
    "Verif.C78_many_files_violated",
    "Verif.C78_name_violated",
    "Verif.C78_length_violated"
   ],
   "note": "Proved for every file with fewer than 65536 values, no value that is the text info, names without a zero, non-empty paths and numbers that fit: all fields, for files and for info dictionaries alone. Violated: a torrent with 9362 or more files in folders makes the parser write in front of its memory; a name with a zero; a piece length of 2^32 divides by zero."
  },
  {
   "property": "C79",
   "status": "partial",
   "theorems": [
    "Verif.C79_location_partial",
    "Verif.C79_fetch",
    "Verif.C79_request",
    "Verif.C79_path_violated",
    "Verif.C79_location_violated",
    "Verif.C79_length_violated",
    "Verif.C79_stop_violated",
    "Verif.C79_empty_violated",
    "Verif.C79_control_violated"
   ],
   "note": "Proved: locations of the usual form are understood from the whole datagram; the description is asked for there; requests have the control URL, the right length and the right contents. Reading of a description is proved only by an example. Violated: paths are put in capitals; short locations, locations without a port, a length near 4 GB, an empty friendlyName, and a late description after the search is stopped end the program or leave its memory; relative control URLs and other versions of the service."
  },
  {
   "property": "C80",
   "status": "partial",
   "theorems": [
    "Verif.C80_known_partial",
    "Verif.C80_asked_partial",
    "Verif.C80_settles_partial",
    "Verif.C80_wishes",
    "Verif.C80_routers_violated",
    "Verif.C80_refused_violated",
    "Verif.C80_waiting_violated"
   ],
   "note": "Proved for one router, any number of its devices and any order of events: the program's list is the router's, requests are the right ones, and granting in any order settles within wishes + mappings + 3 requests. Violated: with two routers the requests never end and the ports are not forwarded; a refused request is repeated at once for ever; connections that stay open, as the requests ask for, block all others."
  },
  {
   "property": "C81",
   "status": "partial",
   "theorems": [
    "Verif.C81_received_partial",
    "Verif.C81_listening_partial",
    "Verif.C81_shown_partial",
    "Verif.C81_sent_partial",
    "Verif.C81_all_sent_partial",
    "Verif.C81_error_partial",
    "Verif.C81_over_partial",
    "Verif.C81_time_violated",
    "Verif.C81_addresses_violated",
    "Verif.C81_quota_violated",
    "Verif.C81_threads_violated"
   ],
   "note": "Proved for every order of events: what is used, shown and kept is what arrived; connections always wait for data with room for it or for bandwidth; messages go out whole and in order. Violated: in the seconds that are multiples of 2^29 receiving divides by zero; only the first address of a host is tried; granted bandwidth that was not used is lost; a write by another thread while being connected makes the socket write two messages at once."
  },
  {
   "property": "C82",
   "status": "proved",
   "theorems": [
    "Verif.C82_stream",
    "Verif.C82_shown",
    "Verif.C82_modest",
    "Verif.C82_shake"
   ],
   "note": "For every handshake that does not use more than it is given, which is proved of the program's."
  },
  {
   "property": "C83",
   "status": "partial",
   "theorems": [
    "Verif.C83_reached_partial",
    "Verif.C83_policy_partial",
    "Verif.C83_told_partial",
    "Verif.C83_answered_partial",
    "Verif.C83_plain_again_partial",
    "Verif.C83_one_way_partial",
    "Verif.C83_endless_violated",
    "Verif.C83_plain_violated",
    "Verif.C83_early_violated",
    "Verif.C83_lost_violated"
   ],
   "note": "Proved for all settings and all peers that stay as they are: reached if allowed, at most three connections. Violated: a peer that closed the plain connection and is then gone is tried again at once without end; with encryption required, a peer that chooses plain text is talked to in plain text, and what is written before the handshake is over goes out in plain text; of several messages written before the plain connection is closed only the first is kept."
  },
  {
   "property": "C84",
   "status": "partial",
   "theorems": [
    "Verif.C84_plain_partial",
    "Verif.C84_encrypted_partial",
    "Verif.C84_answers_partial",
    "Verif.C84_whole_partial",
    "Verif.C84_cut_violated",
    "Verif.C84_kept_violated",
    "Verif.C84_message_violated",
    "Verif.C84_policy_violated"
   ],
   "note": "Proved: plain handshakes cut anywhere but between their 20th and 68th byte; encrypted handshakes for torrents that run; they use all that arrived. Violated: plain handshakes cut between the 20th and the 68th byte are refused; encrypted connections for torrents that do not run are neither handed on nor closed and pile up data; an incomplete message in the encrypted handshake is lost; the setting for encryption is not looked at."
  },
  {
   "property": "C85",
   "status": "partial",
   "theorems": [
    "Verif.C85_all_partial",
    "Verif.C85_sender_partial",
    "Verif.C85_together_partial",
    "Verif.C85_sender_violated",
    "Verif.C85_empty_violated",
    "Verif.C85_cut_violated"
   ],
   "note": "Proved: datagrams of at most 2048 bytes are handed on once, whole and in order, whoever sent them; with the right address if all in the socket have one sender. Violated: of datagrams of two senders in the socket at once, those of the first are handed on with the address of the second, also if that one is empty; a datagram that does not fit behind others is cut off."
  },
  {
   "property": "C86",
   "status": "partial",
   "theorems": [
    "Verif.C86_answers_partial",
    "Verif.C86_empty_violated",
    "Verif.C86_sent_partial",
    "Verif.C86_named_partial",
    "Verif.C86_origin_partial",
    "Verif.C86_again_partial",
    "Verif.C86_silent_partial",
    "Verif.C86_lost_violated",
    "Verif.C86_closed_violated",
    "Verif.C86_target_violated"
   ],
   "note": "Proved: messages written one after another, the second one when the socket is connected; lookups; origin and target of everything that is sent, for all histories; answers that are not empty. Violated: of two messages written before the socket is connected the first is lost and the second sent twice; behind an empty datagram nothing is read any more; a closed request sends again; a request to all goes to the one that answered when it is sent again."
  },
  {
   "property": "C87",
   "status": "partial",
   "theorems": [
    "Verif.C87_reach_partial",
    "Verif.C87_only_partial",
    "Verif.C87_rest_partial",
    "Verif.C87_open_partial",
    "Verif.C87_twice_violated"
   ],
   "note": "Proved for all connections of which there is one with the number and the address, and for all batches of datagrams. Violated: a request that arrives twice opens a second connection, which never gets anything."
  },
  {
   "property": "C88",
   "status": "partial",
   "theorems": [
    "Verif.C88_once_partial",
    "Verif.C88_answer_partial",
    "Verif.C88_fail_partial",
    "Verif.C88_stop_partial",
    "Verif.C88_again_violated",
    "Verif.C88_stale_violated",
    "Verif.C88_rest_violated",
    "Verif.C88_cut_violated"
   ],
   "note": "Proved: with requests one at a time none ends twice; a request over a new connection is answered for every cut of the reply whose first parts are recognised as incomplete, and fails once otherwise. Violated: after the first answer and the end of the connection the stream is kept and never connects again, so the next request hangs for ever; after a bad reply the old connection makes the next request fail; bytes behind a chunked reply spoil the next one; a reply cut inside a header line makes reading endless. Handlers run one after another in the model."
  },
  {
   "property": "C89",
   "status": "partial",
   "theorems": [
    "Verif.C89_once_partial",
    "Verif.C89_answer_partial",
    "Verif.C89_further_partial",
    "Verif.C89_fail_partial",
    "Verif.C89_short_violated",
    "Verif.C89_multiple_violated",
    "Verif.C89_again_violated",
    "Verif.C89_part_violated",
    "Verif.C89_port_violated"
   ],
   "note": "Proved: with requests one at a time none ends twice; first requests and further requests over the same connection are answered if the reply comes in full blocks of 512 bytes and a shorter last one; failures of every step are told once. Violated: a block shorter than 512 bytes before the end leaves the request hanging; a reply of a multiple of 512 bytes fails; after the server ended the connection no request succeeds any more; a request taken in part is not completed; the port of the URL is ignored. OpenSSL and the socket are the world around; that connecting a connected socket fails is assumed. Certificates are not verified (verify_none)."
  },
  {
   "property": "C90",
   "status": "partial",
   "theorems": [
    "Verif.C90_below_partial",
    "Verif.C90_distinct_partial",
    "Verif.C90_location_partial",
    "Verif.C90_up_violated",
    "Verif.C90_same_violated"
   ],
   "note": "Proved for names that are names (not empty, \".\", \"..\", no separator, no zero). Violated: names are taken from the torrent file unchecked, so \"..\" and separators lead out of the location, and two files may be at one place. Links and relative locations are not modelled; the separator is that of Linux."
  },
  {
   "property": "C91",
   "status": "partial",
   "theorems": [
    "Verif.C91_moved_partial",
    "Verif.C91_moves_partial",
    "Verif.C91_occupied_partial",
    "Verif.C91_failed_partial",
    "Verif.C91_kept_partial",
    "Verif.C91_single_violated",
    "Verif.C91_new_violated"
   ],
   "note": "Proved for folders that are there: what success and failure mean, and that torrents of more files are moved. Violated: a torrent of one file is never moved to a folder without such a file (file_size of what is not there is all ones and read as not empty); a new folder is made but the files stay behind, with success. Errors of the disk, permissions and moving between disks (rename fails) are not modelled."
  },
  {
   "property": "C92",
   "status": "partial",
   "theorems": [
    "Verif.C92_gone_partial",
    "Verif.C92_folder_partial",
    "Verif.C92_others_partial",
    "Verif.C92_foreign_violated",
    "Verif.C92_noname_violated",
    "Verif.C92_up_violated",
    "Verif.C92_left_violated"
   ],
   "note": "Proved: no file of the torrent is left, and nothing outside of the places of the files and the folder by the torrent's name changes. Violated: everything else in this folder is deleted too; a torrent without name deletes its whole location, one named \"..\" what is above it; the folder of a torrent of one file stays."
  },
  {
   "property": "C93",
   "status": "partial",
   "theorems": [
    "Verif.C93_room_partial",
    "Verif.C93_allocated_partial",
    "Verif.C93_mount_violated",
    "Verif.C93_folder_violated"
   ],
   "note": "Proved for systems with the same room everywhere and no folder at the place of a file. Violated: the room is asked of the root folder, not of the location; a folder at the place of a file counts as all ones bytes. The sizes of the selection are C94."
  },
  {
   "property": "C94",
   "status": "partial",
   "theorems": [
    "Verif.C94_selection_partial",
    "Verif.C94_file_partial",
    "Verif.C94_empty_violated",
    "Verif.C94_last_violated"
   ],
   "note": "Proved for torrents of files that are not empty. Violated: a selected empty file makes its neighbours need room; an empty file at the end of a torrent whose data ends with a full piece makes the program look up a piece that does not exist (undefined behaviour), whatever is selected."
  },
  {
   "property": "C95",
   "status": "partial",
   "theorems": [
    "Verif.C95_told_partial",
    "Verif.C95_first_partial",
    "Verif.C95_deselected_violated"
   ],
   "note": "Proved for histories in which the change of the selection and the refresh of the requests are one event. Violated: a piece completed between the two is never checked and peers that are connected are never told of it, though it counts as received."
  },
  {
   "property": "C96",
   "status": "partial",
   "theorems": [
    "Verif.C96_few_partial",
    "Verif.C96_active_partial",
    "Verif.C96_uploads_partial",
    "Verif.C96_least_partial",
    "Verif.C96_some_partial",
    "Verif.C96_every_partial",
    "Verif.C96_below_violated"
   ],
   "note": "Age, protection of active peers and of five uploads, the order and that one is closed are proved. Violated: up to five idle connections are closed though only one is above the limit, so that fewer remain than allowed. Closing itself is modelled elsewhere."
  },
  {
   "property": "C97",
   "status": "partial",
   "theorems": [
    "Verif.C97_serves_partial",
    "Verif.C97_any_partial",
    "Verif.C97_exchange_partial",
    "Verif.C97_wraps_violated"
   ],
   "note": "Proved for piece numbers below 2^18, including the exchange of all pieces between two programs as bytes. Violated: the offset is computed in 32 bits, so a request for piece 2^18 is answered with the bytes of piece 0 as those of piece 2^18."
  },
  {
   "property": "C98",
   "status": "partial",
   "theorems": [
    "Verif.C98_done_partial",
    "Verif.C98_waits_partial",
    "Verif.C98_retry_partial",
    "Verif.C98_useless_partial",
    "Verif.C98_patience_partial",
    "Verif.C98_liar_violated"
   ],
   "note": "Proved for histories in which all peers tell the right size. Violated: the size told by the first peer is kept for ever, so one wrong size makes the download never finish, whatever other peers answer and even after the liar has left. Finding peers and the connections themselves are modelled elsewhere."
  },
  {
   "property": "C99",
   "status": "partial",
   "theorems": [
    "Verif.C99_searching_partial",
    "Verif.C99_interval_partial",
    "Verif.C99_others_partial",
    "Verif.C99_old_violated",
    "Verif.C99_count_violated",
    "Verif.C99_counted_partial",
    "Verif.C99_stopped_partial",
    "Verif.C99_refresh_partial"
   ],
   "note": "Proved: while it says searching a query runs and found peers arrive, the interval is kept, a refresh searches at once, a stopped torrent begins no query and takes no peers, torrents do not disturb each other, new peers are always counted. Violated: the end of a query given up earlier ends the later search of the same torrent, whose finds are then dropped; and the source returns its total ever found, which the query adds up, so searches end early."
  }
 ]
}

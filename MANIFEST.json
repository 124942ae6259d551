{
 "claims": [
  {
   "property": "C01",
   "status": "proved",
   "theorems": [
    "Gust.C01_size_field_roundtrip",
    "Gust.C01_size_field_reader_spec",
    "Gust.C01_size_field_writer_spec"
   ],
   "note": "Round trip for all sizes < 2^64 and all following bytes; reader and writer also characterised against an independent specification."
  },
  {
   "property": "C02",
   "status": "proved",
   "theorems": [
    "Gust.C02_entry_header_roundtrip",
    "Gust.C02_entry_header_spec"
   ],
   "note": "Round trip for every type and size < 2^61 (the most the reader's u64 arithmetic carries) with any following bytes; header format spec."
  },
  {
   "property": "C03",
   "status": "partial",
   "theorems": [
    "Gust.C03_offset_roundtrip_partial",
    "Gust.C03_offset_roundtrip_false",
    "Gust.C03_offset_roundtrip_iff",
    "Gust.C03_offset_reader_spec",
    "Gust.C03_offset_release_overshoots"
   ],
   "note": "False of the code: the writer does not subtract one per continuation group where git's format requires it. C03_offset_roundtrip_iff gives exactly the distances that survive; the negation has a concrete witness."
  },
  {
   "property": "C04",
   "status": "proved",
   "theorems": [
    "Gust.C04_hash_roundtrip",
    "Gust.C04_hash_accepts_iff",
    "Gust.C04_hash_case"
   ],
   "note": "Round trip, acceptance iff 40 hex digits, equality up to case."
  },
  {
   "property": "C05",
   "status": "proved",
   "theorems": [
    "Gust.C05_preimage_format",
    "Gust.C05_preimage_injective",
    "Gust.C05_same_id_or_collision"
   ],
   "note": "Pre-image format and injectivity; SHA-1 is an arbitrary function, so equal ids mean equal objects or a SHA-1 collision."
  },
  {
   "property": "C06",
   "status": "proved",
   "theorems": [
    "Gust.C06_loose_roundtrip",
    "Gust.C06_loose_path_injective",
    "Gust.C06_loose_store_history"
   ],
   "note": "Round trip through a file map, for any history of writes; paths injective. zlib is abstract (inflate after deflate is the identity)."
  },
  {
   "property": "C07",
   "status": "proved",
   "theorems": [
    "Gust.C07_type_codes",
    "Gust.C07_number_accepts",
    "Gust.C07_name_accepts"
   ],
   "note": "Numbers and names of types, acceptance iff."
  },
  {
   "property": "C08",
   "status": "proved",
   "theorems": [
    "Gust.C08_tree_roundtrip",
    "Gust.C08_tree_reencode",
    "Gust.C08_tree_accepts_iff"
   ],
   "note": "Both directions and exact set of accepted byte strings."
  },
  {
   "property": "C09",
   "status": "proved",
   "theorems": [
    "Gust.C09_sign_roundtrip",
    "Gust.C09_sign_format",
    "Gust.C09_sign_injective",
    "Gust.C09_stable"
   ],
   "note": "Round trip for all representable identities; format and injectivity; every line the parser accepts is written back so that it is read the same (C09_stable)."
  },
  {
   "property": "C10",
   "status": "partial",
   "theorems": [
    "Gust.C10_commit_roundtrip_partial",
    "Gust.C10_commit_parents_partial",
    "Gust.C10_commit_roundtrip_iff",
    "Gust.C10_commit_roundtrip_false",
    "Gust.C10_stable"
   ],
   "note": "False of the code for merges: every parent is read as the first parent. Proved: round trip for <= 1 parent, exact characterisation (survives iff all parents equal), negation with witness. Every commit the parser accepts, well-formed or not, is written back so that it is read the same (C10_stable)."
  },
  {
   "property": "C11",
   "status": "partial",
   "theorems": [
    "Gust.C11_tag_roundtrip_iff",
    "Gust.C11_tag_roundtrip_partial",
    "Gust.C11_tag_no_newline_panics",
    "Gust.C11_tag_roundtrip_false",
    "Gust.C11_stable"
   ],
   "note": "False of the code when the message does not start with a line feed (text lost, or panic). Exact iff proved. Every tag the parser accepts is written back so that it is read the same (C11_stable)."
  },
  {
   "property": "C12",
   "status": "partial",
   "theorems": [
    "Gust.C12_generated_delta_partial",
    "Gust.C12_generated_delta_false"
   ],
   "note": "False for copies of 2^24 bytes or more (C12_generated_delta_false, 16 MiB witness); proved for every valid edit script when the old object is < 16 MiB, or the new one is and the old one is <= 4 GiB."
  },
  {
   "property": "C13",
   "status": "proved",
   "theorems": [
    "Gust.C13_apply_delta_iff",
    "Gust.C13_output_unique",
    "Gust.C13_no_foreign_bytes"
   ],
   "note": "Success iff the delta has a meaning in an independent specification of the format; output, type, uniqueness and provenance of bytes."
  },
  {
   "property": "C14",
   "status": "proved",
   "theorems": [
    "Gust.C14_generated_delta_wellformed"
   ],
   "note": "For every valid edit script (non-empty equal/insert ranges) and all sizes."
  },
  {
   "property": "C15",
   "status": "proved",
   "theorems": [
    "Gust.C15_pkt_roundtrip",
    "Gust.C15_pkt_format",
    "Gust.C15_pkt_limit_sharp"
   ],
   "note": "Round trip through the server's own reader and writer for every payload up to 65531 bytes and any following bytes; the bytes written are the protocol's packet; the limit is sharp."
  },
  {
   "property": "C16",
   "status": "proved",
   "theorems": [
    "Gust.C16_stream_roundtrip",
    "Gust.C16_stream_format"
   ],
   "note": "Any sequence of flush and data packets, read back both by the server's reader and by an independent reader."
  },
  {
   "property": "C17",
   "status": "proved",
   "theorems": [
    "Gust.C17_sideband"
   ],
   "note": "All ways of cutting the pack into reads of at most 65500 bytes; independent demultiplexer; packet size bound."
  },
  {
   "property": "C18",
   "status": "partial",
   "theorems": [
    "Gust.C18_exact",
    "Gust.C18_fetch_terminates_partial",
    "Gust.C18_fetch_dichotomy",
    "Gust.C18_fetch_no_done_spins",
    "Gust.C18_fetch_terminates_false"
   ],
   "note": "False of the code: a body without a `done` line makes the read loop run forever (C18_fetch_terminates_false, C18_fetch_no_done_spins). Proved: well-formed bodies with `done` are processed within one step per packet, and for every body whatsoever the loop either ends within length+1 steps or never. C18_exact: exactly which byte strings are never answered."
  },
  {
   "property": "C19",
   "status": "proved",
   "theorems": [
    "Gust.C19_fetch_negotiation"
   ],
   "note": "Induction over any list of want/have/flush/other lines before `done`."
  },
  {
   "property": "C20",
   "status": "partial",
   "theorems": [
    "Gust.C20_acks_partial",
    "Gust.C20_acks_false"
   ],
   "note": "False of the code: a hard-coded id is acknowledged whenever the client sends a have (C20_acks_false). Proved: every other acknowledged id was named by the client and is in storage, except wanted ids when no-done was negotiated."
  },
  {
   "property": "C21",
   "status": "proved",
   "theorems": [
    "Gust.C21_capabilities_iff",
    "Gust.C21_words_exist",
    "Gust.C21_order_independent"
   ],
   "note": "Membership characterised exactly, white space being Unicode White_Space as in Rust's trim; order/repetition independence as corollary."
  },
  {
   "property": "C22",
   "status": "proved",
   "theorems": [
    "Gust.C22_ref_command_type"
   ],
   "note": "Classification iff for all three kinds, fields recorded unchanged."
  },
  {
   "property": "C23",
   "status": "partial",
   "theorems": [
    "Gust.C23_ref_name_partial",
    "Gust.C23_ref_name_false"
   ],
   "note": "False of the code: the NUL before the capabilities stays in the name (C23_ref_name_false). Proved: exactly what is recorded for every well-formed first command line (ids exact, name plus NUL)."
  },
  {
   "property": "C24",
   "status": "partial",
   "theorems": [
    "Gust.C24_single_command_partial",
    "Gust.C24_two_commands_lost",
    "Gust.C24_delete_lost",
    "Gust.C24_all_commands_false",
    "Gust.C24_several_lost",
    "Gust.C24_several_server",
    "Gust.C24_ssh_first_only"
   ],
   "note": "False of the code for every push of more than one ref over HTTP, in every state: nothing is stored and no ref changed, any answer is an end of the request (C24_several_lost, C24_several_server); over SSH the first command alone counts and the others are sent back (C24_ssh_first_only). A deletion without pack is never executed (C24_delete_lost). Proved: a single command with a pack is executed."
  },
  {
   "property": "C25",
   "status": "proved",
   "theorems": [
    "Gust.C25_single_push",
    "Gust.C25_bad_pack_fails"
   ],
   "note": "For every storage (abstract), ids and pack bytes exact; failure of unpacking leaves refs untouched."
  },
  {
   "property": "C26",
   "status": "partial",
   "theorems": [
    "Gust.C26_durable_partial",
    "Gust.C26_insert_errors_swallowed",
    "Gust.C26_durable_false"
   ],
   "note": "If the inserts of commits and refs are accepted: after an answered push of one ref every commit and everything reachable is stored exactly, nothing stored is lost, the ref is created or moved. False: failing inserts of commits and refs are ignored and reported as success (general theorem and witness)."
  },
  {
   "property": "C27",
   "status": "proved",
   "theorems": [
    "Gust.C27_pack_roundtrip",
    "Gust.C27_reencode_decoded"
   ],
   "note": "Every list of objects below the 32-bit limits whose ids do not collide; also re-encoding a decoded pack."
  },
  {
   "property": "C28",
   "status": "partial",
   "theorems": [
    "Gust.C28_delta_pack_partial",
    "Gust.C28_small_delta_pack_partial",
    "Gust.C28_delta_pack_false"
   ],
   "note": "False of the code: at distances the offset writer gets wrong (C03) the dev build panics and the release build writes a pack that does not decode (concrete witness, both profiles). Proved: whenever the overflow-checked encoder succeeds, all builds write the same pack and it decodes to exactly the same objects, for any similarity rates and correct edit scripts; packs of at most 16384 bytes always succeed. Objects below 16 MiB (C12)."
  },
  {
   "property": "C29",
   "status": "proved",
   "theorems": [
    "Gust.C29_header_iff",
    "Gust.C29_header_roundtrip"
   ],
   "note": "Acceptance iff the twelve bytes are a valid header, against an independent description; round trip."
  },
  {
   "property": "C30",
   "status": "partial",
   "theorems": [
    "Gust.C30_cut_partial",
    "Gust.C30_any_trailer_accepted",
    "Gust.C30_damaged_pack_rejected_false",
    "Gust.C30_truncated_trailer_partial",
    "Gust.C30_signature_from_file"
   ],
   "note": "False of the code: the trailing checksum is never compared, so a damaged pack decodes (witness). Proved: any 20-byte trailer is accepted with the same objects, a shortened trailer is rejected, a pack of which the end is missing, however much of it, is rejected (C30_cut_partial), the reported signature is the one in the file."
  },
  {
   "property": "C31",
   "status": "partial",
   "theorems": [
    "Gust.C31_zero_distance_loops",
    "Gust.C31_decode_terminates_false",
    "Gust.C31_decode_terminates_partial",
    "Gust.C31_dichotomy"
   ],
   "note": "False of the code: an offset delta with distance 0 recurses forever (witness). Proved: decoding stops for every input in which no announced entry, nor a base it leads to, has distance 0; every well-formed pack is such (wellformed_no_self_delta). For every byte string whatsoever (C31_dichotomy) decoding either ends with recursion no deeper than the file is long, or never ends."
  },
  {
   "property": "C32",
   "status": "proved",
   "theorems": [
    "Gust.C32_cache_consistent",
    "Gust.C32_colliding_ids",
    "Gust.C32_cache_sorted"
   ],
   "note": "Invariant over any history of insertions; without the no-collision premise the statement is shown to fail (C32_colliding_ids)."
  },
  {
   "property": "C33",
   "status": "partial",
   "theorems": [
    "Gust.C33_add_loose_partial",
    "Gust.C33_empty_false"
   ],
   "note": "Proved: adding loose objects to a pack gives a pack that decodes to the old objects followed by the loose ones. False for an empty list of loose objects: panics."
  },
  {
   "property": "C34",
   "status": "proved",
   "theorems": [
    "Gust.C34_index_lookup",
    "Gust.C34_index_points_at_object"
   ],
   "note": "For packs of fewer than 2^32 objects at offsets below 2^32 (the decoder guarantees both). Looking up an id that is not in the index panics rather than returning \"not found\"; C34_index_lookup states when a lookup returns."
  },
  {
   "property": "C35",
   "status": "proved",
   "theorems": [
    "Gust.C35_fanout_table",
    "Gust.C35_prefix_counts"
   ],
   "note": ""
  },
  {
   "property": "C36",
   "status": "proved",
   "theorems": [
    "Gust.C36_each_object_once",
    "Gust.C36_schedule_independent",
    "Gust.C36_always_completes",
    "Gust.C36_fails_iff"
   ],
   "note": "Every interleaving of lock/read/write/unlock steps of any number of threads. If some object cannot be decoded the whole call panics, for every schedule (C36_fails_iff)."
  },
  {
   "property": "C37",
   "status": "partial",
   "theorems": [
    "Gust.C37_check_partial",
    "Gust.C37_accepts_only_empty_trees",
    "Gust.C37_check_false",
    "Gust.C37_commit_tree_unchecked",
    "Gust.C37_write_never_succeeds"
   ],
   "note": "False of the code: the table of known ids is never filled, so after decoding only sets with empty trees are accepted; trees of commits are not checked; Pack::write panics for every input. C37_check_partial says what the check does for an arbitrary table."
  },
  {
   "property": "C38",
   "status": "partial",
   "theorems": [
    "Gust.C38_by_index_partial",
    "Gust.C38_result_always_empty",
    "Gust.C38_by_index_false",
    "Gust.C38_ref_delta_false"
   ],
   "note": "False of the code: the returned pack never contains objects (C38_result_always_empty). C38_by_index_partial: the internal loop decodes the same objects, for packs without deltas against ids; false for those too: the index is in the order of ids, a delta may come before its base and decoding panics (C38_ref_delta_false)."
  },
  {
   "property": "C39",
   "status": "partial",
   "theorems": [
    "Gust.C39_objects_available_partial",
    "Gust.C39_count_always_zero",
    "Gust.C39_count_false"
   ],
   "note": "False of the code for the count (always 0). Availability of all objects is proved for every list of well-formed packs."
  },
  {
   "property": "C40",
   "status": "partial",
   "theorems": [
    "Gust.C40_sequential_partial",
    "Gust.C40_conflict",
    "Gust.C40_create",
    "Gust.C40_apart_serial",
    "Gust.C40_apart_partial",
    "Gust.C40_concurrent_false",
    "Gust.C40_refused_false",
    "Gust.C40_first_false",
    "Gust.C40_served_partial"
   ],
   "note": "Proved for every history in which requests for the same ref do not overlap (C40_apart_partial; C40_sequential_partial for purely sequential histories), including the conflict answer. False when two creations overlap (C40_concurrent_false). C40_refused_false: a creation for a path nobody has locked can be refused with 500 when the last other lock is removed at the same time. C40_first_false: of the first two locks of a repository, created at the same time for different paths, one is refused with 500. C40_served_partial: the same for HTTP requests and their replies after every history of both servers."
  },
  {
   "property": "C41",
   "status": "partial",
   "theorems": [
    "Gust.C41_paging_partial",
    "Gust.C41_negative_limit",
    "Gust.C41_paging_false",
    "Gust.C41_served_partial",
    "Gust.C41_served_false"
   ],
   "note": "C41_paging_partial says exactly what a client sees for every positive limit: everything once, except that the last lock is missing when the number of the others is a positive multiple of the limit (then the claim is false, C41_paging_false). A negative limit panics. Over requests, both servers, with anything but lock requests between the pages: C41_served_partial, C41_served_false."
  },
  {
   "property": "C42",
   "status": "partial",
   "theorems": [
    "Gust.C42_delete",
    "Gust.C42_unknown_id",
    "Gust.C42_known_id",
    "Gust.C42_exact_partial",
    "Gust.C42_same_id_false",
    "Gust.C42_other_ref_false",
    "Gust.C42_overlapping_false",
    "Gust.C42_drawn_partial",
    "Gust.C42_url",
    "Gust.C42_served_partial"
   ],
   "note": "C42_delete is an exact characterisation of a successful unlock; C42_exact_partial is the claim for histories with distinct non-empty ids and refs that are not collation-equal. False for colliding ids, for refs differing in letter case only (the table's collation), and for overlapping requests: an unlocked lock is listed again (C42_overlapping_false). C42_served_partial: C42_exact_partial for HTTP requests and their replies after every history of both servers. C42_drawn_partial: the same with ids as they are drawn (eight digits); C42_url: every lock shown can be named in an unlock URL."
  },
  {
   "property": "C43",
   "status": "partial",
   "theorems": [
    "Gust.C43_no_path_partial",
    "Gust.C43_path_is_id",
    "Gust.C43_path_fails",
    "Gust.C43_path_false",
    "Gust.C43_limit_false",
    "Gust.C43_served_partial",
    "Gust.C43_file_false"
   ],
   "note": "Without path parameter all locks are returned (limit and cursor are ignored: C43_limit_false). With a path the code compares it with lock ids (C43_path_is_id, C43_path_false). Over requests, both servers: C43_served_partial; C43_file_false: after every history, for every file name that is not itself eight digits, the request for its locks is answered 500."
  },
  {
   "property": "C44",
   "status": "partial",
   "theorems": [
    "Gust.C44_download_partial",
    "Gust.C44_download_false",
    "Gust.C44_served_partial",
    "Gust.C44_served_false"
   ],
   "note": "Proved for every history in which no upload for the oid was rejected; false after a rejected upload, whose bytes stay on disk and are served once the object is announced again (C44_download_false). C44_served_partial, C44_served_false: the same for HTTP requests and their replies, after every history of both servers."
  },
  {
   "property": "C45",
   "status": "partial",
   "theorems": [
    "Gust.C45_upload_download_partial",
    "Gust.C45_upload_download_false",
    "Gust.C45_served_partial"
   ],
   "note": "Proved for bodies that one write call stores completely; false for longer bodies (File::write may write less than given: C45_upload_download_false). C45_served_partial: for HTTP requests and their replies, in every history of both servers."
  },
  {
   "property": "C46",
   "status": "proved",
   "theorems": [
    "Gust.C46_inside",
    "Gust.C46_distinct"
   ],
   "note": "Every pair of routed oids, every content directory."
  },
  {
   "property": "C47",
   "status": "partial",
   "theorems": [
    "Gust.C47_requests_partial",
    "Gust.C47_batch",
    "Gust.C47_offers",
    "Gust.C47_served_partial",
    "Gust.C47_directory_false"
   ],
   "note": "C47_batch determines the whole response; C47_offers is the claim with 'something exists at the path' for 'content present'; C47_served_partial says downloads are offered exactly for what a download delivers, for oids of at least five characters. False for shorter oids (C47_directory_false). Over requests, both servers: C47_requests_partial ('offered for download' means that every request for the object is answered with bytes; and that this stays so until somebody uploads for the oid)."
  },
  {
   "property": "C48",
   "status": "partial",
   "theorems": [
    "Gust.C48_stored_partial",
    "Gust.C48_push_succeeds_partial",
    "Gust.C48_missing_object_fails",
    "Gust.C48_unchanged_objects_false",
    "Gust.C48_push_acyclic_partial"
   ],
   "note": "Everything reachable is stored with exact content after a successful push, for every thread schedule; packs that contain everything reachable and in which no directory contains itself succeed (C48_push_acyclic_partial; the stack must have room for as many calls as the pack has objects). False: any reachable object missing from the pack (unchanged files already on the server, submodules) makes the push end without an answer (general theorem and an HTTP-level witness)."
  },
  {
   "property": "C49",
   "status": "partial",
   "theorems": [
    "Gust.C49_clone_partial",
    "Gust.C49_empty_clone_false",
    "Gust.C49_other_path_false"
   ],
   "note": "After any history, a path with commits: the clone succeeds and the pack decodes to exactly the stored commits and what is reachable from them, each once. Assumes no SHA-1 collision among stored objects, pack format limits, and room on the stack for the nesting of directories (at most the number of rows, C91). False: a clone of a path without commits dies; paths which the collation takes for equal share commits (witness /app, /APP)."
  },
  {
   "property": "C50",
   "status": "partial",
   "theorems": [
    "Gust.C50_sent_partial",
    "Gust.C50_no_commit_sent_false",
    "Gust.C50_unknown_wants",
    "Gust.C50_wanted_commit_false"
   ],
   "note": "Exact content of the pack sent: the trees and blobs below the wanted commits' trees. False: no incremental fetch ever sends a commit (general theorem and witness); wants that are not stored end the request."
  },
  {
   "property": "C51",
   "status": "partial",
   "theorems": [
    "Gust.C51_batches_partial",
    "Gust.C51_empty_false",
    "Gust.C51_size_false"
   ],
   "note": "Batches concatenated are the nodes, at most 50 rows, exactly a prefix of batches stored for every database behaviour. False: a first node of 10 MiB gives an empty batch; the first row of later batches is not counted, so batches exceed the limit."
  },
  {
   "property": "C52",
   "status": "partial",
   "theorems": [
    "Gust.C52_advertised_partial",
    "Gust.C52_shared_id_lost",
    "Gust.C52_advertised_false"
   ],
   "note": "What a client reads is HEAD and exactly the refs of the path when their ids differ. False: of two refs with the same id only one is listed."
  },
  {
   "property": "C53",
   "status": "partial",
   "theorems": [
    "Gust.C53_update_scope_partial",
    "Gust.C53_update_partial",
    "Gust.C53_update_false"
   ],
   "note": "An update changes exactly one ref of the path that had the old id, the right one if it is the only one. False: the ref name is ignored, so with two branches at one commit the wrong one can be changed."
  },
  {
   "property": "C54",
   "status": "partial",
   "theorems": [
    "Gust.C54_exact_partial",
    "Gust.C54_no_ancestor",
    "Gust.C54_stable_partial",
    "Gust.C54_backslash_false",
    "Gust.C54_name_false"
   ],
   "note": "Exact-path master is returned, zero id when nothing is stored above, repeated queries agree; for paths without backslashes and of well-formed names. False with backslashes (LIKE escape) and for names that only compare equal under the collation."
  },
  {
   "property": "C55",
   "status": "partial",
   "theorems": [
    "Gust.C55_subdirectory_partial",
    "Gust.C55_never_updated",
    "Gust.C55_wrong_directory_false"
   ],
   "note": "When the directory name occurs once in storage the generated commit has the tree found by following the path. False: nodes are looked up by name across all repositories (witness lib/src and src), and the generated commit is never updated by later pushes."
  },
  {
   "property": "C56",
   "status": "partial",
   "theorems": [
    "Gust.C56_http_partial",
    "Gust.C56_http_distinct_partial",
    "Gust.C56_http_false",
    "Gust.C56_discovery_false",
    "Gust.C56_ssh_partial",
    "Gust.C56_ssh_http_false",
    "Gust.C56_ssh_suffix_false",
    "Gust.C56_ssh_space_false",
    "Gust.C56_ssh_short_false"
   ],
   "note": "HTTP: for URLs without the texts the server cuts out, all three requests use exactly the URL path, so different URLs never meet. False in general: .git is removed anywhere, /info/refs inside a URL splits discovery from push. SSH: exact for paths ending in .git without spaces; never the same repository as over HTTP (leading slash), last four bytes cut off whatever they are, text behind a space ignored, short paths crash."
  },
  {
   "property": "C57",
   "status": "partial",
   "theorems": [
    "Gust.C57_routed_partial",
    "Gust.C57_only_partial",
    "Gust.C57_unlock_partial",
    "Gust.C57_objects_locks_false",
    "Gust.C57_unlock_false",
    "Gust.C57_404_false",
    "Gust.C57_service_missing_false",
    "Gust.C57_unserved_partial",
    "Gust.C57_status_partial"
   ],
   "note": "Every documented endpoint under every prefix reaches its handler with the right oid, id or service, and every request that reaches a handler is such an endpoint, except: lock list under a prefix ending in /objects (taken for a download), any path ending in /unlock deletes a lock. False: other paths give 403, not 404 (404 iff the path is /); discovery without service panics. What the client is told: a request that belongs to no endpoint and does not end in /unlock gets 403, 404, 405 or a dropped connection, at once, and changes nothing (C57_unserved_partial, C57_status_partial)."
  },
  {
   "property": "C58",
   "status": "partial",
   "theorems": [
    "Gust.C58_preorder_partial",
    "Gust.C58_equal_exact",
    "Gust.C58_agrees_partial",
    "Gust.C58_agrees_false",
    "Gust.C58_different_equal_false",
    "Gust.C58_sorted_partial"
   ],
   "note": "Total preorder for trees, blobs, commits and tags; the lists prepared for compression are sorted permutations, unique up to comparing equal. False: == of trees and blobs ignores the size; different commits of the same size are equal."
  },
  {
   "property": "C59",
   "status": "partial",
   "theorems": [
    "Gust.C59_own_files_partial",
    "Gust.C59_distinct_seconds_partial",
    "Gust.C59_same_second_false",
    "Gust.C59_crash_false",
    "Gust.C59_leftover_false"
   ],
   "note": "For any number of pushes and every interleaving: if no push finds a file of the name it writes (in particular when the seconds differ), every read returns the push's own pack and no file operation fails. False within one second: for any two different packs some interleaving mixes them, another crashes one push; a failed push spoils a later one."
  },
  {
   "property": "C60",
   "status": "proved",
   "theorems": [
    "Gust.C60_advertisement_http",
    "Gust.C60_advertisement_ssh"
   ],
   "note": "Parsed by an independent packet and line reader, HTTP and SSH."
  },
  {
   "property": "C61",
   "status": "proved",
   "theorems": [
    "Gust.C61_generated_fields",
    "Gust.C61_faithful_copy",
    "Gust.C61_recorded",
    "Gust.C61_every"
   ],
   "note": "Author, committer, message copied, no parents, given tree, id equals hash of recorded content; also that exactly this commit is recorded; for every stored commit that can be read (C61_every)."
  },
  {
   "property": "C62",
   "status": "partial",
   "theorems": [
    "Gust.C62_small_sideband_false",
    "Gust.C62_raw_partial",
    "Gust.C62_raw_false"
   ],
   "note": "False of the code (C62_small_sideband_false, C62_raw_false). Proved: exactly what a client without side-band gets (the pack followed by `0000`)."
  },
  {
   "property": "C63",
   "status": "partial",
   "theorems": [
    "Gust.C63_pieces_false",
    "Gust.C63_ssh_fetch_split_false",
    "Gust.C63_ssh_push_partial",
    "Gust.C63_ssh_push_split_false"
   ],
   "note": "False of the code for fetch and push (C63_ssh_fetch_split_false, C63_ssh_push_split_false), and for every pack that comes in more than one message, wherever it is divided, after any history (C63_pieces_false: it is never taken, and the connection stays silent for ever). Proved: if the push is divided exactly between command section and pack the outcome equals HTTP's."
  },
  {
   "property": "C64",
   "status": "proved",
   "theorems": [
    "Gust.C64_decode_wellformed"
   ],
   "note": "Against an independent relational specification of the pack format (entries, deltas, bases); zlib abstract; ids of distinct objects in the pack assumed distinct."
  },
  {
   "property": "C65",
   "status": "partial",
   "theorems": [
    "Gust.C65_lock_stays_partial",
    "Gust.C65_apart_partial",
    "Gust.C65_concurrent_false",
    "Gust.C65_served_partial"
   ],
   "note": "Proved for sequential histories and for every interleaving in which requests for the same ref do not overlap (C65_apart_partial). False for overlapping requests for the same ref (lost update, C65_concurrent_false). C65_served_partial: for HTTP requests and their replies in every history of both servers, together with the refusal of further locks on the file."
  },
  {
   "property": "C66",
   "status": "partial",
   "theorems": [
    "Gust.C66_theirs_always_empty",
    "Gust.C66_anyone_unlocks",
    "Gust.C66_theirs_false",
    "Gust.C66_named_partial",
    "Gust.C66_unlock_false"
   ],
   "note": "False of the code: proved that 'theirs' is empty in every reachable state and that anyone's unlock without force succeeds. No owner is ever recorded. At the level of requests, after every history of the HTTP and the SSH server: C66_theirs_false, C66_unlock_false; what holds is C66_named_partial (a verification names every lock, up to a hundred)."
  },
  {
   "property": "C67",
   "status": "proved",
   "theorems": [
    "Gust.C67_oldest_first",
    "Gust.C67_sequential",
    "Gust.C67_times",
    "Gust.C67_served"
   ],
   "note": "For every reachable state, overlapping requests included; C67_oldest_first, C67_sequential and C67_served for the texts of the times. C67_served: for the replies of the HTTP server after every history of both servers. C67_times: with the times as chrono writes them (Model/Clock: texts with none, three, six or nine digits for the fraction of a second), the order of the texts is the order of the times (years up to 9999)."
  },
  {
   "property": "C70",
   "status": "partial",
   "theorems": [
    "Gust.C70_report_partial",
    "Gust.C70_report_name_false"
   ],
   "note": "Proved with the exact text of the report; false in that the reported ref name has a NUL byte appended (C70_report_name_false)."
  },
  {
   "property": "C68",
   "status": "partial",
   "theorems": [
    "Gust.C68_requests_partial",
    "Gust.C68_upload_accepted_partial",
    "Gust.C68_short_oid_false",
    "Gust.C68_wrong_size_false"
   ],
   "note": "Proved for every history announcing only oids of at least five characters; false after an upload to a shorter oid and when another client announced a wrong size first. Over requests, both servers: C68_requests_partial (announced and offered an upload, any history without an upload for the oid, upload accepted, then delivered)."
  },
  {
   "property": "C69",
   "status": "partial",
   "theorems": [
    "Gust.C69_served_partial",
    "Gust.C69_served_false",
    "Gust.C69_confined_partial",
    "Gust.C69_escape_false"
   ],
   "note": "Proved for all histories with routed oids; false for oids with slashes in batch requests (C69_escape_false). For requests, after every history of both servers: C69_served_partial (all replies, also to git, lock and SSH requests, are the same on two machines with the same content directory), C69_served_false (two announcements tell whether /etc/passwd exists)."
  },
  {
   "property": "C71",
   "status": "proved",
   "theorems": [
    "Gust.C71_complete"
   ],
   "note": "Invariant over all histories of pushes (also failing and with lost inserts), ref changes, and HEAD look-ups of other paths. Assumes no SHA-1 collision among stored objects."
  },
  {
   "property": "C72",
   "status": "partial",
   "theorems": [
    "Gust.C72_push_then_clone_partial",
    "Gust.C72_tags_lost_false"
   ],
   "note": "After any history and any answered push whose commit inserts are accepted, any answered clone contains exactly the former repository, the pushed commits and what they reach. False for annotated tags: never stored, never sent (witness)."
  },
  {
   "property": "C73",
   "status": "proved",
   "theorems": [
    "Gust.C73_isolated",
    "Gust.C73_clone_same"
   ],
   "note": "For every history and every pack, also for failing pushes; objects of the repository and packs of answered clones before and after are the same. Paths differ in the sense of the database collation."
  },
  {
   "property": "C74",
   "status": "partial",
   "theorems": [
    "Gust.C74_both_partial",
    "Gust.C74_link_partial",
    "Gust.C74_repo_false",
    "Gust.C74_roundtrip_partial"
   ],
   "note": "Links are routed back to their oid, and announce / PUT / batch / GET works through any history without other uploads of the oid. False when the client names user or repository: the link is not a URL of the server. Missing: contents longer than one write (C45), short oids (C68). C74_both_partial: the same with SSH messages in between."
  },
  {
   "property": "C75",
   "status": "proved",
   "theorems": [
    "Gust.C75_api_both",
    "Gust.C75_git",
    "Gust.C75_locks",
    "Gust.C75_objects",
    "Gust.C75_git_both",
    "Gust.C75_locks_both",
    "Gust.C75_objects_both"
   ],
   "note": "Non-interference of the three parts of the server state over all histories of sequential requests. The same with the SSH server on the same database: histories of HTTP requests and SSH messages, and every next SSH message (C75_git_both, C75_locks_both, C75_objects_both). C75_api_both: every request to the LFS API is answered as the HTTP server alone would, so all claims about locks and large files hold while SSH runs on the same database."
  },
  {
   "property": "C76",
   "status": "partial",
   "theorems": [
    "Gust.C76_status_partial",
    "Gust.C76_stale_false",
    "Gust.C76_upload_false",
    "Gust.C76_dropped_false"
   ],
   "note": "Holds for every error status except 406. False for a rejected LFS upload (object lost) and for pushes that crash after storing (witnesses). C76_stale_false: general, over HTTP and SSH: every complete project pushed with a command that does not apply (the ref was moved in the meantime, or is to be deleted) gets no answer and is stored all the same."
  },
  {
   "property": "C77",
   "status": "partial",
   "theorems": [
    "Gust.C77_below_false",
    "Gust.C77_both_partial",
    "Gust.C77_complete_partial"
   ],
   "note": "For every path such that no request names a directory above it. False below a repository: a discovery of the path of a file there stores a commit whose tree is that file, and clones of the path die (C77_below_false, over HTTP from an empty server). C77_both_partial: the same for mixed histories of both servers."
  },
  {
   "property": "C78",
   "status": "partial",
   "theorems": [
    "Gust.C78_tags_lost_false",
    "Gust.C78_clone_stack_partial",
    "Gust.C78_push_then_clone_partial",
    "Gust.C78_clone_answered_partial"
   ],
   "note": "One-ref pushes whose commit inserts are accepted, to a path with no repository above it. False for annotated tags (C78_tags_lost_false). More than one command: nothing is stored (C24_several_server). C78_clone_stack_partial: how much stack a clone needs, from the number of rows."
  },
  {
   "property": "C79",
   "status": "partial",
   "theorems": [
    "Gust.C79_get_both_partial",
    "Gust.C79_discovery_false",
    "Gust.C79_get_partial",
    "Gust.C79_discovery_partial"
   ],
   "note": "Every GET except discovery changes no later answer; discovery removes nothing and changes nothing when no ref is stored above the path. False below a repository (witness). Over both servers: C79_get_both_partial (no later SSH message is answered differently either)."
  },
  {
   "property": "C80",
   "status": "partial",
   "theorems": [
    "Gust.C80_thin_partial",
    "Gust.C80_commit_false",
    "Gust.C80_both_partial",
    "Gust.C80_lost_false"
   ],
   "note": "Holds when the missing bases are trees and blobs, after any history over HTTP (C80_thin_partial) or over HTTP and SSH (C80_both_partial); that such a push is answered with ok is part of C111. False for commits: on every server a pack beginning with a delta against a stored commit panics (C80_commit_false), and the push is not answered over HTTP nor SSH (C80_lost_false). Tags are not stored (C72)."
  },
  {
   "property": "C81",
   "status": "partial",
   "theorems": [
    "Gust.C81_snapshot_partial",
    "Gust.C81_empty_false",
    "Gust.C81_snapshot_stack_partial"
   ],
   "note": "Full statement for all interleavings of pushes and discoveries (statement by statement, no transactions), under the conditions of C49: ids unique, no request names a directory above the path (C77_below_false). False for paths without commits, where the clone dies (C81_empty_false). C81_snapshot_stack_partial: the same with a stack bound from the number of rows."
  },
  {
   "property": "C82",
   "status": "partial",
   "theorems": [
    "Gust.C82_overlapping_pushes_partial",
    "Gust.C82_insert_false"
   ],
   "note": "Proved for all interleavings. A finished push is complete if inserts of commits do not fail; a failed one goes unnoticed (C82_insert_false). No request names a directory above the path (C77_below_false)."
  },
  {
   "property": "C83",
   "status": "partial",
   "theorems": [
    "Gust.C83_race_false",
    "Gust.C83_second_update_partial"
   ],
   "note": "False for overlapping pushes, in every state where a row matches: both finish and the first update is lost (C83_race_false). Holds when the second begins after the first has finished."
  },
  {
   "property": "C84",
   "status": "partial",
   "theorems": [
    "Gust.C84_refs_partial",
    "Gust.C84_lost_commits_false"
   ],
   "note": "Proved for all interleavings if inserts of commits do not fail; false otherwise (C84_lost_commits_false)."
  },
  {
   "property": "C85",
   "status": "partial",
   "theorems": [
    "Gust.C85_connections_partial",
    "Gust.C85_crash_partial",
    "Gust.C85_channels_false",
    "Gust.C85_login_partial"
   ],
   "note": "Connections: proved for all histories in which the other connections' messages leave the database alone (C85_connections_partial), and a connection is ended only by its own messages (C85_crash_partial). Channels of one connection: false; there is one session per connection, the last exec request wins, and a push on one channel lands in the repository of another (C85_channels_false). Logging in again on a connection in use changes nothing (C85_login_partial)."
  },
  {
   "property": "C86",
   "status": "partial",
   "theorems": [
    "Gust.C86_push_partial",
    "Gust.C86_one_message_false",
    "Gust.C86_fetch_partial",
    "Gust.C86_discover_partial",
    "Gust.C86_later_partial",
    "Gust.C86_second_false"
   ],
   "note": "Push with command section and pack in one message each, first fetch message of a session, and advertisement agree with HTTP, with any messages of other connections in between. False when a push comes in one message: the pack is sent back and nothing is stored (C86_one_message_false). The repository path is taken as SSH gives it (path //repo.git means the HTTP path /repo; see C56). Later fetch requests of a session are answered as the HTTP request that names the capabilities of all requests of the session (C86_later_partial); so a second request without side-band gets side-band packets if the first named it (C86_second_false)."
  },
  {
   "property": "C87",
   "status": "partial",
   "theorems": [
    "Gust.C87_credentials_false",
    "Gust.C87_no_credentials_partial"
   ],
   "note": "False: credentials never matter (C87_credentials_false). Partial: without any authentication message nothing is sent and nothing changed (this rests on russh calling handlers only after authentication)."
  },
  {
   "property": "C88",
   "status": "proved",
   "theorems": [
    "Gust.C88_both",
    "Gust.C88_http",
    "Gust.C88_ssh",
    "Gust.C88_overlapping"
   ],
   "note": "List of (path, name) of all refs before is a prefix of that after, for all HTTP histories, all SSH histories and all interleavings of statements. (Deletions are covered too: they never remove anything, see C89.) C88_both: mixed histories of both servers."
  },
  {
   "property": "C89",
   "status": "partial",
   "theorems": [
    "Gust.C89_ssh_false",
    "Gust.C89_both_false",
    "Gust.C89_others_partial",
    "Gust.C89_delete_false",
    "Gust.C89_delete_pack_false"
   ],
   "note": "False of the code: a deletion without pack (as git sends it) is answered as a success with an empty body and changes nothing, in every state (C89_delete_false); with a pack that is accepted the handler crashes (C89_delete_pack_false). Proved: all other refs stay as they are. On both servers after every mixed history: C89_ssh_false (over SSH a deletion without pack is not answered at all and changes nothing), C89_both_false (with any pack: no answer over HTTP or SSH, and all refs stay)."
  },
  {
   "property": "C90",
   "status": "partial",
   "theorems": [
    "Gust.C90_confined_partial",
    "Gust.C90_fetch_partial",
    "Gust.C90_below_false"
   ],
   "note": "Proved over HTTP (C90_confined_partial, C90_fetch_partial) and over HTTP and SSH together (C90_confined_both_partial, C90_fetch_both_partial), for paths with no other repository of the history above them: every object of the repository, and every object in the pack of any fetch reply, is in a pack pushed there (the part of a push body behind the command lines); the lines before the pack are NAK or ACK with an id infix of the request. Assumes no SHA-1 collision among stored objects. False below another repository (C90_below_false): someone who knows one commit id of /app pushes one blob to /lib with that id as branch, asks for the refs of /lib/src, and a clone of /lib/src then contains /app's directory src. Two limits of the statement: the bases of a thin pack are looked up in all repositories, and ACK lines say whether an id sent by the client is a commit of any repository."
  },
  {
   "property": "C91",
   "status": "proved",
   "theorems": [
    "Gust.C91_no_cycles",
    "Gust.C91_fetch_ends",
    "Gust.C91_refused",
    "Gust.C91_no_cycles_both",
    "Gust.C91_fetch_ends_both"
   ],
   "note": "For all histories, paths and requests (C91_no_cycles, C91_fetch_ends, C91_refused), pushes over SSH included (C91_no_cycles_both, C91_fetch_ends_both). Ends = a result or a panic, given a stack with room for as many nested calls as there are rows. Assumes no SHA-1 collision among the objects of all pushed packs (PushesAgree) and that the collation of the database tells ids apart. In a real run the refusal of a cyclic pack is a stack overflow."
  },
  {
   "property": "C92",
   "status": "partial",
   "theorems": [
    "Gust.C92_answered_partial",
    "Gust.C92_fetch_false",
    "Gust.C92_push_false",
    "Gust.C92_answered_both_partial",
    "Gust.C92_ssh_partial",
    "Gust.C92_ssh_fetch_false",
    "Gust.C92_ssh_push_false"
   ],
   "note": "False of the code in two ways, for every server state: a fetch request that breaks off behind a complete packet before `done` loops for ever (C92_fetch_false), a push of a fourteen byte pack whose delta names itself recurses until the stack is exhausted (C92_push_false). Proved for all histories: every other fetch (exact, by C18_exact) and every other kind of request ends; a push ends if no delta that is read names itself as its base (true of every well-formed pack) and no directory in the pack contains itself (true of every pack when SHA-1 has no cycles). Assumes no SHA-1 collision among pushed objects, as C91. Ends = given a deep enough stack; time of the database and of single library calls is not modelled. The same over SSH, after any history of both servers: no message leaves its connection stuck under these conditions (C92_ssh_partial, C92_answered_both_partial), and the two exceptions are the same (C92_ssh_fetch_false, C92_ssh_push_false)."
  },
  {
   "property": "C93",
   "status": "partial",
   "theorems": [
    "Gust.C93_pack_partial",
    "Gust.C93_write",
    "Gust.C93_written",
    "Gust.C93_stray_false",
    "Gust.C93_empty_false"
   ],
   "note": "Proved for directories with at least one loose object whose two-character directories contain only loose objects; writing objects is proved to lead to such directories. False otherwise: a directory without loose objects, or any other file in a two-character directory, panics."
  },
  {
   "property": "C94",
   "status": "partial",
   "theorems": [
    "Gust.C94_repack_partial",
    "Gust.C94_no_pack_false",
    "Gust.C94_empty_false",
    "Gust.C94_second_pack_false"
   ],
   "note": "Proved for directories with exactly one pack and at least one loose object. False otherwise: of several packs only the first one listed is kept (the objects of the others are missing from the result), and without packs or without loose objects the program panics."
  },
  {
   "property": "C95",
   "status": "partial",
   "theorems": [
    "Gust.C95_all_packs_partial",
    "Gust.C95_name_false"
   ],
   "note": "Proved for packs with the names git gives them whose deltas have their bases in the same pack. False for packs with other names: the program panics."
  },
  {
   "property": "C96",
   "status": "partial",
   "theorems": [
    "Gust.C96_shown_partial",
    "Gust.C96_name_false"
   ],
   "note": "Proved with the name the server stores and shows, which is the pushed name followed by a NUL byte, for repositories whose refs have different ids. False for the name as pushed (C96_name_false; see C23)."
  },
  {
   "property": "C97",
   "status": "partial",
   "theorems": [
    "Gust.C97_unaffected_partial",
    "Gust.C97_case_false"
   ],
   "note": "Proved for repositories whose paths the database does not take for equal, with different ids of the refs. False for paths that differ in case only: a push to one changes what is shown of the other (C97_case_false)."
  },
  {
   "property": "C98",
   "status": "proved",
   "theorems": [
    "Gust.C98_labelled",
    "Gust.C98_only",
    "Gust.C98_announced",
    "Gust.C98_lfs"
   ],
   "note": "All requests. The list of locks below a path ending in /objects is not reachable (C57) and excluded. Headers that hyper adds are not modelled."
  },
  {
   "property": "C99",
   "status": "partial",
   "theorems": [
    "Gust.C99_answered_partial",
    "Gust.C99_crash",
    "Gust.C99_dotdot_false",
    "Gust.C99_dangling_false",
    "Gust.C99_both_partial",
    "Gust.C99_crash_ssh"
   ],
   "note": "Proved unless a repository above the requested one has a master that names no stored commit, or the path ends in `..` below such a repository: over HTTP after any history of requests (C99_answered_partial), and over HTTP and on any SSH connection after any history of both servers (C99_both_partial). In the other cases the handler crashes, in every state (C99_crash over HTTP, C99_crash_ssh over SSH, where the connection is cut off): negations C99_dotdot_false and C99_dangling_false."
  },
  {
   "property": "C100",
   "status": "partial",
   "theorems": [
    "Gust.C100_same_key_partial",
    "Gust.C100_two_starts_false",
    "Gust.C100_both_write_false",
    "Gust.C100_file",
    "Gust.C100_killed_false"
   ],
   "note": "Proved when no server is started or killed while another creates the key file (the write is asynchronous and may come after the server accepts connections). Negations for every kind of keys: C100_two_starts_false (two keys shown, another key after a restart) and C100_killed_false (after a kill between creating and writing the file every later start fails). C100_both_write_false: the second key replaces the first one. C100_file: after any starts and kills the key file is missing, empty or a complete key, so a start fails only on an empty file."
  },
  {
   "property": "C101",
   "status": "partial",
   "theorems": [
    "Gust.C101_prefix_partial",
    "Gust.C101_quiet_partial",
    "Gust.C101_accepted_partial",
    "Gust.C101_short_false",
    "Gust.C101_mixed_false",
    "Gust.C101_killed_false"
   ],
   "note": "Proved for all interleavings: an accepted upload has the digest of its oid; if all uploads for an oid carry the same body, a download delivers a beginning of it, and exactly it when no upload for the oid is under way. Run without interruption the tasks are the handlers of the sequential model (alone_upload, alone_download, alone_batch). False otherwise: C101_short_false (an empty answer with status 200 although an upload was accepted), C101_mixed_false (mixture of a right and a wrong upload, the right one accepted), C101_killed_false (server killed during an upload: the object is offered for download for good and is empty)."
  },
  {
   "property": "C102",
   "status": "partial",
   "theorems": [
    "Gust.C102_announced_false",
    "Gust.C102_answered_partial"
   ],
   "note": "Proved for all interleavings when no other request announces the same objects: never a crash, one entry per object in order. False for two clients announcing the same new object (C102_announced_false): both find no row, the second insert hits the primary key and the handler crashes."
  },
  {
   "property": "C103",
   "status": "partial",
   "theorems": [
    "Gust.C103_told_partial",
    "Gust.C103_pushed_partial",
    "Gust.C103_told_both_partial",
    "Gust.C103_pushed_both_partial",
    "Gust.C103_other_repository_false",
    "Gust.C103_wanted_false"
   ],
   "note": "Proved after any history, over HTTP (C103_told_partial, C103_pushed_partial) and over HTTP and SSH together (C103_told_both_partial, C103_pushed_both_partial): the ids called common are named in the request and are ids of stored commits; with haves and multi_ack_detailed exactly these; every commit of an answered push is called common later if listed. False of the full claim: ids the client only wants are called common (C103_wanted_false), and commits of other repositories are (C103_other_repository_false), since get_commit_by_hash does not look at the repository."
  },
  {
   "property": "C104",
   "status": "partial",
   "theorems": [
    "Gust.C104_same_id_false",
    "Gust.C104_overlapping_partial"
   ],
   "note": "Proved from any moment at which no request is being worked on, for a repository with a branch master and refs at different ids, for all interleavings of requests at other paths (as the database compares paths). False for branches at the same commit: only one is shown (C104_same_id_false)."
  },
  {
   "property": "C105",
   "status": "partial",
   "theorems": [
    "Gust.C105_same_id_false",
    "Gust.C105_overlapping_push_partial",
    "Gust.C105_refused_partial"
   ],
   "note": "Proved for one push overlapping with any requests at other paths; the refs afterwards are given exactly (C105_overlapping_push_partial), also when the database refuses rows of refs, which the server does not notice: then a new branch may be missing, and nothing else is changed (C105_refused_partial). False for a branch created where another one is: only one is shown afterwards (C105_same_id_false). Missing: other requests to the same repository at the same time (C83_race_false)."
  },
  {
   "property": "C106",
   "status": "partial",
   "theorems": [
    "Gust.C106_once_partial",
    "Gust.C106_create_again_false",
    "Gust.C106_both_partial"
   ],
   "note": "Holds for every history in which no client creates a branch the repository already has: over HTTP (C106_once_partial; generated branches included) and over HTTP and SSH together (C106_both_partial, repositories with a master). False otherwise: two clients that both create the same branch are both answered ok and both ids are shown (C106_create_again_false)."
  },
  {
   "property": "C107",
   "status": "partial",
   "theorems": [
    "Gust.C107_snapshot_partial",
    "Gust.C107_shown_partial",
    "Gust.C107_no_commit_false",
    "Gust.C107_too_late"
   ],
   "note": "All trees and files below the shown commit are sent, for all interleavings (C107_shown_partial); the pack is exactly what was below the wanted commits when the commits were read (C107_snapshot_partial). False for the commit itself: no answer contains a commit (C107_no_commit_false). A fetch whose wanted commits are not stored yet when the commits are read dies (C107_too_late)."
  },
  {
   "property": "C108",
   "status": "partial",
   "theorems": [
    "Gust.C108_clone_partial",
    "Gust.C108_told_partial",
    "Gust.C108_fetch_partial"
   ],
   "note": "Clone: exact contents (C108_clone_partial). Acknowledgements: C108_told_partial. Fetch: exact contents of the pack (C108_fetch_partial), which never has the wanted commits themselves (C107_no_commit_false). Missing: repositories with pushes at enclosing paths, clients that do not ask for multi_ack_detailed (C103)."
  },
  {
   "property": "C109",
   "status": "partial",
   "theorems": [
    "Gust.C109_checkout_partial",
    "Gust.C109_overlapping_partial",
    "Gust.C109_lost_false"
   ],
   "note": "Proved for HTTP histories, with pushes to the same repository before and after (C109_checkout_partial), and for overlapping requests (C109_overlapping_partial): file by file, both directions. Pushes of several refs store nothing (C24_several_server). Missing: paths above or below other repositories (C77_below_false). False if an insert of commits fails (C109_lost_false): the pusher is told ok and no clone is answered."
  },
  {
   "property": "C110",
   "status": "partial",
   "theorems": [
    "Gust.C110_subdirectory_partial",
    "Gust.C110_both_partial",
    "Gust.C110_nowhere_false"
   ],
   "note": "C110_subdirectory_partial: both requests are answered and the files agree, in both directions, when the name of the directory occurs only for this directory in all that was pushed. Missing: other directories or files with the same name (C55_wrong_directory_false), later pushes (C55_never_updated), failing inserts (C26). C110_nowhere_false: a path that is no directory of the repository is served as well, with the files of some directory of the same name. C110_both_partial: the same after any history of both servers, with the repository pushed, the directory asked for and the clones made over HTTP or SSH."
  },
  {
   "property": "C111",
   "status": "partial",
   "theorems": [
    "Gust.C111_accepted_partial",
    "Gust.C111_published_partial",
    "Gust.C111_update_false",
    "Gust.C111_both_partial",
    "Gust.C111_both_published_partial",
    "Gust.C111_both_update_false",
    "Gust.C111_tables_partial"
   ],
   "note": "C111_accepted_partial (the push is answered with the success report) and C111_published_partial (push, then any requests including pushes to the same repository, then clone: both answered, same files), without assuming that the push or the clone succeeds; assumes that the database accepts the rows, no SHA-1 collision among stored objects, a stack for as many calls as there are objects, and no repository above or below the path for the clone. False for the pushes git makes after the first one: a pack that leaves out reachable objects the server has is never answered (C111_update_false, universal). Over both servers, after any mixed history: C111_both_partial, C111_both_published_partial (push over HTTP or SSH, clone over HTTP or SSH), C111_both_update_false (over SSH the connection is closed or silent afterwards). C111_tables_partial: the same with the tables of the dump, for projects that fit the columns (also: the created ref is stored)."
  },
  {
   "property": "C112",
   "status": "partial",
   "theorems": [
    "Gust.C112_commit_partial",
    "Gust.C112_identity",
    "Gust.C112_kinds_false",
    "Gust.C112_refused_false",
    "Gust.C112_terminal_false",
    "Gust.C112_missing_false",
    "Gust.C112_damaged_false"
   ],
   "note": "C112_commit_partial: every commit written to the directory is read back by its id, after any sequence of writes, if the process does not write to a terminal; C112_identity: whatever is returned has the id asked for and a matching content, for every content of the directory. False: the type is matched against names that are bindings, so nothing but a commit is ever returned (C112_kinds_false, universal) and stored trees, files and tags are refused (C112_refused_false, universal up to SHA-1 collisions); in a terminal the id is displayed with colour codes, which become part of the file name, and every read crashes (C112_terminal_false, universal); an unknown id crashes instead of being an error (C112_missing_false), and so does a file whose stated length is wrong (C112_damaged_false). No caller in the server at this commit."
  },
  {
   "property": "C113",
   "status": "partial",
   "theorems": [
    "Gust.C113_nothing_sent_false",
    "Gust.C113_crash_false",
    "Gust.C113_missing_false",
    "Gust.C113_up_to_date_partial"
   ],
   "note": "C113_up_to_date_partial: for every set of objects written to the directory, a client that has the wanted commit is sent nothing. False for every other client: computing the objects crashes as soon as one commit has to be sent, because the commit is unwrapped while a copy shares it (C113_crash_false, universal), and when the wanted commit was never written (C113_missing_false); any result, whatever the files contain, is empty (C113_nothing_sent_false, universal). The only call is commented out at this commit."
  },
  {
   "property": "C114",
   "status": "partial",
   "theorems": [
    "Gust.C114_upload_partial",
    "Gust.C114_download_partial",
    "Gust.C114_deleted_false",
    "Gust.C114_size_false"
   ],
   "note": "C114_upload_partial: while the uploads of the object carry its content and the announcements of it its size, and no oids of fewer than five characters are announced, every upload is answered with success after five turns of its own; C114_download_partial: every download after an accepted upload is answered with success after (length + 4) turns of its own, with the beginning of the content, and with all of it when no upload of the object overlaps. False without these conditions: a rejected upload of wrong content deletes the record of the object, after which downloads crash (C114_deleted_false); a wrong size announced first makes the right upload fail (C114_size_false); short oids: C68_short_oid_false."
  },
  {
   "property": "C115",
   "status": "partial",
   "theorems": [
    "Gust.C115_checkout_partial",
    "Gust.C115_answered_partial",
    "Gust.C115_same_url_false"
   ],
   "note": "C115_checkout_partial (the checked-out files are the pushed files, both directions) and C115_answered_partial (later clones are answered on both servers, with the same bytes) for all mixed histories. Pushes of several refs store nothing over HTTP and only the first over SSH (C24_several_server, C24_ssh_first_only). Missing: pack and command section in one SSH message (C86_one_message_false), failing inserts of commits (C26), repositories above or below the path (C77_below_false). False for clients that use the same path in both (C115_same_url_false): over SSH the leading slash is dropped, `/app.git` is another repository."
  },
  {
   "property": "C116",
   "status": "partial",
   "theorems": [
    "Gust.C116_confined_partial",
    "Gust.C116_fetch_partial",
    "Gust.C116_overlapping_partial"
   ],
   "note": "C116_confined_partial (every object of a repository was sent to its path, over HTTP or on an SSH connection last opened for pushing to that path) and C116_fetch_partial (every answer to a fetch, over HTTP or SSH) for all mixed histories; C116_overlapping_partial: every reply to a fetch during which any requests are worked on, in any interleaving, has only objects of packs whose push to the path had begun. All assume no SHA-1 collision among stored objects. Missing: paths below another repository, where the commits of the repository above are handed out (C90_below_false); acknowledgements of commits of other repositories (C103_other_repository_false)."
  },
  {
   "property": "C117",
   "status": "partial",
   "theorems": [
    "Gust.C117_long_false",
    "Gust.C117_created_partial",
    "Gust.C117_never_shown",
    "Gust.C117_branch_false"
   ],
   "note": "C117_created_partial: names of at most 31 characters (refs/heads/ included) in repositories whose path has at most 64 are stored with the pushed id, over HTTP and SSH. Refuted for longer ones: C117_long_false (every such push is answered with ok and no ref is stored), C117_branch_false (a complete run: first push to feature/login-page-redesign, afterwards the repository is shown as empty), C117_never_shown (no longer name is ever shown after any history)."
  },
  {
   "property": "C118",
   "status": "partial",
   "theorems": [
    "Gust.C118_big_false",
    "Gust.C118_never_stored",
    "Gust.C118_stored_partial",
    "Gust.C118_message_false"
   ],
   "note": "C118_stored_partial: commits of at most 65535 bytes in repositories whose path has at most 128 characters are stored, over HTTP and SSH, whatever was stored before stays. Refuted otherwise: C118_big_false (one commit that is too big: none of the push is stored, for up to 100 commits), C118_message_false (a complete run with a message of 70000 characters: ok, the ref is stored, the commit is not), C118_never_stored."
  },
  {
   "property": "C119",
   "status": "partial",
   "theorems": [
    "Gust.C119_same_partial",
    "Gust.C119_both_partial",
    "Gust.C119_big_false",
    "Gust.C119_name_false",
    "Gust.C119_accepted_partial",
    "Gust.C119_file_false",
    "Gust.C119_long_name_false"
   ],
   "note": "C119_accepted_partial: answered with ok if files are smaller than 16 MiB, directory listings smaller than 10 MiB and names at most 128 characters long (HTTP; C119_both_partial: HTTP or SSH after any mixed history; packs as for C111). Refuted otherwise: C119_big_false and C119_name_false (no such push is ever answered, over HTTP and SSH), C119_file_false and C119_long_name_false (concrete projects). Not covered: listings of 10 MiB to 16 MiB (the first batch is empty then, what the database says to that is left open). C119_same_partial: an answered push over HTTP or SSH that fits the columns (ref name at most 31 characters, path at most 64, commits at most 65535 bytes) gets the answer, and leaves both servers in the state, that a database without limits gives."
  },
  {
   "property": "C120",
   "status": "partial",
   "theorems": [
    "Gust.C120_served_false",
    "Gust.C120_served_partial",
    "Gust.C120_big_false",
    "Gust.C120_announced_partial"
   ],
   "note": "C120_announced_partial: batches of objects below 2 GiB that no other request announces are never answered by a crash, and get one entry per object. Refuted for others: C120_big_false (whatever requests overlap, an object announced with 2 GiB or more never gets a row, no request announcing it is answered with entries, and every upload of it crashes). For requests after every history of both servers: C120_served_false (announcements, uploads and downloads of an object of 2 GiB or more are not answered), C120_served_partial (smaller objects: one entry each)."
  },
  {
   "property": "C121",
   "status": "partial",
   "theorems": [
    "Gust.C121_served_false",
    "Gust.C121_refused_false",
    "Gust.C121_served_partial",
    "Gust.C121_removed_partial",
    "Gust.C121_bounded_false",
    "Gust.C121_full_false",
    "Gust.C121_create_partial",
    "Gust.C121_unlock_partial",
    "Gust.C121_third_false"
   ],
   "note": "C121_create_partial: a lock for a free path is created and listed if the JSON text of all locks of the ref fits into 10000 characters. C121_unlock_partial: in every reachable state every lock with an id can be removed (ref names of at most 200 characters). Refuted: C121_bounded_false (never more than 208 locks per ref, fewer with longer paths), C121_full_false (a creation without room is answered with 500 and changes nothing), C121_third_false (a complete run). For requests to the two servers, after every history, with ids and times as they are really written: C121_served_false (never more than 123 locks per ref, fewer than 10000/(81+b) when every path has b characters or more), C121_refused_false (500, nothing changes), C121_served_partial (a sufficient condition that a client can work out: the paths, each counted with 91 more characters, have together less than 10000 characters), C121_removed_partial (every lock shown can be removed by the URL made of its id)."
  },
  {
   "property": "C122",
   "status": "partial",
   "theorems": [
    "Gust.C122_unreadable_false",
    "Gust.C122_ssh_false",
    "Gust.C122_readable_partial",
    "Gust.C122_main_false"
   ],
   "note": "C122_readable_partial: repositories with a branch master (refs with different ids), and repositories without refs below no master, are read as they are. Refuted for the others: C122_unreadable_false (HTTP) and C122_ssh_false: after every history of both servers during which nobody pushes master to the repository or a directory above, if it has refs, the list is one that a git client refuses (a ref after capabilities^{}), so it can neither be cloned nor pushed to again; C122_main_false: a complete run."
  },
  {
   "property": "C123",
   "status": "partial",
   "theorems": [
    "Gust.C123_up_false",
    "Gust.C123_down_false",
    "Gust.C123_run_false",
    "Gust.C110_subdirectory_partial"
   ],
   "note": "C110_subdirectory_partial: what is seen at the first request for a directory is the directory as it is in the repository at that time. Refuted for all later ones: C123_down_false (whatever is pushed above, over HTTP and SSH, HEAD of the directory stays what it was at the first request), C123_up_false (whatever is pushed to directories, HEAD of the repository stays), C123_run_false (a complete run)."
  },
  {
   "property": "C124",
   "status": "partial",
   "theorems": [
    "Gust.C124_both_false",
    "Gust.C124_same_false",
    "Gust.C124_lock_false",
    "Gust.C124_file_false",
    "Gust.C124_branch_partial"
   ],
   "note": "False of the code: the part of the URL that names the repository is not looked at (C124_same_false: every LFS request is served alike for all repositories; C124_lock_false: a lock excludes locks for the same path and branch name in all repositories; C124_file_false: uploaded content can be downloaded from every repository). C124_branch_partial: what separates locks is the name of the branch, as the database compares names. C124_both_false: the same while both servers run."
  },
  {
   "property": "C125",
   "status": "partial",
   "theorems": [
    "Gust.C125_submodule_false",
    "Gust.C125_lib_false",
    "Gust.C111_accepted_partial"
   ],
   "note": "False of the code: C125_submodule_false (every server, every history, HTTP and SSH: a push is not answered if an entry of a reachable directory is neither a file nor a directory of the pack, as the entries of submodules are), C125_lib_false (a concrete pack). Projects without submodules are accepted: C111_accepted_partial."
  },
  {
   "property": "C126",
   "status": "partial",
   "theorems": [
    "Gust.C126_started_partial",
    "Gust.C126_moved_partial",
    "Gust.C126_hidden_false",
    "Gust.C126_wrong_branch_false",
    "Gust.C126_run_false",
    "Gust.C126_ssh_false",
    "Gust.C126_both_started_partial",
    "Gust.C126_both_moved_partial"
   ],
   "note": "C126_started_partial and C126_moved_partial: pushes without objects are answered and change exactly the branch, in every state (HTTP); C126_both_started_partial and C126_both_moved_partial: over HTTP or SSH after any mixed history. False of the code: C126_hidden_false (no client is shown two branches with the same value), C126_wrong_branch_false (a push to one of two branches with the same value moves the one whose row is found first), C126_run_false (a concrete run in which a push to dev moves master). C126_ssh_false: the same over SSH, after every history of both servers."
  },
  {
   "property": "C127",
   "status": "partial",
   "theorems": [
    "Gust.C127_rounds_false",
    "Gust.C127_once_partial",
    "Gust.C128_offered_false"
   ],
   "note": "C127_once_partial: a request in one round is not left without an end (HTTP). False of the code: C127_rounds_false (universal, HTTP and SSH: the first batch is never answered, and the SSH connection is silent from then on), C128_offered_false (a concrete server that offers the negotiation)."
  },
  {
   "property": "C128",
   "status": "partial",
   "theorems": [
    "Gust.C128_depth_false",
    "Gust.C128_ignored_false",
    "Gust.C128_offered_false",
    "Gust.C115_checkout_partial"
   ],
   "note": "False of the code: C128_depth_false (universal, HTTP and SSH: the first message of a client that asks for a depth is never answered), C128_ignored_false (universal: if the client says done at once, the depth makes no difference to the answer), C128_offered_false (a concrete server that offers it). Clones without a depth are complete: C115_checkout_partial."
  },
  {
   "property": "C129",
   "status": "partial",
   "theorems": [
    "Gust.C129_compressed_false",
    "Gust.C129_clone_false",
    "Gust.C115_answered_partial"
   ],
   "note": "False of the code for every compressed request, in every state: C129_compressed_false (the connection is dropped, nothing changes), C129_clone_false (a clone request that is answered when it is not compressed). Requests that are not compressed: C115_answered_partial."
  },
  {
   "property": "C130",
   "status": "partial",
   "theorems": [
    "Gust.C130_push_partial",
    "Gust.C130_fetch_false"
   ],
   "note": "C130_push_partial: tests before a push are answered in every state and change nothing. False of the code for fetches, in every state: C130_fetch_false."
  },
  {
   "property": "C131",
   "status": "partial",
   "theorems": [
    "Gust.C131_refused",
    "Gust.C131_layout_partial",
    "Gust.C131_lock_partial",
    "Gust.C131_malformed",
    "Gust.C131_exact",
    "Gust.C131_transfers_false",
    "Gust.C131_ref_false"
   ],
   "note": "C131_layout_partial and C131_lock_partial: requests with the members the server wants, however written. C131_malformed: texts that are not JSON. C131_exact: which objects are requests for a lock. C131_refused: JSON objects that are none of the four requests (a member missing, of another type, or given twice, names that are no text) change nothing and have no answer; the exception are arrays in the place of objects, which serde reads by position. False of the code for members that the API calls optional: C131_transfers_false (batch requests without transfers), C131_ref_false (lock requests without ref): the connection is dropped."
  },
  {
   "property": "C132",
   "status": "proved",
   "theorems": [
    "Gust.C132_reply",
    "Gust.C132_faithful",
    "Gust.C132_served"
   ],
   "note": "C132_reply over all histories, C132_faithful: the value determines the reply. C132_served: after every history of both servers, with ids and times as they are really written (Model/Clock), so that nothing is assumed of the random number generator and the clock. All links of a reply are shown with one time of expiry."
  },
  {
   "property": "C133",
   "status": "proved",
   "theorems": [
    "Gust.C133_answers",
    "Gust.C133_stored",
    "Gust.C133_listed",
    "Gust.C133_empty_row"
   ],
   "note": "C133_stored (refinement over all histories), C133_answers (every request), C133_listed. C133_empty_row: a row with an empty column, which no history of the server produces, makes every listing crash although the writing functions provide for it."
  },
  {
   "property": "C134",
   "status": "partial",
   "theorems": [
    "Gust.C134_form_false",
    "Gust.C134_conflict_false",
    "Gust.C134_told_partial"
   ],
   "note": "False of the code for every refusal: C134_form_false (never JSON, never the content type of the API), C134_conflict_false (the reply to a refused lock is the same text whatever the lock). C134_told_partial: there is always a non-empty text, and one of five statuses."
  },
  {
   "property": "C135",
   "status": "partial",
   "theorems": [
    "Gust.C135_read_partial",
    "Gust.C135_size_false",
    "Gust.C135_more_false",
    "Gust.C135_junk_false",
    "Gust.C135_pushed_partial"
   ],
   "note": "C135_read_partial: header, announced number of entries one behind the other, 20 bytes of checksum; all of these objects are taken, with their content, and nothing that does not stand in the file (objects in the file with the same id are equal). Refuted: C135_size_false (deltas of another size than announced), C135_more_false (a delta against something inside another entry: more objects are taken than announced), C135_junk_false (any bytes behind any well-formed pack). The checksum is C30. C135_pushed_partial: for every answered push over HTTP or SSH after every history of both servers: its bytes are read like that, and every object stored afterwards was stored before or stands in these bytes."
  },
  {
   "property": "C136",
   "status": "partial",
   "theorems": [
    "Gust.C136_workers_false",
    "Gust.C136_rounds_false",
    "Gust.C136_push_false",
    "Gust.C136_kept_partial",
    "Gust.C136_ssh_workers_false",
    "Gust.C136_ssh_rounds_false",
    "Gust.C136_ssh_push_false",
    "Gust.C136_apart_partial",
    "Gust.C136_ssh_kept_partial"
   ],
   "note": "False of the code: as many fetches that break off before `done` as there are workers (C136_workers_false; ordinary clients that negotiate in rounds do this, C136_rounds_false), or one push of a pack of fourteen bytes (C136_push_false), and nobody is answered any more. C136_kept_partial: with fewer such fetches and nothing else that goes on for ever, everybody is answered as if they had not been sent. With the SSH server as a second process on the same database: the same three ways stop it (C136_ssh_workers_false, C136_ssh_rounds_false, C136_ssh_push_false); C136_apart_partial: whatever is sent to the SSH server, the HTTP server goes on under the conditions of C136_kept_partial; C136_ssh_kept_partial: with fewer connections that break off a fetch than workers, and nothing else that goes on for ever, the others are answered, whatever is sent to the HTTP server."
  },
  {
   "property": "C137",
   "status": "partial",
   "theorems": [
    "Gust.C137_created_partial",
    "Gust.C137_finishes_partial"
   ],
   "note": "C137_created_partial: in every interleaving a branch of which the push has finished is shown, and C137_finishes_partial: a push that would be stored on its own can always go on to the end, whatever the others do. Partial: branches at the same commit (hidden, C52 and C126), updates that start from the commit of the new branch, a database that refuses rows, and packs mixed up in the temporary file (C59)."
  },
  {
   "property": "C138",
   "status": "partial",
   "theorems": [
    "Gust.C138_accepted_partial",
    "Gust.C138_published_partial",
    "Gust.C138_foreign_false",
    "Gust.C138_latin_false",
    "Gust.C138_tables_partial"
   ],
   "note": "C138_accepted_partial and C138_published_partial: after any history, over HTTP and SSH, a complete project in git's formats is accepted and cloned if its texts are UTF-8, its times are since 1970 and its tags have taggers (merges, signatures and other headers are no obstacle). C138_foreign_false: exactly the other ones are not answered at all: a single such object in the pack is enough; C138_latin_false: a concrete project with a message in ISO-8859-1 that no history makes acceptable. Partial also as C111 is (complete packs, one command). C138_tables_partial: accepted and cloned, with the tables of the dump, if the project fits their columns."
  },
  {
   "property": "C139",
   "status": "partial",
   "theorems": [
    "Gust.C139_unsigned_partial",
    "Gust.C139_signature_false",
    "Gust.C139_unsigned_both_partial",
    "Gust.C139_signature_both_false"
   ],
   "note": "C139_unsigned_partial: the commit made for a sub-directory is byte for byte the original with another tree and without parents, hence unsigned if the original is. C139_signature_false: if the original is signed, its signature stands on the generated commit, whose text is always another one, so the signature is wrong for every method of checking by which a signature belongs to one text. Hypotheses as for C110 (directory name unique, inserts accepted). Commits of the repository itself are delivered as pushed (C109). Both also over SSH, after any history of both servers (C139_unsigned_both_partial, C139_signature_both_false)."
  },
  {
   "property": "C140",
   "status": "partial",
   "theorems": [
    "Gust.C140_v4",
    "Gust.C140_exact",
    "Gust.C140_names_false",
    "Gust.C140_v6",
    "Gust.C140_links",
    "Gust.C140_default_link_false"
   ],
   "note": "C140_v4 and C140_v6: every IPv4 address in dotted notation and every IPv6 address in brackets (also with an IPv4 address in its last two groups), with every port. C140_exact: a server that starts listens at the given IPv4 address, or was given something in brackets. C140_links: links name the IPv4 address and the port at which the server listens. C140_names_false: with a host name such as localhost, or an IPv6 address without brackets, the server ends with a panic before it listens. C140_default_link_false: with the default options links name 0.0.0.0. Not modelled: the parser of the command line and whether the operating system grants the address."
  },
  {
   "property": "C141",
   "status": "partial",
   "theorems": [
    "Gust.C141_cut_false",
    "Gust.C141_wrong_false",
    "Gust.C141_kept_partial",
    "Gust.C141_again_partial"
   ],
   "note": "C141_kept_partial: a stop at any step but one leaves an upload of the right bytes as it was or complete. C141_again_partial: wherever it was stopped, sending the bytes again to the link succeeds and the file is delivered complete. C141_cut_false: stopped between creating (and emptying) the file and writing it, the object is delivered as an empty file from then on, and clients are told that it is there already, so that nobody uploads it again. C141_wrong_false: an upload of other bytes than promised, stopped between writing and removing them, is delivered as the object from then on. Not modelled: crashes of the machine, where the operating system loses writes; bodies longer than one write see C45."
  },
  {
   "property": "C142",
   "status": "partial",
   "theorems": [
    "Gust.C142_tables_partial",
    "Gust.C142_clone_partial",
    "Gust.C142_refs_partial",
    "Gust.C142_again_partial",
    "Gust.C142_both_clone_partial",
    "Gust.C142_both_again_partial"
   ],
   "note": "C142_clone_partial: wherever the server was stopped, a repository with a commit can be cloned, with exactly the objects of the stored commits, all complete. C142_refs_partial: every stored ref names a commit stored completely, so that a client which finds its branch knows that the push was stored. C142_again_partial: the push of a complete project is answered with success in every state that stops may leave, and clones deliver its files from then on, wherever the server is stopped again. Missing: inserts of commits that fail unnoticed (C26, C84_lost_commits_false), packs that leave out objects the server has (C111_update_false), directories above other repositories (C55), crashes of the database. C142_both_clone_partial and C142_both_again_partial: the same for pushes and clones over HTTP or SSH, which get the same answers. C142_tables_partial: as C142_both_again_partial, with the tables of the dump."
  },
  {
   "property": "C143",
   "status": "partial",
   "theorems": [
    "Gust.C143_tables_partial",
    "Gust.C143_lost_false",
    "Gust.C143_fetch_false",
    "Gust.C143_light_partial",
    "Gust.C143_lost_both_false",
    "Gust.C143_fetch_both_false",
    "Gust.C143_light_both_partial"
   ],
   "note": "C143_lost_false, C143_fetch_false: the push of an annotated tag is reported as a success and its ref is stored, but the tag object is thrown away: no pack in any later answer contains a tag, and a client that has some commits and asks for the tag is cut off. C143_light_partial: lightweight tags work: the ref is stored with the id of the commit, and clones have the commit with exactly its files; annotated tags in the same push do no harm to the commits. All three also over SSH, after any history of both servers (C143_lost_both_false, C143_fetch_both_false, C143_light_both_partial). C143_tables_partial: as C143_light_both_partial, with the tables of the dump."
  },
  {
   "property": "C144",
   "status": "partial",
   "theorems": [
    "Gust.C144_push_same",
    "Gust.C144_clone_same",
    "Gust.C144_fetch_false",
    "Gust.C144_report_false",
    "Gust.C144_push_both_same",
    "Gust.C144_clone_both_same",
    "Gust.C144_fetch_both_false",
    "Gust.C144_report_both_false"
   ],
   "note": "C144_push_same: two pushes of one ref that differ in their options leave the same state, and the clients read the same lines in the report (or are both cut off, or both kept waiting). C144_clone_same: two fetches without `have` lines get the same pack, in packets or as it is. False: C144_fetch_false, without `multi_ack_detailed` a client that names commits it has gets no pack at all; C144_report_false, the report is sent to those who did not ask for it. `atomic` is offered, but pushes of several refs are not executed at all (C24_several_server). All four also over SSH, after any history of both servers, and with the two requests made over different protocols (C144_push_both_same, C144_clone_both_same, C144_fetch_both_false, C144_report_both_false)."
  },
  {
   "property": "C145",
   "status": "partial",
   "theorems": [
    "Gust.C145_reads_partial",
    "Gust.C145_deep_false",
    "Gust.C145_push_false",
    "Gust.C145_ssh_false"
   ],
   "note": "C145_reads_partial: in any sequence of requests and messages on both servers without a push no file or directory is stored, and at most one ref and one commit per named path, with the tables of the dump and paths of at most 64 characters. False: C145_deep_false, every request for the refs of a path of 65 to 128 characters below a repository stores one more commit, because its ref does not fit and is never found again; C145_push_false, every answered push stores all its files and directories again, whatever is stored. C145_ssh_false: the long paths over SSH."
  },
  {
   "property": "C146",
   "status": "proved",
   "theorems": [
    "Gust.C146_read",
    "Gust.C146_twice",
    "Gust.C146_writable",
    "Gust.C146_history",
    "Gust.C146_locks",
    "Gust.C146_lossy"
   ],
   "note": "C146_read and C146_twice for every query string whose values are UTF-8, C146_lossy for values in other encodings (bytes that belong to no character are read as U+FFFD), C146_writable for every value, C146_locks for the list of the locks of every branch, C146_history: histories of requests with query strings reach only states that the other claims speak of."
  },
  {
   "property": "C147",
   "status": "partial",
   "theorems": [
    "Gust.C147_written_differs",
    "Gust.C147_plain_partial",
    "Gust.C147_encoded_false",
    "Gust.C147_same_false",
    "Gust.C147_ssh_partial",
    "Gust.C147_quote_false",
    "Gust.C147_space_false",
    "Gust.C147_space_empty_false",
    "Gust.C147_space_short_false"
   ],
   "note": "C147_plain_partial: a name written without % is the one the server looks for, and C110 applies. False: the path of a URL is never decoded. C147_encoded_false: for every history, whatever a client reads as HEAD of a path that ends in an encoded name is a commit with the root directory of some pushed commit, never the directory meant; C147_written_differs: a name with a space or a letter that is not ASCII is never its own encoding; C147_same_false: a run in which /app/src and /app/s%72c, the same URL by RFC 3986, give different HEADs. Over SSH, where the client decodes the URL and sends the path in quotes: C147_ssh_partial (paths without spaces, quotes and exclamation marks are looked for as they are); C147_quote_false (with a quote or an exclamation mark the text written for a shell is taken as the name); C147_space_false and C147_space_empty_false (with a space: every such request is one for another repository, so that the client reads an empty one); C147_space_short_false (a space among the first six characters ends the connection)."
  },
  {
   "property": "C148",
   "status": "partial",
   "theorems": [
    "Gust.C148_set_back_partial",
    "Gust.C148_kept_false",
    "Gust.C148_forced_false"
   ],
   "note": "C148_set_back_partial: the forced push is answered with ok and moves the branch only, over HTTP and SSH. The rest is false: C148_kept_false (for every published project, every forced push after it and every history before, between and after, every clone over HTTP or SSH still contains every commit of the project with all its files; hypotheses as for C111 and C126), C148_forced_false (a concrete run: the client is shown one commit for HEAD and master, and the clone contains another one and a file that only that one has)."
  },
  {
   "property": "C149",
   "status": "partial",
   "theorems": [
    "Gust.C149_fetched_partial",
    "Gust.C149_no_commit_false",
    "Gust.C149_refused_partial",
    "Gust.C149_unknown_false"
   ],
   "note": "C149_fetched_partial: the fetch is answered over HTTP and on every SSH session open for the repository with the same bytes, the ids called common are exactly those named that are stored (in any repository), and the pack has exactly the files of the wanted commits (hypotheses as for C115: unique ids, sizes, order of rows, no other project above). C149_refused_partial: if the client has something and none of the wanted commits is stored for the repository, no answer is sent. False: C149_no_commit_false (no such answer contains a commit, so nothing can be checked out), C149_unknown_false (without ids that the client has, wants are not looked at)."
  },
  {
   "property": "C150",
   "status": "partial",
   "theorems": [
    "Gust.C150_shown_partial",
    "Gust.C150_unaffected_partial",
    "Gust.C150_name_false"
   ],
   "note": "C150_shown_partial: the push is shown on both servers, which tell the same list, for repositories with a branch master whose refs have different ids, with the name that the server stores. C150_unaffected_partial: whatever is done except pushes to the repository, the same refs and HEAD are shown by both. C150_name_false: the name is never the pushed one (a NUL byte is appended), after every history and on both servers. Missing: inserts of refs that fail (C117), repositories without master (C122), branches at the same commit (C126)."
  },
  {
   "property": "C151",
   "status": "partial",
   "theorems": [
    "Gust.C151_again_partial",
    "Gust.C151_told_partial",
    "Gust.C151_update_false",
    "Gust.C151_two_values_false",
    "Gust.C151_tables_partial"
   ],
   "note": "C151_again_partial: a push that creates a branch is answered with ok when it is repeated, after anything anybody does on both servers, and clones before and after have the same objects. C151_told_partial: both servers tell the same refs before and after. C151_update_false: the repetition of every push that updates a branch is never answered. C151_two_values_false: after a repeated creation and an update, both servers tell of the branch twice, with the old and the new value, since the row was stored twice. Missing: inserts of refs and commits that fail (C117, C26). C151_tables_partial: as C151_again_partial, with the tables of the dump instead of tables that take every row."
  },
  {
   "property": "C152",
   "status": "partial",
   "theorems": [
    "Gust.C152_accepted_partial",
    "Gust.C152_exact_partial",
    "Gust.C152_same_partial",
    "Gust.C152_branches_partial",
    "Gust.C152_tables_accepted_partial",
    "Gust.C152_tables_exact_partial",
    "Gust.C152_tables_branches_partial"
   ],
   "note": "Refinement: Spec.Published describes by induction what has been published to a repository and which branches it has, without reference to the storage; pushes that are cut off or lack objects, and pushes whose branch has moved, are allowed between the others. C152_accepted_partial: the next push is answered with ok. C152_exact_partial: a clone is answered over both protocols with exactly the published objects. C152_same_partial: repositories to which the same objects were published give the same clones, on the same server or different ones. C152_branches_partial: clients are told exactly the branches published. Missing: pushes that are accepted although the project is not complete, of branches at the id of another branch (C53), inserts that fail (C105, C117), repositories above or below others (C55, C77), branch names (C150_name_false), repositories without master (C122). With the tables of the dump, for projects that fit the columns (Spec.PublishedFit, without pushes whose branch has moved): C152_tables_accepted_partial, C152_tables_exact_partial, C152_tables_branches_partial."
  },
  {
   "property": "C153",
   "status": "partial",
   "theorems": [
    "Gust.C153_copied_partial",
    "Gust.C153_tables_partial"
   ],
   "note": "C153_copied_partial: after any history in which complete projects were published, a clone is read, and its objects, pushed in any pack over HTTP or SSH to a path without pushes (of this server or another), are accepted with ok; clones of the copy have the same objects, whatever else is done. Missing: as for C152. C153_tables_partial: the same with the tables of the dump, if the original was published with such tables too; no assumption on the sizes of the copied objects is needed."
  },
  {
   "property": "C154",
   "status": "partial",
   "theorems": [
    "Gust.C154_cut",
    "Gust.C154_request",
    "Gust.C154_session",
    "Gust.C154_lacking",
    "Gust.C154_stale_false",
    "Gust.C154_tables_stale_false"
   ],
   "note": "Proved: C154_cut (only a part of the pack arrives over HTTP or SSH, wherever it is cut off: no answer, everything as before), C154_request (a request over HTTP cut off anywhere, in the command or the pack: no answer or an empty one, everything as before), C154_session (over SSH no pack arrives at all: everything as before), C154_lacking (an object reachable from a commit is not in the pack: likewise). False for pushes whose branch has moved or that delete a branch: C154_stale_false (no answer, branches as before, but every clone has the objects of the push from then on). Missing: inserts that fail (C105, C117). C154_tables_stale_false: as C154_stale_false, with the tables of the dump."
  },
  {
   "property": "C155",
   "status": "partial",
   "theorems": [
    "Gust.C155_restarted_partial",
    "Gust.C155_stays_partial",
    "Gust.C155_below_false",
    "Gust.C155_file_false"
   ],
   "note": "Proved without any hypothesis on how the content came into the repository: C155_stays_partial, and C155_restarted_partial for histories in which the servers are restarted. False below other repositories: C155_below_false (any path without a master branch of its own, below a repository that has one, when everything stored under its last name is a file: after somebody asks for its refs it can never be cloned again) and C155_file_false (a concrete run: a project with the branch main at /app/b, then a project with a file called b at /app, then the refs of /app/b are asked for). Missing: objects with the same id (C72), repositories that do not fit into one pack, directories nested deeper than the stack (C91). Requests are one after the other (C108 for overlapping ones)."
  },
  {
   "property": "C156",
   "status": "proved",
   "theorems": [
    "Gust.C156_unnoticed",
    "Gust.C156_numbers"
   ],
   "note": "C156_unnoticed: histories in which no connection outlives the process. C156_numbers: also when the server numbers its connections from 0 again. Every theorem about histories of both servers therefore holds for histories with restarts; C155_restarted_partial is an instance. Restarts here come between requests; a stop during a request is C141 and C142. Assumed: database and disk are not lost, and the configuration is the same."
  },
  {
   "property": "C157",
   "status": "partial",
   "theorems": [
    "Gust.C157_ssh_false",
    "Gust.C157_http_false",
    "Gust.C157_slash_partial"
   ],
   "note": "False. C157_ssh_false: after every history in which the path q has not been used over SSH, whatever was pushed over HTTP to /q, whoever asks for /q.git over SSH reads an empty repository; C157_http_false: the same the other way round. Both with concrete runs in which the push was reported as done. C157_slash_partial: over SSH the repository of the URL /q.git is found under //q.git, with the same HEAD and refs, after every history (it has a branch master, C122). Assumption of the _false theorems: the collation does not take /q and q for the same string."
  },
  {
   "property": "C158",
   "status": "proved",
   "theorems": [
    "Gust.C158_listed",
    "Gust.C158_asked"
   ],
   "note": "C158_listed (the listing, for every history), C158_asked (the three possible answers to a request for a lock, with when each is given). The listing is specified by a function of the exchanged requests and replies only. Two refs are the same if the database takes their names for equal. Ids that the server draws are assumed not to be empty (they have eight digits, Model/Clock). Requests that overlap in time are the subject of C40, C42 and C65."
  },
  {
   "property": "C159",
   "status": "proved",
   "theorems": [
    "Gust.C159_stays",
    "Gust.C159_same"
   ],
   "note": "C159_stays (any two fetches, one after the other), C159_same (two fetches after the same history). Both clients list something that they have, ask for multi_ack_detailed and a side-band and end the request with done; the replies are read by an independent reader (Spec.readFetch). The database is assumed to keep different ids apart (as its collation does). Which commits are called common is C103 and C149; requests that overlap in time are C111."
  },
  {
   "property": "C160",
   "status": "partial",
   "theorems": [
    "Gust.C160_download_partial",
    "Gust.C160_upload_partial",
    "Gust.C160_crash_false"
   ],
   "note": "C160_download_partial (the reply to every request for the object, as a function of the requests and replies before), C160_upload_partial (the reply to every upload; only oids of at least five characters named). Missing: announcements that were answered by a crash, for which it is false (C160_crash_false: they may count all the same); different spellings of one oid; uploads longer than one write; requests that overlap in time (C101). That bytes of a refused upload are delivered after a new announcement, as this says, is the defect of C44."
  },
  {
   "property": "C161",
   "status": "proved",
   "theorems": [
    "Gust.C161_one_reading",
    "Gust.C161_clone",
    "Gust.C161_fetch",
    "Gust.C161_overlapping"
   ],
   "note": "C161_clone (no have lines), C161_fetch (have lines; a client that does not ask for multi_ack_detailed gets no pack, see C144), C161_overlapping (both while any pushes and discoveries go on, in any interleaving of their queries), C161_one_reading (two lists of objects described by one file are equal). Stored objects are assumed to be smaller than 2^61 bytes. Clients that do not ask for a side-band get the same pack followed by four further bytes (C62). Which objects are in the pack is the matter of C115, C149 and C153."
  },
  {
   "property": "C162",
   "status": "proved",
   "theorems": [
    "Gust.C162_unnoticed"
   ],
   "note": "C162_unnoticed: Spec.LeftOut takes the readers' requests and connections out of the history; the state is equal and so is every reply to anybody else. A reading client on SSH may send anything but the beginning of a push. Requests and messages are handled one after the other (for overlapping ones see C104 and C108)."
  },
  {
   "property": "C163",
   "status": "partial",
   "theorems": [
    "Gust.C163_offered",
    "Gust.C163_rest_false",
    "Gust.C163_http_partial",
    "Gust.C163_ssh_false",
    "Gust.C163_offered_false"
   ],
   "note": "Over HTTP: none, always (C163_http_partial, because pushes of several refs are lost as a whole, C24). Over SSH false for every such push that works at all: in every state the first branch is created and reported, the others are not (C163_ssh_false); a whole run in which the server offers `atomic` first is C163_offered_false. For commands of any kind everything is as if the first had been the only one (C163_rest_false). Commands and pack in separate messages (C63)."
  },
  {
   "property": "C164",
   "status": "partial",
   "theorems": [
    "Gust.C164_failed_partial",
    "Gust.C164_again_partial",
    "Gust.C164_kept_false"
   ],
   "note": "No success, all branches unchanged, for every pack: C164_failed_partial. The same push again is answered with ok and moves the branch exactly once: C164_again_partial (complete projects, nobody pushes to the repository in between). Nothing is handed out: false for every complete project; objects and commits are inserted before the UPDATE statement and not taken back, so every later clone has them (C164_kept_false)."
  },
  {
   "property": "C165",
   "status": "partial",
   "theorems": [
    "Gust.C165_all_or_nothing_partial",
    "Gust.C165_clones_partial",
    "Gust.C165_again_partial"
   ],
   "note": "Both cases, for any behaviour of the database on the INSERT statements for files: C165_all_or_nothing_partial. Clones before and after a push that was not answered have the same objects: C165_clones_partial. The same push again: C165_again_partial. Missing: repositories inside others (a repository at a path that is a prefix of another one's). Failures of the statements after the files are C26 (commits, refs) and C164 (UPDATE)."
  },
  {
   "property": "C166",
   "status": "proved",
   "theorems": [
    "Gust.C166_step",
    "Gust.C166_granted",
    "Gust.C166_exclusive",
    "Gust.C166_ledger",
    "Gust.C166_works_again"
   ],
   "note": "One request in any state: C166_step. Histories: C166_granted (simulation by a database that never fails and gets the granted requests only), C166_ledger (listed locks from the replies), C166_exclusive, C166_works_again. Requests one after the other; overlapping ones are C40. Ids drawn for locks are not empty (C166_ledger; they have eight digits)."
  },
  {
   "property": "C167",
   "status": "partial",
   "theorems": [
    "Gust.C167_kept_partial",
    "Gust.C167_accepted_partial",
    "Gust.C167_content_partial",
    "Gust.C167_wrong_false"
   ],
   "note": "Uploaded objects stay: C167_kept_partial (bodies of at most one write; no further uploads for the oid). The right bytes are accepted whatever fails: C167_accepted_partial (announced with their size, oids of at least five characters). Only the right bytes are delivered as long as no upload for the oid was rejected or left unanswered: C167_content_partial. False for wrong bytes: when the DELETE statement after an upload of wrong bytes fails, the upload is not answered, the object stays announced, downloads deliver the wrong bytes and nobody is asked for the right ones (C167_wrong_false). Requests one after the other; overlapping ones are C101, C102 and C114. SELECT statements do not fail here; see C169."
  },
  {
   "property": "C168",
   "status": "proved",
   "theorems": [
    "Gust.C168_step",
    "Gust.C168_exclusive",
    "Gust.C168_stays",
    "Gust.C168_asked",
    "Gust.C168_works_again",
    "Gust.C168_refused_false"
   ],
   "note": "C168_step, C168_exclusive, C168_stays, C168_asked, and C168_works_again (afterwards every listed lock can be removed and every free file locked). What cannot be said, unlike in C166, is that a refused request changes nothing: a lock is made although the client is told that it was not, and a removal that is not answered may have removed the lock (C168_refused_false). Requests one after the other."
  },
  {
   "property": "C169",
   "status": "partial",
   "theorems": [
    "Gust.C169_kept_partial",
    "Gust.C169_accepted_partial",
    "Gust.C169_content_partial"
   ],
   "note": "C169_kept_partial, C169_accepted_partial, C169_content_partial, as in C167 with failing SELECT statements and lost answers. Missing: bodies longer than one write, oids of fewer than five characters, and wrong bytes uploaded for the oid, for which the claim is false (C167_wrong_false). Requests one after the other."
  }
 ]
}
{"id": "C01", "title": "Delta size field survives writing and reading", "statement": "Writing any object size as a delta header size field and reading it back, whatever bytes follow, gives the same size and consumes exactly the bytes that were written.", "quantifier": "every 64-bit size and every sequence of following bytes", "why_tests_cant": "2^64 sizes times all suffixes; a test covers a handful of sizes, and the interesting ones are the 7-bit group boundaries and the last group at shift 63.", "anchors": ["src/git/utils.rs: write_size_encoding", "src/git/utils.rs: read_size_encoding", "src/git/utils.rs: read_var_int_byte"]}
{"id": "C02", "title": "Pack entry header survives writing and reading", "statement": "The type-and-size header the server puts before every object in a pack is read back as the same object type and the same size, and reading stops exactly at the first byte after the header.", "quantifier": "every packable object type, every object size below 2^61, every continuation of the stream", "why_tests_cant": "The size space is unbounded for tests; the header switches length at 4, 11, 18, ... bits.", "anchors": ["src/git/object/metadata.rs: MetaData::convert_to_vec", "src/git/utils.rs: read_type_and_size", "src/git/utils.rs: keep_bits"]}
{"id": "C03", "title": "Offset-delta distance survives writing and reading", "statement": "For every distance between a delta object and its base, the distance written in the pack is the distance a reader gets back, and reading stops exactly after the written bytes.", "quantifier": "every distance from 1 to 2^64-1 and every continuation of the stream", "why_tests_cant": "Failures only occur for distances with a zero 7-bit group above the lowest one (first is 16384); sampling small distances passes.", "anchors": ["src/git/utils.rs: write_offset_encoding", "src/git/utils.rs: read_offset_encoding"]}
{"id": "C04", "title": "Object ids survive their hexadecimal text form", "statement": "Printing an object id and parsing the text gives the id back; parsing accepts exactly the strings of 40 hexadecimal digits (either case), and two accepted strings denote the same id exactly when they are equal up to letter case; everything else is rejected, never a panic.", "quantifier": "every 20-byte id and every byte string", "why_tests_cant": "All byte strings of all lengths must be rejected or accepted correctly; tests pick a few.", "anchors": ["src/git/hash.rs: Hash::from_bytes", "src/git/hash.rs: Hash::to_plain_str", "src/git/hash.rs: hex_char_value", "src/git/hash.rs: FromStr for Hash"]}
{"id": "C05", "title": "Object ids commit to type and content unambiguously", "statement": "The byte string that is hashed to form an object id is '<type> <decimal length>\\0<content>', and two objects with the same hashed byte string have the same type and the same content; hence two different objects share an id only if SHA-1 itself collides.", "quantifier": "every pair of object types and every pair of contents", "why_tests_cant": "Ambiguity of a serialisation is a statement about all pairs of objects.", "anchors": ["src/git/hash.rs: Hash::from_meta", "src/git/object/metadata.rs: MetaData::new", "src/git/object/types.rs: ObjectType::to_bytes"]}
{"id": "C06", "title": "Loose objects survive being written and read", "statement": "An object written to the loose object directory is stored under the path made of the first two and remaining 38 hex digits of its id, different ids go to different paths, and reading that file back gives an object with the same type, content, size and id.", "quantifier": "every object (four base types, any content) and every pair of ids", "why_tests_cant": "Unbounded contents, including contents containing spaces, NULs and digits that imitate the header.", "anchors": ["src/git/object/metadata.rs: MetaData::write_to_file", "src/git/object/metadata.rs: MetaData::read_object_from_file", "src/git/hash.rs: Hash::to_folder", "src/git/hash.rs: Hash::to_filename"]}
{"id": "C07", "title": "Object type codes are a faithful naming", "statement": "Each object type's pack number and textual name identify it: converting to a number and back, or to a name and back (for the four base types), is the identity, and no other number or name is accepted as a type.", "quantifier": "every object type, every byte value, every string", "why_tests_cant": "Rejecting every other name is a statement about all strings.", "anchors": ["src/git/object/types.rs: ObjectType::type2_number", "src/git/object/types.rs: ObjectType::number_type", "src/git/object/types.rs: ObjectType::from_string"]}
{"id": "C08", "title": "Tree objects survive encoding and decoding", "statement": "Encoding a list of tree entries and decoding the bytes yields the same entries in the same order with mode, name and id unchanged; and any byte string the decoder accepts is reproduced byte for byte by re-encoding, so a tree's id never changes by passing through the server.", "quantifier": "every list of well-formed entries, and every byte string accepted by the decoder", "why_tests_cant": "Entries are of any number, with any names (spaces, non-ASCII) and any 20 id bytes, including ids that contain NUL, space or digits.", "anchors": ["src/git/object/base/tree.rs: Tree::decode_metadata", "src/git/object/base/tree.rs: Tree::encode_metadata", "src/git/object/base/tree.rs: TreeItemType::tree_item_type_from"]}
{"id": "C09", "title": "Author, committer and tagger lines survive encoding and decoding", "statement": "Encoding an identity line (role, name, e-mail, timestamp, timezone) and decoding it gives the same five fields, for every name and e-mail free of angle brackets.", "quantifier": "every role without spaces, every name/e-mail without angle brackets, every 64-bit timestamp, every timezone text", "why_tests_cant": "Names and e-mails are arbitrary UTF-8 with spaces and punctuation of any length.", "anchors": ["src/git/object/base/sign.rs: AuthorSign::decode_from_data", "src/git/object/base/sign.rs: AuthorSign::encode_to_data"]}
{"id": "C10", "title": "Commit objects survive encoding and decoding", "statement": "Encoding a commit and decoding the bytes yields the same tree id, the same parents in the same order, the same author and committer and the same message.", "quantifier": "every commit: any number of parents, any well-formed author and committer, any UTF-8 message", "why_tests_cant": "Any number of parents and arbitrary messages (including ones imitating headers); the unit tests have no merge commit.", "anchors": ["src/git/object/base/commit.rs: Commit::decode_meta", "src/git/object/base/commit.rs: Commit::encode_metadata"]}
{"id": "C11", "title": "Tag objects survive encoding and decoding", "statement": "Encoding an annotated tag and decoding the bytes yields the same target id, target type, tag name, tagger and message.", "quantifier": "every tag: four target types, any name without newline, any tagger, any message", "why_tests_cant": "Arbitrary names and messages, including messages that imitate headers.", "anchors": ["src/git/object/base/tag.rs: Tag::decode_metadata", "src/git/object/base/tag.rs: Tag::encode_metadata"]}
{"id": "C12", "title": "A generated delta reproduces the target", "statement": "Whatever correct edit script the diff library reports between an old and a new object, applying the delta built from it to the old object gives exactly the new object's content.", "quantifier": "every pair of objects and every valid edit script between them", "why_tests_cant": "All pairs of contents and all scripts; errors appear only past instruction size limits (copies of 16 MiB and more) or on chunk boundaries.", "anchors": ["src/git/object/diff.rs: DeltaDiff", "src/git/object/diff.rs: DeltaDiff::decode_op", "src/git/object/delta.rs: apply_delta"]}
{"id": "C13", "title": "Delta application is memory safe and exact", "statement": "Applying a delta succeeds only if the declared base size is the base's size, every instruction is a valid copy inside the base or a complete literal, and the output has the declared length; the output is then exactly the concatenation of the designated base ranges and literals, with the base's type. In particular the output never contains bytes from outside the base or the delta.", "quantifier": "every base object and every byte string offered as a delta", "why_tests_cant": "The delta is attacker-controlled; the claim is about all byte strings.", "anchors": ["src/git/object/delta.rs: apply_delta", "src/git/object/delta.rs: apply_delta_instruction", "src/git/utils.rs: read_partial_int"]}
{"id": "C14", "title": "Generated delta instructions are well formed", "statement": "Every delta built from a valid edit script consists of instructions none of which is the reserved instruction 0, with literals of 1 to 127 bytes and copies that lie inside the base object.", "quantifier": "every pair of objects and every valid edit script", "why_tests_cant": "Merging and splitting of runs depends on the full history of callbacks.", "anchors": ["src/git/object/diff.rs: DeltaDiff::equal", "src/git/object/diff.rs: DeltaDiff::insert", "src/git/object/diff.rs: DeltaDiff::decode_op"]}
{"id": "C15", "title": "A pkt-line survives framing and reading", "statement": "A payload framed as a pkt-line and then read back gives the same payload, a reported length of payload plus four, and leaves exactly the following bytes, for payloads up to the protocol limit of 65531 bytes.", "quantifier": "every payload (1 to 65531 bytes) and every continuation", "why_tests_cant": "All payload lengths and contents; the framing breaks at the 16-bit boundary.", "anchors": ["src/git/protocol/pack.rs: add_pkt_line_string", "src/git/protocol/pack.rs: read_pkt_line"]}
{"id": "C16", "title": "A stream of pkt-lines is split exactly as it was built", "statement": "Reading packet after packet from any sequence of framed payloads and flush packets returns precisely that sequence, in order, and consumes the whole stream.", "quantifier": "every finite sequence of payloads and flush packets", "why_tests_cant": "Induction over streams of any length.", "anchors": ["src/git/protocol/pack.rs: read_pkt_line", "src/git/protocol/pack.rs: add_pkt_line_string"]}
{"id": "C17", "title": "Side-band transport delivers the pack unchanged", "statement": "However the pack is cut into reads when it is sent to a client that negotiated side-band-64k, every frame is within the 65520 byte limit and the client's demultiplexer (band 1 payloads concatenated until the flush packet) recovers exactly the pack bytes.", "quantifier": "every pack and every way the asynchronous reader may cut it into chunks", "why_tests_cant": "The chunking is decided by the runtime schedule.", "anchors": ["src/git/protocol/http.rs: send_pack", "src/git/protocol/ssh.rs: SshServer::handle_upload_pack", "src/git/protocol/pack.rs: PackProtocol::build_side_band_format"]}
{"id": "C18", "title": "Every fetch request gets an answer", "statement": "The server finishes processing every fetch request body, whatever the client sent; it answers or rejects but never loops forever.", "quantifier": "every request body", "why_tests_cant": "Non-termination is a statement about unbounded executions.", "anchors": ["src/git/protocol/pack.rs: PackProtocol::git_upload_pack", "src/git/protocol/pack.rs: read_pkt_line"]}
{"id": "C19", "title": "Fetch negotiation reads exactly the client's wants and haves", "statement": "For a well-formed fetch request, the ids the server collects as wanted and as already present are exactly those named in the client's want and have lines before 'done', for any number of them and with any flush packets or unknown lines in between.", "quantifier": "every well-formed request: any number and order of want/have/other lines", "why_tests_cant": "Requests are of any length.", "anchors": ["src/git/protocol/pack.rs: PackProtocol::git_upload_pack"]}
{"id": "C20", "title": "Acknowledgements only name objects both sides have", "statement": "Every id the server acknowledges (ACK) in a fetch is an id the client named in that request and that the server's storage contains.", "quantifier": "every request and every storage state", "why_tests_cant": "Depends on the whole request and the storage contents.", "anchors": ["src/git/protocol/pack.rs: PackProtocol::git_upload_pack"]}
{"id": "C21", "title": "Capability parsing is order independent and ignores unknown words", "statement": "After parsing a capability list, a capability is enabled exactly when one of the space-separated words (after trimming) is its name; order, repetition and unknown words do not matter.", "quantifier": "every capability string", "why_tests_cant": "All strings of words.", "anchors": ["src/git/protocol/pack.rs: PackProtocol::parse_capabilities", "src/git/protocol/mod.rs: FromStr for Capability"]}
{"id": "C22", "title": "Ref commands are classified correctly", "statement": "A pushed ref command is treated as a creation exactly when the old id is the zero id, as a deletion exactly when only the new id is, and as an update otherwise.", "quantifier": "every pair of ids", "why_tests_cant": "All pairs of id strings.", "anchors": ["src/git/protocol/mod.rs: RefCommand::new", "src/gust/driver/mod.rs: ZERO_ID"]}
{"id": "C23", "title": "The pushed ref name is understood exactly", "statement": "For a push command line as the git client sends it (old id, new id, ref name, NUL, capabilities), the ref name the server records is exactly the ref name the client sent.", "quantifier": "every old id, new id, ref name and capability list", "why_tests_cant": "All names and capability lists; the defect is an invisible trailing byte.", "anchors": ["src/git/protocol/pack.rs: PackProtocol::parse_ref_update", "src/git/protocol/pack.rs: read_until_white_space"]}
{"id": "C24", "title": "Every ref command of a push is executed", "statement": "For every well-formed push (any non-empty list of creations, updates and deletions, a flush packet, and a pack unless nothing is sent), when storage accepts everything, each command is applied to storage, in order.", "quantifier": "every list of ref commands and every pack", "why_tests_cant": "Lists of any length; unit tests use one creation.", "anchors": ["src/git/protocol/pack.rs: PackProtocol::git_receive_pack", "src/git/protocol/http.rs: git_receive_pack", "src/git/protocol/ssh.rs: SshServer::handle_receive_pack"]}
{"id": "C25", "title": "A single-command push hands over exactly the command and the pack", "statement": "For a push consisting of one ref command, a flush packet and a pack, the server records exactly the old id and new id sent and passes exactly the pack bytes on to unpacking.", "quantifier": "every pair of ids, every ref name, capability list and pack", "why_tests_cant": "All packs and names.", "anchors": ["src/git/protocol/pack.rs: PackProtocol::git_receive_pack", "src/git/protocol/pack.rs: PackProtocol::parse_ref_update"]}
{"id": "C26", "title": "A push reported ok is durable", "statement": "If the server reports 'ok' for a ref in a push, then the ref and all commits of the push are in storage afterwards, for every behaviour of the database (each insert may succeed or fail).", "quantifier": "every push and every success/failure pattern of database inserts", "why_tests_cant": "Ranges over all failure points of the external database.", "anchors": ["src/gust/driver/database/mysql/storage.rs: batch_save_model", "src/gust/driver/database/mysql/storage.rs: MysqlStorage::handle_refs", "src/git/protocol/mod.rs: RefCommand::get_status"]}
{"id": "C27", "title": "A pack survives encoding and decoding", "statement": "Encoding any non-empty list of objects as a pack and decoding it yields exactly those objects (type, content, id), each at the offset where it was written, the right object count, and a trailer equal to the SHA-1 of everything before it.", "quantifier": "every non-empty list of objects (any order) below the 32-bit limits", "why_tests_cant": "Any number of objects and contents.", "anchors": ["src/git/pack/encode.rs: Pack::encode", "src/git/pack/mod.rs: Pack::decode", "src/git/pack/mod.rs: Pack::next_object"]}
{"id": "C28", "title": "A delta-compressed pack survives encoding and decoding", "statement": "Encoding a list of objects with sliding-window delta compression and decoding the pack yields exactly the same objects, whichever base the similarity heuristic picks.", "quantifier": "every non-empty list of objects and every choice of delta bases within the window", "why_tests_cant": "All heuristic outcomes (floating point) and chains of deltas of any length.", "anchors": ["src/git/pack/encode.rs: Pack::encode_delta", "src/git/pack/mod.rs: Pack::next_object", "src/git/object/delta.rs: apply_delta"]}
{"id": "C29", "title": "Pack headers are accepted exactly when valid", "statement": "A pack is accepted past its header exactly when it starts with 'PACK', version 2 and a four byte count, and the count reported is the one in the header; writing a header and checking it gives the count back.", "quantifier": "every byte string and every count from 1 to 2^32-1", "why_tests_cant": "All byte strings.", "anchors": ["src/git/pack/mod.rs: Pack::check_header", "src/git/pack/encode.rs: Pack::encode_header", "src/git/utils.rs: u32_vec"]}
{"id": "C30", "title": "A damaged pack is never accepted", "statement": "If the trailing checksum of a pack is not the SHA-1 of its contents, decoding the pack fails.", "quantifier": "every pack and every damage to its trailer", "why_tests_cant": "All corruptions.", "anchors": ["src/git/pack/mod.rs: Pack::decode"]}
{"id": "C31", "title": "Decoding a pack always terminates", "statement": "Decoding terminates for every byte string presented as a pack; delta chains always end.", "quantifier": "every byte string", "why_tests_cant": "Non-termination is a statement about unbounded executions.", "anchors": ["src/git/pack/mod.rs: Pack::next_object", "src/git/object/delta.rs: apply_delta"]}
{"id": "C32", "title": "The decoded-object cache is consistent at all times", "statement": "After any sequence of insertions, the objects findable by id and the ids with a known offset are the same set, and looking up an offset returns the object most recently stored for that offset (ids identifying contents).", "quantifier": "every sequence of insertions", "why_tests_cant": "Histories of any length.", "anchors": ["src/git/pack/cache.rs: PackObjectCache::update", "src/git/pack/cache.rs: PackObjectCache::offset_object", "src/git/pack/cache.rs: PackObjectCache::hash_object"]}
{"id": "C33", "title": "Adding loose objects to an existing pack preserves both", "statement": "The pack obtained by combining an existing pack's body with loose objects decodes to exactly the old pack's objects at their old offsets followed by the loose objects, with the summed count.", "quantifier": "every valid pack and every list of loose objects", "why_tests_cant": "All packs and all lists of objects, including offset-delta chains in the old pack.", "anchors": ["src/git/pack/encode.rs: Pack::pack_object_dir", "src/git/pack/encode.rs: Pack::pack_loose", "src/git/utils.rs: get_pack_raw_data"]}
{"id": "C34", "title": "The pack index finds every object", "statement": "For the index generated from a decoded pack, decoding the index and looking up any object id of the pack gives that object's offset in the pack; ids not in the pack are not found; entries are sorted by id.", "quantifier": "every decoded pack with offsets below 2^32", "why_tests_cant": "Any number of objects with any ids.", "anchors": ["src/git/idx/mod.rs: Idx::encode", "src/git/idx/mod.rs: Idx::decode", "src/git/idx/mod.rs: Idx::get_offset"]}
{"id": "C35", "title": "The index fan-out table counts ids by first byte", "statement": "Entry b of the generated fan-out table is the number of objects whose id's first byte is at most b; the table is monotone and its last entry is the object count.", "quantifier": "every set of object ids", "why_tests_cant": "All sets of ids.", "anchors": ["src/git/idx/mod.rs: Idx::encode", "src/git/idx/mod.rs: Idx::sha1_prefix"]}
{"id": "C36", "title": "Sorting decoded objects by kind does not depend on scheduling", "statement": "Whatever order the worker threads finish in, the commits, trees, blobs and tags extracted from a decoded pack are the same collections: each cached object appears exactly once, in the collection of its type.", "quantifier": "every cache contents and every interleaving of worker threads", "why_tests_cant": "Ranges over thread schedules.", "anchors": ["src/git/pack/decode.rs: ObjDecodedMap::update_from_cache"]}
{"id": "C37", "title": "A complete object set passes the completeness check", "statement": "The completeness check accepts a decoded object set exactly when every tree and blob referred to by its commits and trees is present, and writing such a set back to a pack succeeds.", "quantifier": "every decoded object set", "why_tests_cant": "All object graphs.", "anchors": ["src/git/pack/decode.rs: ObjDecodedMap::check_completeness", "src/git/pack/decode.rs: ObjDecodedMap::vec_sliding_window", "src/git/pack/encode.rs: Pack::write"]}
{"id": "C38", "title": "Decoding with an index gives the same objects", "statement": "Decoding a pack file with the help of its index makes the same objects available as decoding it without.", "quantifier": "every pack and its index", "why_tests_cant": "All packs.", "anchors": ["src/git/pack/mod.rs: Pack::decode_by_idx"]}
{"id": "C39", "title": "Decoding several packs accounts for all objects", "statement": "Decoding several packs together reports as number of objects the sum of the packs' object counts and makes each pack's objects available, regardless of equal offsets in different packs.", "quantifier": "every list of packs", "why_tests_cant": "All lists of packs.", "anchors": ["src/git/pack/multidecode.rs: Pack::multi_decode", "src/git/pack/multidecode.rs: Pack::decode_with_cache"]}
{"id": "C40", "title": "At most one LFS lock per path", "statement": "In no reachable state do two locks of the same repository ref have the same path: a creation request for an already locked path is answered with a conflict and changes nothing.", "quantifier": "every history of lock requests, including concurrently processed requests", "why_tests_cant": "All histories and all interleavings of the check and the insertion.", "anchors": ["src/git/lfs/http.rs: lfs_create_lock", "src/gust/driver/database/mysql/storage.rs: lfs_add_lock", "src/gust/driver/database/mysql/storage.rs: lfs_get_filtered_locks"]}
{"id": "C41", "title": "Paging through locks shows every lock", "statement": "A client that lists locks with a page limit and follows the returned cursor until none is returned sees every lock exactly once.", "quantifier": "every lock list and every page limit", "why_tests_cant": "All list lengths relative to the limit; the loss only occurs when exactly one lock remains after a full page.", "anchors": ["src/gust/driver/database/mysql/storage.rs: lfs_get_filtered_locks", "src/git/lfs/http.rs: lfs_verify_lock"]}
{"id": "C42", "title": "Deleting a lock removes that lock and nothing else", "statement": "A successful unlock request removes exactly the lock with the given id and returns it; all other locks of that ref and all locks of other refs stay; an unknown id changes nothing.", "quantifier": "every lock store and every request", "why_tests_cant": "All states.", "anchors": ["src/gust/driver/database/mysql/storage.rs: lfs_delete_lock", "src/git/lfs/http.rs: lfs_delete_lock"]}
{"id": "C43", "title": "Listing locks honours path, cursor and limit", "statement": "A GET on the locks endpoint with a path parameter returns exactly the locks with this path; cursor and limit parameters are honoured.", "quantifier": "every lock store and every query", "why_tests_cant": "All query strings.", "anchors": ["src/git/lfs/http.rs: lfs_retrieve_lock", "src/gateway/api/lib.rs: get_method_router"]}
{"id": "C44", "title": "LFS downloads only ever deliver content matching the oid", "statement": "In every history of requests, a successful download for an oid delivers bytes whose SHA-256 is that oid.", "quantifier": "every history of batch, upload and download requests, including uploads of wrong content", "why_tests_cant": "All request histories.", "anchors": ["src/gust/driver/lfs_content_store/mod.rs: ContentStore::put", "src/git/lfs/http.rs: lfs_upload_object", "src/git/lfs/http.rs: lfs_download_object", "src/git/lfs/http.rs: lfs_process_batch"]}
{"id": "C45", "title": "A successful LFS upload can be downloaded", "statement": "After an upload that is answered with success, and until another upload for the same oid, a download of this oid delivers exactly the uploaded bytes, whatever other requests happen in between.", "quantifier": "every history between the upload and the download", "why_tests_cant": "All histories.", "anchors": ["src/gust/driver/lfs_content_store/mod.rs: ContentStore::put", "src/gust/driver/lfs_content_store/mod.rs: ContentStore::get", "src/git/lfs/http.rs: lfs_upload_object"]}
{"id": "C46", "title": "LFS objects never share a file", "statement": "Different oids accepted by the object routes are stored in different files, all inside the content directory.", "quantifier": "every pair of oids of lower-case letters and digits", "why_tests_cant": "All pairs of strings, including lengths below 5.", "anchors": ["src/gust/driver/lfs_content_store/mod.rs: transform_key"]}
{"id": "C47", "title": "LFS batch answers each object correctly", "statement": "The batch response contains one entry per requested object in request order; an entry offers a download exactly when metadata and content are present, an upload exactly when they are not and the operation is upload, and a 404 error otherwise.", "quantifier": "every batch request and every store state", "why_tests_cant": "Batches of any length with repeated oids.", "anchors": ["src/git/lfs/http.rs: lfs_process_batch", "src/git/lfs/http.rs: represent"]}
{"id": "C48", "title": "A push stores every reachable object", "statement": "After a successful push, every tree and blob reachable from the pushed commits is in storage with its exact content, and nothing else is stored under those ids; a push whose unchanged objects are already on the server succeeds too.", "quantifier": "every pushed object graph and every storage state", "why_tests_cant": "All object graphs with sharing at any depth.", "anchors": ["src/gust/driver/structure/nodes.rs: build_node_tree", "src/gust/driver/structure/nodes.rs: Repo::build_node_tree", "src/gust/driver/structure/nodes.rs: Repo::convert_node_to_model"]}
{"id": "C49", "title": "A full clone contains exactly the repository", "statement": "The pack sent for a clone contains every commit stored for the path and every tree and blob reachable from them, and nothing else, each exactly once.", "quantifier": "every storage state", "why_tests_cant": "All object graphs.", "anchors": ["src/gust/driver/database/mysql/storage.rs: MysqlStorage::get_full_pack_data", "src/gust/driver/database/mysql/storage.rs: MysqlStorage::get_child_trees"]}
{"id": "C50", "title": "An incremental fetch contains the wanted commits", "statement": "The pack sent for an incremental fetch contains every wanted commit and everything reachable from it that the client lacks.", "quantifier": "every storage state, want set and have set", "why_tests_cant": "All graphs and all sets.", "anchors": ["src/gust/driver/database/mysql/storage.rs: MysqlStorage::get_incremental_pack_data"]}
{"id": "C51", "title": "Batched inserts store everything once within limits", "statement": "When nodes are stored in batches, the batches concatenated are exactly the nodes in order, no batch is empty or larger than 50 rows, and the data size of every multi-row batch stays below the 10 MiB limit.", "quantifier": "every list of nodes with any data sizes", "why_tests_cant": "All lists and sizes.", "anchors": ["src/gust/driver/database/mysql/storage.rs: MysqlStorage::save_nodes", "src/gust/driver/database/mysql/storage.rs: batch_save_model"]}
{"id": "C52", "title": "Every ref is advertised", "statement": "The ref advertisement for a repository path lists every ref stored for the path, each with its current object id, and nothing else.", "quantifier": "every storage state", "why_tests_cant": "All sets of refs; the loss occurs only when two refs share an id.", "anchors": ["src/gust/driver/database/mysql/storage.rs: MysqlStorage::get_ref_object_id", "src/git/protocol/pack.rs: PackProtocol::git_info_refs"]}
{"id": "C53", "title": "Updating a ref changes that ref only", "statement": "An accepted update of a ref sets this ref to the new id and leaves every other ref unchanged.", "quantifier": "every storage state and every update command", "why_tests_cant": "All sets of refs.", "anchors": ["src/gust/driver/database/mysql/storage.rs: MysqlStorage::update_refs", "src/gust/driver/database/mysql/storage.rs: MysqlStorage::handle_refs"]}
{"id": "C54", "title": "HEAD resolution is stable", "statement": "The advertised HEAD of a path is the id of the master ref stored for exactly this path if there is one, the zero id if no stored path is an ancestor, and asking again without a push in between gives the same answer.", "quantifier": "every storage state and path", "why_tests_cant": "All states.", "anchors": ["src/gust/driver/database/mysql/storage.rs: MysqlStorage::get_head_object_id", "src/gust/driver/database/mysql/storage.rs: MysqlStorage::search_refs"]}
{"id": "C55", "title": "Cloning a sub-directory gives that sub-directory's current tree", "statement": "The HEAD commit generated for a sub-directory path has as its tree the tree found by following the path from the parent repository's current root tree.", "quantifier": "every repository tree, every path, every history of pushes", "why_tests_cant": "All trees and histories.", "anchors": ["src/gust/driver/database/mysql/storage.rs: MysqlStorage::generate_child_commit_and_refs", "src/gust/driver/database/mysql/storage.rs: MysqlStorage::search_root_node_by_path"]}
{"id": "C56", "title": "Different repository URLs are different repositories", "statement": "Two different repository URLs are served from different storage paths, and the same repository reached over HTTP and over SSH is served from the same storage path.", "quantifier": "every pair of repository URLs", "why_tests_cant": "All strings.", "anchors": ["src/gateway/api/lib.rs: remove_git_suffix", "src/git/protocol/ssh.rs: SshServer::handle_git_command"]}
{"id": "C57", "title": "Requests are routed to the right handler", "statement": "Each documented endpoint URL is dispatched to its handler with the right oid or lock id extracted, for every repository prefix, and any other path is answered 404.", "quantifier": "every request path and method", "why_tests_cant": "All path strings.", "anchors": ["src/gateway/api/lib.rs: get_method_router", "src/gateway/api/lib.rs: post_method_router", "src/gateway/api/lib.rs: put_method_router"]}
{"id": "C58", "title": "Object ordering is a lawful total order", "statement": "The ordering used to sort commits, trees and blobs for delta compression is a total preorder whose 'equal' agrees with equality, so sorting is deterministic up to equality.", "quantifier": "every triple of objects", "why_tests_cant": "All triples.", "anchors": ["src/git/object/base/tree.rs: Ord for Tree", "src/git/object/base/blob.rs: Ord for Blob", "src/git/object/base/commit.rs: Ord for Commit"]}
{"id": "C59", "title": "Concurrent pushes do not interfere", "statement": "Two pushes processed concurrently each unpack exactly the pack they received.", "quantifier": "every pair of packs and every interleaving of their file operations", "why_tests_cant": "Ranges over all interleavings.", "anchors": ["src/git/protocol/pack.rs: PackProtocol::git_receive_pack", "src/git/protocol/mod.rs: RefCommand::unpack"]}
{"id": "C60", "title": "The ref advertisement is parseable", "statement": "A client that splits the advertisement into packets reads the service announcement, a flush packet, then a first line whose id is HEAD's and whose capabilities are the service's, then one line per ref with that ref's id and name, then a final flush packet.", "quantifier": "every HEAD id, ref list and service type", "why_tests_cant": "All ref lists.", "anchors": ["src/git/protocol/pack.rs: PackProtocol::git_info_refs", "src/git/protocol/pack.rs: PackProtocol::build_smart_reply"]}
{"id": "C61", "title": "The commit generated for a sub-directory is a faithful copy", "statement": "The commit generated for a sub-directory has the parent commit's author, committer and message, the given tree and no parents, and its recorded id is the id of its recorded content.", "quantifier": "every stored commit and tree id", "why_tests_cant": "All commits.", "anchors": ["src/gust/driver/structure/mod.rs: Commit::build_from_model_and_root", "src/gust/driver/structure/mod.rs: Commit::convert_to_model"]}
{"id": "C62", "title": "Pack delivery respects what the client negotiated", "statement": "A client that negotiated plain side-band only gets packets of at most 1000 bytes, and a client that negotiated no side-band gets exactly the pack bytes after the acknowledgements.", "quantifier": "every pack, every way it is cut into reads and every capability list without side-band-64k", "why_tests_cant": "All packs and all chunkings.", "anchors": ["src/git/protocol/http.rs: send_pack", "src/git/protocol/pack.rs: PackProtocol::build_side_band_format"]}
{"id": "C63", "title": "SSH requests do not depend on how bytes are divided into messages", "statement": "A fetch or push over SSH has the same outcome however its bytes are divided into SSH data messages.", "quantifier": "every request and every division into messages", "why_tests_cant": "Message boundaries are chosen by the network and cannot be enumerated.", "anchors": ["src/git/protocol/ssh.rs: SshServer::data", "src/git/protocol/ssh.rs: SshServer::handle_upload_pack", "src/git/protocol/ssh.rs: SshServer::handle_receive_pack"]}
{"id": "C64", "title": "Every well-formed pack decodes to the objects it stands for", "statement": "A pack that follows the documented format (whole objects, offset deltas and reference deltas in any mixture, delta chains of any length, written by any program) decodes successfully to exactly the objects its entries stand for, each findable by its id and at its offset, with the count in the header.", "quantifier": "every well-formed pack within the 32-bit offset limit, every set of objects in storage", "why_tests_cant": "All mixtures of entry kinds, chain shapes and encodings other programs may choose.", "anchors": ["src/git/pack/mod.rs: Pack::decode", "src/git/pack/mod.rs: Pack::next_object", "src/git/object/delta.rs: apply_delta"]}
{"id": "C65", "title": "An acknowledged lock stays listed until its deletion is requested", "statement": "After a lock creation is answered with success, the lock is in the listing of its ref until a deletion with its id is requested for that ref, whatever other lock requests happen in between.", "quantifier": "every history of lock requests, including concurrently processed requests", "why_tests_cant": "All interleavings of read-modify-write requests by any number of clients.", "anchors": ["src/gust/driver/database/mysql/storage.rs: lfs_add_lock", "src/gust/driver/database/mysql/storage.rs: lfs_delete_lock", "src/git/lfs/http.rs: lfs_create_lock"]}
{"id": "C66", "title": "Locks held by others are reported as theirs and protected", "statement": "When a client verifies locks before a push, locks created by other users are listed under 'theirs', and a lock of another user can only be removed with the force flag.", "quantifier": "every reachable lock store and every client", "why_tests_cant": "All histories of creations by several users.", "anchors": ["src/git/lfs/http.rs: lfs_verify_lock", "src/git/lfs/http.rs: lfs_create_lock", "src/gust/driver/database/mysql/storage.rs: lfs_delete_lock"]}
{"id": "C67", "title": "Locks are listed oldest first", "statement": "Every listing of the locks of a ref is ordered by the time the locks were taken.", "quantifier": "every history of lock requests", "why_tests_cant": "All histories and all clock values.", "anchors": ["src/gust/driver/database/mysql/storage.rs: lfs_add_lock", "src/git/lfs/http.rs: lfs_retrieve_lock"]}
{"id": "C70", "title": "The push report tells the client what happened", "statement": "After a push of one ref, a client that reads the report in the way it negotiated (side-band or plain) finds the line 'unpack ok' and one line 'ok <ref>' when the pack was stored and the ref handled, or 'ng <ref> <reason>' when storing failed, in which case the ref was not touched.", "quantifier": "every push of one ref command, every capability list, every behaviour of the storage", "why_tests_cant": "All names, capability lists and storage behaviours; the reader is an independent implementation of the packet and side-band format.", "anchors": ["src/git/protocol/pack.rs: git_receive_pack", "src/git/protocol/mod.rs: RefCommand::get_status", "src/git/protocol/pack.rs: build_side_band_format"]}
{"id": "C68", "title": "A correct LFS upload is accepted", "statement": "An upload of bytes whose SHA-256 is the oid, for an oid announced with the size of these bytes, is accepted, whatever other clients have requested before.", "quantifier": "every history of batch, upload and download requests", "why_tests_cant": "All request histories, including uploads that leave files and directories behind.", "anchors": ["src/git/lfs/http.rs: lfs_upload_object", "src/git/lfs/http.rs: lfs_process_batch", "src/gust/driver/lfs_content_store/mod.rs: ContentStore::put", "src/gust/driver/database/mysql/storage.rs: lfs_put_meta"]}
{"id": "C69", "title": "LFS object requests do not look at or change files outside the content directory", "statement": "The replies to batch, upload and download requests do not depend on files outside the content directory, and these files are not changed.", "quantifier": "every history of requests, every two disks that agree on the content directory", "why_tests_cant": "A statement about pairs of executions, for all histories and all contents of the rest of the disk.", "anchors": ["src/git/lfs/http.rs: lfs_process_batch", "src/gust/driver/lfs_content_store/mod.rs: transform_key", "src/gust/driver/lfs_content_store/mod.rs: ContentStore::exist", "src/gust/driver/lfs_content_store/mod.rs: ContentStore::put"]}
{"id": "C71", "title": "A stored commit is never missing content", "statement": "At every moment, every commit stored for a repository path can be read and every tree and blob reachable from it is stored under its own id, also after pushes that failed half-way or whose inserts were lost.", "quantifier": "every history of pushes of any packs to any paths, with every failure of the database, and ref changes", "why_tests_cant": "All histories and all points of failure; it is an invariant, not an input/output relation.", "anchors": ["src/gust/driver/database/mysql/storage.rs: MysqlStorage::save_packfile", "src/gust/driver/structure/nodes.rs: build_node_tree", "src/gust/driver/database/mysql/storage.rs: MysqlStorage::batch_save_model"]}
{"id": "C72", "title": "What is pushed comes back on clone", "statement": "After an answered push, a clone of the same path contains what it contained before plus every pushed commit, tag, tree and blob reachable from the pushed commits and tags, with exact content, and nothing else.", "quantifier": "every history, every pushed pack, every later clone", "why_tests_cant": "All object graphs and all earlier histories; the chain covers pack decoding, storing, collecting and pack encoding.", "anchors": ["src/git/protocol/pack.rs: git_receive_pack", "src/git/protocol/pack.rs: git_upload_pack", "src/gust/driver/database/mysql/storage.rs: MysqlStorage::save_packfile", "src/gust/driver/database/mysql/storage.rs: MysqlStorage::get_full_pack_data"]}
{"id": "C73", "title": "A push does not change other repositories", "statement": "A push to one path, successful or not, leaves the set of objects a clone of any other path receives unchanged, although all repositories share one table of trees and blobs.", "quantifier": "every history, every pack, every pair of different paths", "why_tests_cant": "All histories; rows are shared between repositories by id.", "anchors": ["src/gust/driver/database/mysql/storage.rs: MysqlStorage::save_packfile", "src/gust/driver/database/mysql/storage.rs: MysqlStorage::get_full_pack_data"]}
{"id": "C74", "title": "LFS links work", "statement": "A client that announces an LFS object is given a link; a PUT of the content to that link succeeds, afterwards every batch request naming the object offers a download link, and a GET of that link returns exactly the uploaded bytes, whatever other requests came in between.", "quantifier": "every history of HTTP requests before and between, every content, every oid", "why_tests_cant": "Ranges over all histories and contents; links are made by one function and taken apart by another, in a different file.", "anchors": ["src/git/lfs/structs.rs: RequestVars::download_link", "src/git/lfs/http.rs: lfs_process_batch", "src/git/lfs/http.rs: lfs_upload_object", "src/git/lfs/http.rs: lfs_download_object", "src/gateway/api/lib.rs: get_method_router"]}
{"id": "C75", "title": "Repositories, locks and LFS objects are independent", "statement": "Whatever requests a server has handled, a git request, over HTTP or SSH, is answered as if no lock or LFS object request had been made, a lock request as if no git or LFS object request had been made, and an LFS object request as if no git or lock request had been made.", "quantifier": "every history of HTTP requests and SSH messages, every next request or message", "why_tests_cant": "Non-interference over all histories cannot be covered by cases.", "anchors": ["src/gateway/api/lib.rs: get_method_router", "src/gateway/api/lib.rs: post_method_router", "src/gateway/api/lib.rs: put_method_router", "src/git/protocol/ssh.rs: handle_upload_pack", "src/git/protocol/ssh.rs: handle_receive_pack"]}
{"id": "C76", "title": "A failed request changes nothing", "statement": "When a request is answered with an error status, or gets no answer, the server's repositories, locks and LFS objects are as before.", "quantifier": "every state, every request over HTTP, every push over SSH", "why_tests_cant": "All states and all requests, including malformed ones and failing inserts.", "anchors": ["src/gateway/api/lib.rs: get_method_router", "src/gateway/api/lib.rs: post_method_router", "src/git/lfs/http.rs: lfs_upload_object", "src/git/protocol/pack.rs: git_receive_pack", "src/git/protocol/ssh.rs: handle_upload_pack", "src/git/protocol/ssh.rs: handle_receive_pack"]}
{"id": "C77", "title": "No HTTP history leaves an incomplete commit", "statement": "After any sequence of HTTP requests with any bodies, every stored commit can be read and everything reachable from it is stored, readable and under its own id.", "quantifier": "every sequence of requests, every behaviour of the database", "why_tests_cant": "All request sequences, malformed packs and crashes included.", "anchors": ["src/git/protocol/http.rs: git_receive_pack", "src/git/protocol/pack.rs: git_receive_pack", "src/gust/driver/database/mysql/storage.rs: MysqlStorage::save_packfile"]}
{"id": "C78", "title": "Push over HTTP, clone over HTTP", "statement": "After a push to a URL has been answered, a clone of that URL is answered and a protocol client reads from the reply a pack with exactly what the repository contained before plus the pushed commits and everything they reach, whatever requests that do not push to that path came in between.", "quantifier": "every history, every pack, every URL", "why_tests_cant": "End to end over all histories and all object graphs: routing, packet lines, pack decoding, storage, collecting, pack encoding, side-band.", "anchors": ["src/git/protocol/http.rs: git_receive_pack", "src/git/protocol/http.rs: git_upload_pack", "src/git/protocol/http.rs: send_pack", "src/gateway/api/lib.rs: post_method_router"]}
{"id": "C79", "title": "GET is safe", "statement": "No GET request changes the answer to any later request over HTTP or message over SSH.", "quantifier": "every state, every GET request, every later history of HTTP requests and SSH messages", "why_tests_cant": "Quantifies over all later histories.", "anchors": ["src/gateway/api/lib.rs: get_method_router", "src/git/protocol/pack.rs: git_info_refs", "src/gust/driver/database/mysql/storage.rs: MysqlStorage::get_head_object_id", "src/git/protocol/ssh.rs: handle_upload_pack", "src/git/protocol/ssh.rs: handle_receive_pack"]}
{"id": "C80", "title": "Thin packs", "statement": "A pushed pack may leave out the bases of its deltas when the server has them: every well-formed pack whose deltas refer to earlier entries or to objects stored in any repository of the server is read as exactly the objects it stands for.", "quantifier": "every history of HTTP requests and of messages on SSH connections, every well-formed pack, every stored base", "why_tests_cant": "Ranges over all histories, packs and deltas; needs the decoder and what earlier pushes stored to agree.", "anchors": ["src/git/pack/mod.rs: Pack::next_object", "src/gust/driver/database/mysql/storage.rs: MysqlStorage::get_hash_object"]}
{"id": "C81", "title": "Clones during pushes", "statement": "A clone of a repository that overlaps with pushes and discoveries of any repositories succeeds and contains exactly the commits, trees and files which the repository had when the clone began to read: no object of a half-finished push without the rest, nothing missing.", "quantifier": "every number of overlapping requests, every interleaving of their database statements, every moment at which other requests are cut off", "why_tests_cant": "Interleavings of requests cannot be enumerated; a test sees one schedule of a real database.", "anchors": ["src/gust/driver/database/mysql/storage.rs: MysqlStorage::get_full_pack_data", "src/gust/driver/database/mysql/storage.rs: MysqlStorage::save_packfile"]}
{"id": "C82", "title": "Overlapping pushes", "statement": "Whatever requests overlap and wherever they are cut off: at every moment every commit stored for a repository is readable with its whole tree, every object of the repository came from a pack pushed to it, and every push that has finished has all its commits and what they reach in its repository.", "quantifier": "every number of overlapping pushes and discoveries, every interleaving of their database statements, every moment", "why_tests_cant": "Ranges over all schedules and all points of interruption.", "anchors": ["src/gust/driver/database/mysql/storage.rs: MysqlStorage::save_packfile", "src/gust/driver/database/mysql/storage.rs: MysqlStorage::save_nodes", "src/gust/driver/database/mysql/storage.rs: MysqlStorage::get_head_object_id"]}
{"id": "C83", "title": "Of two updates from the same commit one fails", "statement": "When two pushes update a branch from the same old commit, at most one of them succeeds: no update is lost silently.", "quantifier": "every state, every pair of updates, every schedule", "why_tests_cant": "The race shows up only under particular schedules.", "anchors": ["src/gust/driver/database/mysql/storage.rs: MysqlStorage::update_refs"]}
{"id": "C84", "title": "Refs never dangle", "statement": "If every push names a commit of its own pack, then at every moment, whatever requests overlap or are cut off, every ref the server advertises names a commit stored for that repository, with the id it says, and with its whole tree stored.", "quantifier": "every number of overlapping requests, every interleaving, every moment", "why_tests_cant": "Ranges over all schedules and all points of interruption.", "anchors": ["src/gust/driver/database/mysql/storage.rs: MysqlStorage::handle_refs", "src/gust/driver/database/mysql/storage.rs: MysqlStorage::generate_child_commit_and_refs", "src/gust/driver/database/mysql/storage.rs: MysqlStorage::batch_save_model"]}
{"id": "C85", "title": "SSH sessions do not disturb each other", "statement": "What a client is sent in an SSH session depends only on the messages of that session and on the contents of the repositories: other sessions, whether on other connections or on other channels of the same connection, change nothing else, even when they crash.", "quantifier": "all histories of messages of any number of connections and channels, all repositories", "why_tests_cant": "Interference needs particular interleavings of several clients; tests drive one client at a time.", "anchors": ["src/git/protocol/ssh.rs:23-110", "src/git/protocol/ssh.rs:141-202"]}
{"id": "C86", "title": "SSH and HTTP do the same", "statement": "Asking for a repository, fetching and pushing over SSH give the client the same bytes (but for the HTTP header of the advertisement) and change the repositories in the same way as the same requests over HTTP at that moment.", "quantifier": "all repositories, histories of other connections, requests, packs and channels", "why_tests_cant": "Two transports with separate code must agree on every request in every state.", "anchors": ["src/git/protocol/ssh.rs:141-202", "src/git/protocol/http.rs:35-111", "src/git/protocol/pack.rs:46-223"]}
{"id": "C87", "title": "SSH access depends on credentials", "statement": "A client with wrong credentials cannot do over SSH what a client with the right ones can.", "quantifier": "all users, passwords and keys, all histories", "why_tests_cant": "Tests try a few credentials; the claim is about all of them and everything done afterwards.", "anchors": ["src/git/protocol/ssh.rs:72-85"]}
{"id": "C88", "title": "Only a deletion removes a ref", "statement": "No request other than a push that deletes a ref ever removes or renames a ref of any repository: after any history of requests over HTTP or SSH, one after the other or overlapping, answered or crashed, every ref that existed before still exists under its repository path and name, and keeps its place in the order of creation.", "quantifier": "every history of requests, every interleaving, every database behaviour (inserts that fail), every server state", "why_tests_cant": "Histories of any length, crashes in the middle of requests, and interleavings cannot be enumerated by tests.", "anchors": ["src/gust/driver/database/mysql/storage.rs: MysqlStorage::handle_refs", "src/gust/driver/database/mysql/storage.rs: MysqlStorage::generate_child_commit_and_refs", "src/gateway/api/lib.rs: post_method_router"]}
{"id": "C89", "title": "A deleted branch is gone, the others stay", "statement": "A push that deletes a branch removes exactly this branch from its repository, and the client is told so.", "quantifier": "every server state, repository URL, branch and pack", "why_tests_cant": "Needs all states of storage and all branch names.", "anchors": ["src/gust/driver/database/mysql/storage.rs: MysqlStorage::delete_refs", "src/git/protocol/http.rs: git_receive_pack", "src/git/protocol/pack.rs: PackProtocol::git_receive_pack"]}
{"id": "C90", "title": "A repository serves only what was pushed to it", "statement": "Whatever requests the server has handled before, the reply to a clone or fetch of a repository consists of acknowledgements of ids the client itself sent and of a pack in which every object was contained in a pack that some client pushed to that repository's path: content of other repositories on the same server is never handed out.", "quantifier": "every history of requests of all kinds over HTTP to any paths, every fetch request (wants, haves, capabilities), every order in which the database returns rows", "why_tests_cant": "Isolation over histories of any length with any mix of repositories sharing objects cannot be tested exhaustively; the tables are shared by all repositories.", "anchors": ["src/gust/driver/database/mysql/storage.rs: MysqlStorage::get_full_pack_data", "src/gust/driver/database/mysql/storage.rs: MysqlStorage::get_incremental_pack_data", "src/gust/driver/database/mysql/storage.rs: MysqlStorage::generate_child_commit_and_refs", "src/gust/driver/database/mysql/storage.rs: MysqlStorage::save_packfile", "src/git/protocol/pack.rs: PackProtocol::git_upload_pack"]}
{"id": "C91", "title": "No directory contains itself, so every clone ends", "statement": "Whatever is pushed to whatever paths, also by pushes that fail half-way, no stored directory contains itself, directly or through other directories; assembling the objects for a clone or fetch of any path, with any ids the client names, therefore always comes to an end, with no more nested calls than there are stored files and directories; a pack with a directory that contains itself is refused and leaves nothing behind.", "quantifier": "every history of requests of all kinds over HTTP and SSH to any paths with any packs, every path cloned or fetched, every list of ids named, every digest function without collision among the objects pushed", "why_tests_cant": "Termination for all histories and packs cannot be tested: a test sees only that some clones end, and packs with cyclic directories cannot be made with the real SHA-1.", "anchors": ["src/gust/driver/structure/nodes.rs: Repo::build_node_tree", "src/gust/driver/database/mysql/storage.rs: MysqlStorage::get_child_trees", "src/gust/driver/database/mysql/storage.rs: MysqlStorage::get_full_pack_data"]}
{"id": "C92", "title": "Every request is answered", "statement": "Every request to the server, to whatever URL and with whatever body, is answered after finite time, by a reply or by closing the connection, whatever the server has handled before: no client can occupy a worker for ever.", "quantifier": "every history of HTTP requests and SSH messages, every HTTP request of every kind (discovery, clone, fetch, push, large-file objects and locks, unknown URLs), every body; every SSH message on every connection", "why_tests_cant": "Non-termination cannot be observed by a test, and neither can termination for all bodies and all stored repositories.", "anchors": ["src/gateway/api/lib.rs: get_method_handlers", "src/gateway/api/lib.rs: post_method_handlers", "src/git/protocol/pack.rs: PackProtocol::git_upload_pack", "src/git/protocol/pack.rs: PackProtocol::git_receive_pack", "src/git/pack/mod.rs: Pack::next_object", "src/gust/driver/database/mysql/storage.rs: MysqlStorage::save_packfile", "src/gust/driver/database/mysql/storage.rs: MysqlStorage::get_child_trees"]}
{"id": "C93", "title": "Packing an object directory keeps exactly its loose objects", "statement": "Storing objects one after the other in an object directory and then packing the directory creates one pack file, named after its own checksum, from which exactly the stored objects are decoded, each once, in whatever order the directory is listed and whatever else it contains.", "quantifier": "every list of objects stored, every object directory, every order of listing", "why_tests_cant": "The order of a directory listing is up to the file system, and what happens for all sets of objects and stray files cannot be enumerated by tests.", "anchors": ["src/git/pack/encode.rs: Pack::pack_loose_from_dir", "src/git/pack/encode.rs: Pack::find_all_loose", "src/git/pack/encode.rs: Pack::pack_loose_files", "src/git/object/metadata.rs: MetaData::write_to_file"]}
{"id": "C94", "title": "Repacking an object directory loses no object", "statement": "Repacking an object directory creates one pack file, named after its own checksum, from which exactly the objects of the packs and the loose objects of the directory are decoded.", "quantifier": "every object directory with any packs and any loose objects, every order of listing", "why_tests_cant": "It is a statement about all directories and all packs in them; a test uses one directory, usually with one pack.", "anchors": ["src/git/pack/encode.rs: Pack::pack_object_dir", "src/git/pack/encode.rs: Pack::find_pack_file", "src/git/pack/encode.rs: Pack::find_all_loose"]}
{"id": "C95", "title": "Reading a directory of packs makes all their objects available", "statement": "Decoding all packs of a directory makes exactly the objects of all its packs available by their ids, whatever other files the directory contains, in whatever order it is listed, and whenever the packs were created.", "quantifier": "every directory of packs, every order of listing, every order of creation times", "why_tests_cant": "Listing order and creation times are up to the file system; tests see one of them, with the packs at hand.", "anchors": ["src/git/pack/multidecode.rs: Pack::multi_decode", "src/git/pack/multidecode.rs: Pack::decode_with_cache", "src/git/utils.rs: find_all_pack_file"]}
{"id": "C96", "title": "A pushed branch is shown to clients under its name", "statement": "After a push that creates or moves a branch is answered, every client that asks for the refs of the repository, after any requests that do not push to it, is shown the pushed branch under its name with the pushed id; if the branch is the only master, HEAD has that id too.", "quantifier": "every repository, every branch name and id, every pushed pack, every history of requests in between that do not push to this repository", "why_tests_cant": "It quantifies over all requests that other clients may send between the push and the question, and over all states of the database.", "anchors": ["src/git/protocol/pack.rs: PackProtocol::git_receive_pack", "src/git/protocol/pack.rs: PackProtocol::git_info_refs", "src/gust/driver/database/mysql/storage.rs: handle_refs", "src/gust/driver/database/mysql/storage.rs: get_ref_object_id", "src/gust/driver/database/mysql/storage.rs: get_head_object_id"]}
{"id": "C97", "title": "Requests to other repositories do not change what a repository shows", "statement": "Whatever is pushed to other repositories and whatever is asked of this one, a client that asks for the refs of a repository is shown the same refs with the same ids as before.", "quantifier": "every repository with a master branch, every history of requests that do not push to it", "why_tests_cant": "Isolation is a statement about every history of requests to every other repository; tests try a few names.", "anchors": ["src/gust/driver/database/mysql/storage.rs: search_refs", "src/gust/driver/database/mysql/storage.rs: get_ref_object_id", "src/gust/driver/database/mysql/storage.rs: get_head_object_id", "src/gust/driver/database/mysql/storage.rs: handle_refs", "src/gateway/api/lib.rs: get_method_router"]}
{"id": "C98", "title": "Replies carry the media type that belongs to them", "statement": "A successful reply to a git request has status 200, the media type of git's HTTP protocol for that request, and forbids caching; the ref list of a service begins with the announcement of that service; and a reply with a git media type is never an error or the answer to another request. Replies of the LFS API are labelled as LFS JSON, with status 201 for a new lock and 200 otherwise.", "quantifier": "every request, every repository URL, every state of the server", "why_tests_cant": "Which label belongs to which data depends on how every possible URL is routed; tests ask for a few URLs.", "anchors": ["src/git/protocol/http.rs: build_res_header", "src/git/protocol/http.rs: git_upload_pack", "src/git/protocol/http.rs: git_receive_pack", "src/gateway/api/lib.rs: get_method_router", "src/gateway/api/lib.rs: post_method_router", "src/git/lfs/http.rs: lfs_create_lock"]}
{"id": "C99", "title": "Asking for the refs of a repository is always answered", "statement": "Whatever was sent to the server before, a client that asks for the refs of any repository, over HTTP or SSH, gets an answer; the handler never crashes, whether the repository exists or not.", "quantifier": "every history of requests over HTTP and messages over SSH with arbitrary bodies to initially empty servers, every repository URL, both services, every SSH connection that is ready", "why_tests_cant": "Whether the lookup of a directory inside another repository succeeds depends on everything that was ever stored, including rows the server generated itself; tests ask for a few repositories.", "anchors": ["src/gust/driver/database/mysql/storage.rs: get_head_object_id", "src/gust/driver/database/mysql/storage.rs: generate_child_commit_and_refs", "src/gust/driver/database/mysql/storage.rs: search_root_node_by_path", "src/git/protocol/pack.rs: PackProtocol::git_info_refs", "src/git/protocol/ssh.rs: SshServer::exec_request"]}
{"id": "C100", "title": "The SSH server keeps its host key", "statement": "However often the SSH server is stopped and started again on a machine, every client is shown the same host key as before, and a start never fails because of the key file.", "quantifier": "every sequence of starts, stops and kills of any number of server processes on a machine without a key file, interleaved in any way at the granularity of the file operations", "why_tests_cant": "Which key is shown depends on the interleaving of two processes, or of a process and its end, with the single creation and write of the key file; tests start one server at a time and do not kill it in between.", "anchors": ["src/gateway/ssh_server.rs: load_key", "src/gateway/ssh_server.rs: server"]}
{"id": "C101", "title": "Overlapping LFS transfers", "statement": "When uploads and downloads of LFS objects overlap in time, an upload that is answered with success stored the content of its oid, and every download that is answered with success delivers exactly that content.", "quantifier": "every number of overlapping batch, upload and download requests, interleaved in any way at the granularity of database statements and file operations, with reads of any size", "why_tests_cant": "The outcome depends on where a download reads a file between the truncation and the write of an upload, or how two writes to one file interleave; tests run one request at a time.", "anchors": ["src/git/lfs/http.rs: lfs_upload_object", "src/git/lfs/http.rs: lfs_download_object", "src/gust/driver/lfs_content_store/mod.rs: ContentStore::put", "src/gust/driver/lfs_content_store/mod.rs: ContentStore::get"]}
{"id": "C102", "title": "Overlapping LFS announcements are answered", "statement": "A client that announces LFS objects (a batch request) gets an answer with one entry for each object, whatever other clients do at the same time.", "quantifier": "every number of overlapping batch, upload and download requests, interleaved in any way at the granularity of database statements and file operations", "why_tests_cant": "Whether the insert of a row fails depends on what other requests do between the query and the insert; tests run one request at a time.", "anchors": ["src/git/lfs/http.rs: lfs_process_batch", "src/gust/driver/database/mysql/storage.rs: lfs_put_meta"]}
{"id": "C103", "title": "A fetch tells the client which of its commits the server has", "statement": "When a client fetches and lists the commits it has, the reply calls exactly those of them common which the repository has; in particular every commit of an earlier answered push.", "quantifier": "all histories of requests over HTTP and SSH, all well-formed fetch requests, all contents of the database, any order of rows and of hash set iteration", "why_tests_cant": "The acknowledgements depend on everything stored before and on all ids of the request; tests check one reply against one fixed database.", "anchors": ["src/git/protocol/pack.rs: git_upload_pack", "src/gust/driver/database/mysql/storage.rs: get_commit_by_hash", "src/gust/driver/database/mysql/storage.rs: save_commits"]}
{"id": "C104", "title": "Overlapping requests to other repositories do not change what a repository shows", "statement": "When requests to other repositories are being worked on at the same time, in whatever way their database statements interleave, a client asking for the refs of a repository is shown exactly the refs it has, with their ids.", "quantifier": "for all interleavings of any number of pushes and discoveries at other paths, all moments at which the two queries of the asking client happen, and all database orders", "why_tests_cant": "The number of interleavings of database statements is unbounded; a test runs one.", "anchors": ["src/git/protocol/pack.rs:46-71", "src/gust/driver/database/mysql/storage.rs:44-79", "src/gust/driver/database/mysql/storage.rs:507-524"]}
{"id": "C105", "title": "A push that overlaps with requests to other repositories changes exactly its branch", "statement": "When a push has finished, clients are shown the repository's earlier refs with the pushed branch created or moved and nothing else changed, whatever requests to other repositories were being worked on during the push.", "quantifier": "for all interleavings of the push with any number of pushes and discoveries at other paths, all packs and all ref commands", "why_tests_cant": "The number of interleavings of database statements is unbounded; a test runs one.", "anchors": ["src/gust/driver/database/mysql/storage.rs:81-100", "src/gust/driver/database/mysql/storage.rs:507-524", "src/git/protocol/pack.rs:46-71"]}
{"id": "C106", "title": "A branch has one value", "statement": "At any time each branch of a repository has one id: a client that asks for the refs is never shown the same branch name twice.", "quantifier": "for all histories of requests over HTTP and SSH and all answers to requests for refs", "why_tests_cant": "It is a statement about all states that request histories lead to; the creation of a branch that exists is only one of the ways in which a second row could appear.", "anchors": ["src/gust/driver/database/mysql/storage.rs:44-87", "src/gust/driver/database/mysql/storage.rs:507-514", "src/gust/driver/database/mysql/storage.rs:610-640"]}
{"id": "C107", "title": "Fetching a branch while other requests are worked on", "statement": "A client that was shown a branch and then fetches the commit it points at is sent a pack with that commit and every tree and file reachable from it, in whatever way the reads of the fetch interleave with the statements of pushes and discoveries.", "quantifier": "for all interleavings of any number of pushes and discoveries with the queries of the fetch, all database orders, all sets of wanted ids", "why_tests_cant": "The number of interleavings of database statements with the queries of a fetch is unbounded; a test runs one.", "anchors": ["src/gust/driver/database/mysql/storage.rs:130-152", "src/gust/driver/database/mysql/storage.rs:660-705"]}
{"id": "C108", "title": "Clone and fetch requests over HTTP are answered correctly during pushes", "statement": "While pushes and discoveries are being worked on, a clone request is answered with exactly the objects the repository had when its commits were read, a fetch with exactly what is below the wanted commits, and an id is acknowledged as common only if the server has that commit and always if it had it before the request arrived.", "quantifier": "for all requests (wants, haves, capabilities), all interleavings of any number of pushes and discoveries with the database queries of the request, all database orders and all ways of cutting the pack into bands", "why_tests_cant": "The number of interleavings of statements with the queries of the request is unbounded, and so is the set of requests; a test runs one.", "anchors": ["src/git/protocol/pack.rs:73-167", "src/git/protocol/http.rs:58-85", "src/gust/driver/database/mysql/storage.rs:102-165"]}
{"id": "C109", "title": "Cloned files are the pushed files", "statement": "When a push has been answered, a client that clones the URL and checks out a pushed commit finds at every path exactly the file that the pushing client had there, with the same mode and the same content, and no other files; also when other requests are being worked on before, during and after.", "quantifier": "for all repositories, directory structures, file contents, packs (delta-compressed or not), server histories and interleavings of the clone with other requests", "why_tests_cant": "The set of repositories, packs and histories is infinite; the statement connects what one client sent with what another client can read.", "anchors": ["src/git/protocol/http.rs:58-160", "src/gust/driver/structure/nodes.rs", "src/gust/driver/database/mysql/storage.rs:89-128", "src/git/pack/mod.rs"]}
{"id": "C110", "title": "Cloning a sub-directory gives its files", "statement": "A client may use the path of a directory inside a repository as a repository URL: asking for its refs shows a HEAD commit, and a clone of this URL, checked out at HEAD, contains exactly the files that a clone of the whole repository has in this directory at master, with the same modes and contents, and the commit has the author, committer and message of master.", "quantifier": "for all repositories, directory structures, directories, histories of HTTP requests and SSH messages before and between the requests, and clients", "why_tests_cant": "Relates the replies to three different requests over all directory structures and histories.", "anchors": ["src/gust/driver/database/mysql/storage.rs:44-65", "src/gust/driver/database/mysql/storage.rs:102-128", "src/gust/driver/database/mysql/storage.rs:610-658", "src/gust/driver/structure/mod.rs", "src/git/protocol/http.rs:58-85"]}
{"id": "C111", "title": "Publishing a project works", "statement": "A client that pushes a complete project (a well-formed pack, in whatever way it is delta-compressed, whose commits have all their directories and files in it) to create a branch, or to move one from its current value, gets a report that says the pack was unpacked and the branch accepted; and whatever anybody does afterwards, a later clone of the URL is answered, and checking out any of the commits gives exactly the files of the project.", "quantifier": "for all projects (any number and nesting of directories and commits), packs for them, server histories before and between the requests, schedules of worker threads, and clients", "why_tests_cant": "It is a statement that requests succeed, over all well-formed inputs and all histories; tests can only show that some do.", "anchors": ["src/git/protocol/pack.rs:169-260", "src/git/pack/mod.rs", "src/gust/driver/database/mysql/storage.rs:81-128", "src/gust/driver/structure/nodes.rs", "src/git/protocol/http.rs:58-111"]}
{"id": "C112", "title": "An object of the object directory can be read by its id", "statement": "For every set of objects written to the object directory, reading an object by its id returns that object, unchanged; a damaged file, or a file that belongs to another id, is never returned as the object.", "quantifier": "for all sets of objects (any kinds, contents and writing order), all contents of the directory and all ids", "why_tests_cant": "It quantifies over all contents and ids; a test with one commit in a test runner (whose output is not a terminal) passes although no tree, file or tag can be read and nothing can be read in a terminal.", "anchors": ["src/git/object/delta.rs:102-187", "src/git/hash.rs:39-50", "src/git/object/metadata.rs:62-88"]}
{"id": "C113", "title": "A client that has some of the history is sent exactly the rest", "statement": "When the objects for a client that has some commits are computed from the object directory, the result contains the objects of the wanted history that the client does not have, and no others; it is computed for every client with a common commit.", "quantifier": "for all object directories, wanted commits and sets of commits that the client has", "why_tests_cant": "It quantifies over all histories and clients; the function is not called from any test.", "anchors": ["src/git/protocol/pack.rs:287-380", "src/git/object/base/mod.rs:42-47", "src/git/object/base/commit.rs:53-56"]}
{"id": "C114", "title": "Overlapping LFS transfers are answered", "statement": "Once an LFS object was announced, every upload of its content is answered with success, and once an upload was answered with success, every download of the object is answered with success, each after a bounded number of turns, whatever other requests are being handled at the same time.", "quantifier": "for all schedules of all overlapping requests, all contents, and all sizes of reads", "why_tests_cant": "It quantifies over all interleavings of all requests; tests of the handlers run one request at a time.", "anchors": ["src/git/lfs/http.rs:334-501", "src/gust/driver/lfs_content_store/mod.rs:13-52", "src/gust/driver/database/mysql/storage.rs:197-256"]}
{"id": "C115", "title": "Pushed over HTTP or SSH, cloned over HTTP or SSH", "statement": "The HTTP server and the SSH server run on one database. When a push to a repository has been answered on either of them, a client that afterwards clones the repository from either of them is answered, and checking out a pushed commit gives at every path exactly the file that the pushing client had there, with the same mode and content; whatever anybody did before, in between or at the same repository on either server.", "quantifier": "for all repositories, packs, histories of HTTP requests and SSH messages on any number of connections, in any order", "why_tests_cant": "The two servers are separate programs that meet only in the database; the claim quantifies over all mixed histories of both.", "anchors": ["src/gateway/api/lib.rs:48-76", "src/gateway/ssh_server.rs:22-50", "src/git/protocol/ssh.rs:40-202", "src/git/protocol/http.rs:58-111", "src/gust/driver/database/mysql/storage.rs:89-128"]}
{"id": "C116", "title": "A repository serves, on both servers, only what was pushed to it", "statement": "The HTTP server and the SSH server run on one database. Whatever anybody did on either of them, the answer to a clone or fetch of a repository on either of them consists of acknowledgements of ids the client itself sent and of a pack in which every object was contained in a pack that some client sent to that repository's path, with a push over HTTP or on an SSH connection it had opened for pushing to that path.", "quantifier": "for all mixed histories of HTTP requests and SSH messages on any number of connections, all fetch requests, all orders in which the database returns rows", "why_tests_cant": "Isolation over all mixed histories of two programs that share the tables of all repositories; an SSH session keeps its path between messages while others push.", "anchors": ["src/git/protocol/ssh.rs:40-202", "src/git/protocol/http.rs:58-111", "src/gust/driver/database/mysql/storage.rs:89-152", "src/gust/driver/database/mysql/storage.rs:610-658"]}
{"id": "C117", "title": "A branch that was pushed is there", "statement": "When a push that creates a branch is answered with ok, the branch is stored with the pushed commit, and clients that ask for the refs of the repository are told it, whatever its name.", "quantifier": "for all ref names and repository paths a git client can send, all histories of both servers, all databases that have the tables of the dump (with the column limits of strict mode)", "why_tests_cant": "Needs a database with the real column limits and long names; the insert fails silently, so the push looks successful.", "anchors": ["src/gust/driver/database/mysql/storage.rs:81-87", "src/gust/driver/database/mysql/storage.rs:496-538", "src/gust/driver/database/mysql/storage.rs:709-726", "Dump20230523.sql:103-112"]}
{"id": "C118", "title": "Every commit of an answered push is stored", "statement": "When a push is answered, every commit of its pack is stored for the repository with its exact content.", "quantifier": "for all packs, repository paths and histories of both servers, all databases that have the tables of the dump", "why_tests_cant": "Commits are inserted in batches of 100 whose errors are dropped; one commit that is too big for its column takes up to 99 others with it, and nothing reports it.", "anchors": ["src/gust/driver/database/mysql/storage.rs:89-100", "src/gust/driver/database/mysql/storage.rs:582-593", "src/gust/driver/database/mysql/storage.rs:709-726", "Dump20230523.sql:25-42"]}
{"id": "C119", "title": "Whatever files git can hold can be pushed", "statement": "Every push of a complete project in a well-formed pack is answered, whatever the sizes and names of its files.", "quantifier": "for all projects, well-formed packs, histories before the push and schedules of the decoding threads, all databases that have the tables of the dump", "why_tests_cant": "Size and name limits of columns far away from the code that inserts; a failed insert ends the request without an answer.", "anchors": ["src/gust/driver/database/mysql/storage.rs:551-579", "Dump20230523.sql:79-95"]}
{"id": "C120", "title": "Large files of any size can be uploaded", "statement": "A batch request that announces an object for upload is answered with an entry for it, and the object can then be uploaded, whatever its size.", "quantifier": "for all objects, sizes, histories and overlapping requests, all databases that have the tables of the dump (with the column limits of strict mode)", "why_tests_cant": "Needs files of more than 2 GiB and a database with the real column type; the column of the table is narrower than the type in the code, and the failing insert ends the request without an answer.", "anchors": ["src/gust/driver/database/mysql/storage.rs:213-246", "src/git/lfs/http.rs:334-420", "src/git/lfs/http.rs:421-468", "Dump20230523.sql:64-69"]}
{"id": "C121", "title": "Any number of files can be locked", "statement": "A request to lock a file that nobody has locked is answered with the lock, and the lock is listed afterwards, however many other files of the ref are locked; every lock can be removed again.", "quantifier": "for all numbers of locks, paths, histories and overlapping requests, all databases that have the tables of the dump", "why_tests_cant": "All locks of a ref are one JSON text in a column of 10000 characters, about a hundred locks; test databases never get that full.", "anchors": ["src/gust/driver/database/mysql/storage.rs:334-388", "src/gust/driver/database/mysql/storage.rs:390-479", "src/git/lfs/http.rs:158-246", "Dump20230523.sql:50-54"]}
{"id": "C122", "title": "A repository with any branches can be read by git clients", "statement": "The list of refs sent for a repository, before a fetch or a push, over HTTP and SSH, is one that a git client accepts: HEAD and the refs, or no refs at all. In particular for a repository whose branches have other names than master.", "quantifier": "for all repositories, branch names, histories of both servers and databases", "why_tests_cant": "The list is well-formed packet by packet; whether a client accepts it depends on the combination of its lines, which arises only in repositories whose default branch has another name, never in the test data.", "anchors": ["src/git/protocol/pack.rs:46-71", "src/gust/driver/database/mysql/storage.rs:44-65", "src/gust/driver/database/mysql/storage.rs:67-79", "src/gust/driver/database/mysql/storage.rs:496-505"]}
{"id": "C123", "title": "A repository and its directories stay in step", "statement": "A directory of a repository can be cloned by its own path. What is pushed to the repository afterwards is seen by whoever asks for the directory, and what is pushed to the directory is seen by whoever asks for the repository.", "quantifier": "for all repositories and directories, all histories of HTTP and SSH requests, all databases", "why_tests_cant": "Needs several clones and pushes to different paths in sequence, with a look at one path after changes to another; each request alone is answered correctly.", "anchors": ["src/gust/driver/database/mysql/storage.rs:44-65", "src/gust/driver/database/mysql/storage.rs:81-87", "src/gust/driver/database/mysql/storage.rs:496-526", "src/gust/driver/database/mysql/storage.rs:610-639"]}
{"id": "C124", "title": "Locks and large files belong to their repository", "statement": "A lock on a file of one repository does not stop anyone from locking a file of the same name in another repository and is not listed there, and a large file uploaded to one repository is not handed out by another.", "quantifier": "for all pairs of repositories, all histories of requests, all servers", "why_tests_cant": "Every test with one repository passes; the property compares the answers for all pairs of repositories after all histories.", "anchors": ["src/gateway/api/lib.rs: get_method_router", "src/gateway/api/lib.rs: post_method_router", "src/gateway/api/lib.rs: put_method_router", "src/git/lfs/http.rs: lfs_create_lock", "src/git/lfs/http.rs: lfs_download_object"]}
{"id": "C125", "title": "A project with submodules can be pushed", "statement": "A project that refers to other projects as submodules can be pushed like any other.", "quantifier": "for all projects with a submodule in any directory, all servers, all histories over HTTP and SSH", "why_tests_cant": "It quantifies over all projects and all states of the server; a test without submodules passes.", "anchors": ["src/gust/driver/structure/nodes.rs: Repo::build_node_tree", "src/gust/driver/database/mysql/storage.rs: save_packfile", "src/git/protocol/pack.rs: git_receive_pack"]}
{"id": "C126", "title": "A branch can start where another one is", "statement": "A branch that starts at the commit of another branch can be pushed without any objects; afterwards clients see both branches, and pushes to one of them do not move the other.", "quantifier": "for all repositories, branches, commits, states of the server and orders in which the database returns rows", "why_tests_cant": "The failure depends on two branches having the same value at some moment of the history, and on the order of the rows in the database.", "anchors": ["src/gust/driver/database/mysql/storage.rs: handle_refs", "src/gust/driver/database/mysql/storage.rs: get_ref_object_id", "src/git/protocol/pack.rs: git_receive_pack", "src/git/protocol/pack.rs: git_info_refs"]}
{"id": "C127", "title": "A fetch may be negotiated in several rounds", "statement": "A client that lists the commits it has in batches, as git clients with more than a few commits do when the server offers multi_ack_detailed, gets an answer to each batch.", "quantifier": "for all repositories, wanted commits, batches, states of the server and histories, over HTTP and SSH", "why_tests_cant": "It quantifies over all batches and all states of the server; a test with a small repository, in which the only batch is followed by done, passes.", "anchors": ["src/git/protocol/pack.rs: git_upload_pack", "src/git/protocol/http.rs: git_upload_pack", "src/git/protocol/ssh.rs: SshServer::handle_upload_pack"]}
{"id": "C128", "title": "The depth of a clone can be limited, as the server offers", "statement": "The server offers the capability shallow; a client that asks for a clone of limited depth is told which commits are cut off and gets the commits within the depth.", "quantifier": "for all repositories, depths, states of the server and histories, over HTTP and SSH", "why_tests_cant": "It quantifies over all requests with a depth and all states of the server; unit tests that ask without a depth pass.", "anchors": ["src/git/protocol/pack.rs: git_info_refs", "src/git/protocol/pack.rs: git_upload_pack", "src/git/protocol/http.rs: git_upload_pack", "src/git/protocol/ssh.rs: SshServer::handle_upload_pack"]}
{"id": "C129", "title": "A request may be compressed", "statement": "A client may send a request in the content coding gzip, as git does with every fetch request of more than 1024 bytes; it is answered like the request itself.", "quantifier": "for all requests, repositories, codings that follow the gzip format, and states of the server", "why_tests_cant": "It quantifies over all compressed bodies and states; tests with short requests, which git does not compress, pass.", "anchors": ["src/git/protocol/http.rs: git_upload_pack", "src/git/protocol/http.rs: git_receive_pack", "src/git/protocol/pack.rs: read_pkt_line", "src/gateway/api/lib.rs: http_server"]}
{"id": "C130", "title": "A client may test the connection before a large request", "statement": "Before a request that it sends in pieces, a git client sends a request that consists of a flush packet; it is answered, and nothing is changed.", "quantifier": "for all repositories and states of the server", "why_tests_cant": "It quantifies over all states; small requests are not preceded by a test, so tests with small repositories never see it.", "anchors": ["src/git/protocol/http.rs: git_upload_pack", "src/git/protocol/http.rs: git_receive_pack", "src/git/protocol/pack.rs: git_upload_pack", "src/git/protocol/pack.rs: git_receive_pack"]}
{"id": "C131", "title": "Requests of the LFS API are read whatever way they are written", "statement": "Requests to lock, unlock or list files and batch requests are JSON texts. Two texts that say the same (members in another order, other white space, other escapes for the same characters, further members) are answered alike and change the same; a text that is not JSON changes nothing; members that the API documentation calls optional may be left out.", "quantifier": "for all JSON texts, requests, and states of the server", "why_tests_cant": "It quantifies over all ways to write a value; tests send the texts of one client library.", "anchors": ["src/git/lfs/http.rs: lfs_create_lock", "src/git/lfs/http.rs: lfs_delete_lock", "src/git/lfs/http.rs: lfs_verify_lock", "src/git/lfs/http.rs: lfs_process_batch", "src/git/lfs/structs.rs: LockRequest", "src/git/lfs/structs.rs: BatchVars"]}
{"id": "C132", "title": "Replies of the LFS API are JSON that says what the server found", "statement": "Every successful reply about locks and large files is the text of exactly one JSON value, whatever characters paths, ids and object names contain, and the value has the members of the API documentation with what the server found; a client can read it in one way only.", "quantifier": "for all histories of requests from a new server, all requests and all strings", "why_tests_cant": "It quantifies over all strings (quotation marks, control characters, characters outside ASCII) and histories; tests use plain names.", "anchors": ["src/git/lfs/http.rs: lfs_create_lock", "src/git/lfs/http.rs: lfs_retrieve_lock", "src/git/lfs/http.rs: lfs_verify_lock", "src/git/lfs/http.rs: lfs_process_batch", "src/git/lfs/structs.rs: BatchResponse", "src/git/lfs/structs.rs: Lock"]}
{"id": "C133", "title": "Locks survive being stored as text", "statement": "Locks are kept as a text in one column of the database. Whatever characters they contain, the server answers as if it kept the locks themselves: a lock that was created is listed with exactly its path, id and time until somebody deletes a lock with its id.", "quantifier": "for all histories of lock requests and all strings", "why_tests_cant": "It quantifies over all strings and histories, every step of which reads and writes the text again.", "anchors": ["src/gust/driver/database/mysql/storage.rs: lfs_get_locks", "src/gust/driver/database/mysql/storage.rs: lfs_add_lock", "src/gust/driver/database/mysql/storage.rs: lfs_delete_lock"]}
{"id": "C134", "title": "Refused LFS requests are explained in the form of the API", "statement": "When a request about locks or large files is refused, the body of the reply is a JSON object with a `message`, so that the client can show the reason; when a lock is refused because somebody has it, the reply also carries that lock.", "quantifier": "for all requests of the LFS API, all URLs, all states of the server, and all histories between the two requests for a lock", "why_tests_cant": "It quantifies over every reason for which a request can be refused in any state; tests of the handlers look at status codes.", "anchors": ["src/git/lfs/http.rs: lfs_create_lock", "src/git/lfs/http.rs: lfs_delete_lock", "src/git/lfs/http.rs: lfs_upload_object", "src/git/lfs/http.rs: lfs_verify_lock"]}
{"id": "C135", "title": "Only packs are accepted", "statement": "If the server takes objects from the bytes of a push, these bytes are a pack in the documented format: header, exactly the announced number of entries one behind the other, each of the size its header announces, checksum, and nothing behind it; the base of every delta is an entry of the pack or a stored object; and the objects taken are exactly those entries.", "quantifier": "for all byte strings, all states of the storage, and all behaviours of the decompressor that only reads a prefix", "why_tests_cant": "It quantifies over all byte strings, most of which are not packs; tests decode a few packs written by git.", "anchors": ["src/git/pack/mod.rs: decode", "src/git/pack/mod.rs: next_object", "src/git/object/delta.rs: apply_delta", "src/git/utils.rs: read_type_and_size"]}
{"id": "C136", "title": "No client can stop the server for the others", "statement": "Whatever requests and messages clients have sent, over HTTP or SSH, the servers go on answering those of other clients.", "quantifier": "for every number of worker threads of the HTTP server and of the SSH server, all histories of requests and messages with arbitrary bodies and all later requests and messages", "why_tests_cant": "Whether the server is still there depends on everything that was ever sent to it; tests send a few well-formed requests to a fresh server.", "anchors": ["src/main.rs: main", "src/gateway/api/lib.rs: http_server", "src/git/protocol/pack.rs: PackProtocol::git_upload_pack", "src/git/pack/mod.rs: Pack::next_object", "src/git/protocol/ssh.rs: handle_upload_pack", "src/git/protocol/ssh.rs: handle_receive_pack", "src/gateway/ssh_server.rs: server"]}
{"id": "C137", "title": "Branches pushed at the same time are all there afterwards", "statement": "When several clients push new branches to a repository at the same time, every branch whose push has finished is shown to clients from then on, and no push fails or is held up because of the others.", "quantifier": "for all histories of overlapping pushes and fetches, all interleavings of their queries, all packs, repositories and branches", "why_tests_cant": "It depends on the order in which the queries of different requests reach the database; tests see one order.", "anchors": ["src/git/protocol/pack.rs: PackProtocol::git_receive_pack", "src/git/protocol/pack.rs: PackProtocol::git_info_refs", "src/gust/driver/database/mysql/storage.rs: MysqlStorage::save_refs", "src/gust/driver/database/mysql/storage.rs: MysqlStorage::update_refs"]}
{"id": "C138", "title": "Projects in any language and of any age can be pushed", "statement": "A complete project can be pushed and is then cloned with all its files, whatever encodings its messages, names and file names are in, however old its commits are, and whether commits are merges, signed or have other headers.", "quantifier": "for all histories over HTTP and SSH, all well-formed packs, all projects in git's own formats (commits, directories and tags as the documentation of git describes them)", "why_tests_cant": "The texts of a project are arbitrary bytes; tests have a few repositories, mostly recent ones in ASCII.", "anchors": ["src/git/object/base/commit.rs: Commit::decode_meta", "src/git/object/base/sign.rs: AuthorSign::decode_from_data", "src/git/object/base/tree.rs: Tree::decode_metadata", "src/git/object/base/tag.rs: Tag::decode_metadata", "src/git/protocol/pack.rs: PackProtocol::git_receive_pack"]}
{"id": "C139", "title": "A signature on a cloned commit is one of this commit", "statement": "If a commit that is cloned from the server carries a signature, it is a signature of this very commit; the server attaches no signature to a text that nobody signed.", "quantifier": "for all histories of HTTP requests and SSH messages, all repositories and directories of them, all commits in git's format, all ways of checking signatures", "why_tests_cant": "Which headers a commit has depends on the users; tests of sub-directories have commits without signatures, and they look at author and message only.", "anchors": ["src/gust/driver/structure/mod.rs: build_from_model_and_root", "src/git/object/base/commit.rs: Commit::encode_metadata", "src/git/object/base/commit.rs: Commit::decode_meta", "src/gust/driver/database/mysql/storage.rs: MysqlStorage::generate_child_commit_and_refs"]}
{"id": "C140", "title": "The server listens at the address it is given, and its links name this address", "statement": "Started with a host and a port, the HTTP server and the SSH server listen at exactly this host and port, whatever address or name of the machine is given; and the links to large files that clients get name an address at which the server can be reached.", "quantifier": "for all hosts, all ports, all server states and all requests for links", "why_tests_cant": "Tests start the server with one host, mostly 127.0.0.1, and do not look at the links of servers started otherwise.", "anchors": ["src/main.rs: ServeConfig", "src/gateway/api/lib.rs: http_server", "src/gateway/ssh_server.rs: server", "src/git/lfs/http.rs: lfs_process_batch"]}
{"id": "C141", "title": "An upload of a large file that a stop of the server cuts off does no harm and can be made again", "statement": "If the server is stopped while it handles an upload of a large file, then after the restart the file is delivered as it was before or complete, never in part and never with bytes the client was not going to be told were stored; if it is not there, clients that announce it are asked to upload it; and the upload can be made again.", "quantifier": "for all histories of requests before and after, all oids, all bodies, and all steps of the upload at which the server is stopped", "why_tests_cant": "A test would have to stop the server between two particular calls to the operating system; the time between them is microseconds.", "anchors": ["src/gust/driver/lfs_content_store/mod.rs: ContentStore::put", "src/git/lfs/http.rs: lfs_upload_object", "src/git/lfs/http.rs: lfs_download_object", "src/git/lfs/http.rs: lfs_process_batch"]}
{"id": "C142", "title": "A push that a stop of the server cuts off leaves repositories whole and can be made again", "statement": "If the server is stopped, or a connection breaks, while pushes are being worked on, then after the restart every repository can be cloned, every branch shown names a commit that is stored with all its files, and the push that was cut off can simply be made again: it is answered with success, and from then on clones contain exactly what was pushed.", "quantifier": "for all histories of overlapping requests, stopped at any statements any number of times, all complete projects, all well-formed packs", "why_tests_cant": "A test would have to stop the server between any two of the statements a push sends to the database, and there are as many as the pack is large.", "anchors": ["src/gust/driver/database/mysql/storage.rs: save_packfile", "src/gust/driver/database/mysql/storage.rs: handle_refs", "src/gust/driver/database/mysql/storage.rs: get_full_pack_data", "src/git/protocol/http.rs: git_receive_pack"]}
{"id": "C143", "title": "Tags can be pushed and fetched", "statement": "If a client pushes a tag, annotated or lightweight, and the server reports success, then from then on whoever fetches from the repository is shown the tag and gets the object it names: the commit for a lightweight tag, the tag object (with its message) for an annotated one.", "quantifier": "for all histories of HTTP requests and SSH messages before and after the push, all complete projects with tags, all well-formed packs, all later fetch requests", "why_tests_cant": "Tests look at one tag and one fetch; that nothing the server ever answers contains a tag object is a statement about all later requests.", "anchors": ["src/gust/driver/database/mysql/storage.rs: save_packfile", "src/gust/driver/database/mysql/storage.rs: get_full_pack_data", "src/gust/driver/database/mysql/storage.rs: get_incremental_pack_data", "src/git/object/base/tag.rs: Tag", "src/git/protocol/pack.rs: git_upload_pack"]}
{"id": "C144", "title": "Options of a request change only what they are meant to change", "statement": "What a push stores and what a fetch delivers does not depend on the options the client asks for: side-bands change how the answer is wrapped, `multi_ack_detailed` changes the lines before the pack, and a report is sent to those who asked for `report-status`.", "quantifier": "for all histories of HTTP requests and SSH messages, all moments, all well-formed requests over HTTP or SSH, all two lists of options", "why_tests_cant": "There are as many combinations of options as there are clients; tests try the list that one version of git sends.", "anchors": ["src/git/protocol/pack.rs: parse_capabilities", "src/git/protocol/pack.rs: git_receive_pack", "src/git/protocol/pack.rs: git_upload_pack", "src/git/protocol/pack.rs: build_side_band_format", "src/git/protocol/http.rs: send_pack", "src/git/protocol/ssh.rs: handle_upload_pack", "src/git/protocol/ssh.rs: handle_receive_pack"]}
{"id": "C145", "title": "The database grows only with what is new", "statement": "Asking for the refs of repositories, and cloning or fetching from them, does not make the database grow without limit: however many such requests are made, what is stored grows at most by one branch and one commit for every path that was asked for. A push of objects that are stored already does not store their contents again.", "quantifier": "for all histories of both servers, all following requests and messages without a push, all packs", "why_tests_cant": "A test makes one request and looks at its answer; that the thousandth request stores nothing more is about all sequences of requests.", "anchors": ["src/gust/driver/database/mysql/storage.rs: get_head_object_id", "src/gust/driver/database/mysql/storage.rs: generate_child_commit_and_refs", "src/gust/driver/database/mysql/storage.rs: save_packfile", "src/gust/driver/database/mysql/storage.rs: save_nodes", "src/git/protocol/pack.rs: git_info_refs"]}
{"id": "C146", "title": "Parameters of URLs mean the same however they are written", "statement": "The parameters of a GET request (the service of a ref discovery; the branch, path, id, cursor and limit of a list of locks) may be written in the query string in any order, with any characters percent-encoded, spaces as + or %20, and beside parameters that the server does not know: the request is answered as the one with the values meant. Every value can be written, so that the locks of every branch can be listed, whatever its name. A request that gives a parameter twice is refused and changes nothing.", "quantifier": "for all query strings, values, paths, server states, and histories of requests with query strings", "why_tests_cant": "There are infinitely many ways to write the same parameters; tests of the handlers are given values already decoded.", "anchors": ["src/gateway/api/lib.rs"]}
{"id": "C147", "title": "A directory can be cloned by its URL whatever its name", "statement": "The URL of a directory below a repository names that directory whatever characters its name has: names with spaces or letters that are not ASCII, which a URL has to encode, are found as well, and two URLs that are the same by RFC 3986 give the same repository.", "quantifier": "for all histories, paths, directory names and ways to write them", "why_tests_cant": "Tests use names of ASCII letters, for which nothing is encoded.", "anchors": ["src/gateway/api/lib.rs", "src/git/protocol/mod.rs", "src/gust/driver/database/mysql/storage.rs"]}
{"id": "C148", "title": "What a forced push takes back is no longer handed out", "statement": "A branch can be set back to another commit by a forced push, and the server then shows the branch at that commit; commits that no branch leads to any more, and files that only they contain, are not sent to clients that clone the repository afterwards.", "quantifier": "for all projects, histories of both servers before, between and after the two pushes, orders of rows, and clients", "why_tests_cant": "The commits taken back are not shown by any list of refs; that they are still sent depends on everything ever pushed to the repository, not on its present branches.", "anchors": ["src/git/protocol/pack.rs", "src/gust/driver/structure/mod.rs", "src/gust/driver/database/mysql/storage.rs"]}
{"id": "C149", "title": "Fetching into a clone that exists works the same over both servers", "statement": "A client that has a clone already and fetches a pushed commit, over HTTP or over SSH, is told which of the commits it named are common and gets a pack with which, together with what it has, it can check out that commit; a request for commits that the repository does not have is refused.", "quantifier": "for all histories of both servers before the push, between and after, contents, orders of rows, sets of wanted and present ids, cuts of the stream", "why_tests_cant": "The answer depends on everything stored by then and on the ids the client happens to have; tests fetch on one server with a few commits.", "anchors": ["src/git/protocol/pack.rs", "src/git/protocol/http.rs", "src/git/protocol/ssh.rs", "src/gust/driver/structure/mod.rs"]}
{"id": "C150", "title": "A branch pushed over one server is shown by both", "statement": "After a push over HTTP or SSH is answered, everybody who asks for the refs of the repository, over either, is shown the pushed commit under the name of the branch, and both servers show the same refs; nothing but a push to the repository changes what they show.", "quantifier": "for all histories of both servers before and after the push, all contents, all connections, all orders of rows", "why_tests_cant": "What is shown is computed from all rows of the refs table, which all requests of both servers write to; tests ask one server after one push.", "anchors": ["src/git/protocol/pack.rs", "src/git/protocol/ssh.rs", "src/gateway/api/lib.rs", "src/gust/driver/database/mysql/storage.rs"]}
{"id": "C151", "title": "A push whose answer got lost can be made again", "statement": "If a client does not get the answer to a push and makes the same push again, it is answered, and the repository is afterwards as if it had been pushed once: clones have the same objects and clients are shown the same branches, now and after later pushes.", "quantifier": "for all histories of both servers before, between and after the two pushes, all contents, orders of rows and times", "why_tests_cant": "Whether the repetition is harmless depends on rows that the first push has left behind; tests push once.", "anchors": ["src/git/protocol/pack.rs", "src/git/protocol/mod.rs", "src/gust/driver/database/mysql/storage.rs"]}
{"id": "C152", "title": "A repository is exactly what has been published to it", "statement": "After any number of pushes of complete projects to a repository over HTTP and SSH, with anything else done on both servers in between, every such push is answered with ok; a clone contains exactly the commits published and the directories and files reachable from them; and clients are shown exactly the branches that the pushes have created and moved. In what order, how packed and over which protocol they were pushed makes no difference.", "quantifier": "for all histories of both servers with any number of pushes to the repository and any other requests and messages between them, all contents, orders of rows and times", "why_tests_cant": "Tests push once or twice into an empty server; that the state of a repository is a function of what was published to it is a statement about all sequences of requests.", "anchors": ["src/git/protocol/pack.rs", "src/git/protocol/mod.rs", "src/gust/driver/database/mysql/storage.rs", "src/gateway/ssh_server.rs", "src/gateway/api/lib.rs"]}
{"id": "C153", "title": "A repository can be copied by cloning it and pushing the clone", "statement": "A client that clones a repository and pushes the objects it got to another path, on the same server or on another one, gets them accepted, and clones of the copy contain exactly the objects that clones of the original contain.", "quantifier": "for all histories of both servers before and after, all contents, ways to pack the objects, orders of rows and times", "why_tests_cant": "The server accepts only packs in which nothing is missing; that its own clones are always such packs, for everything that can have been published, is a statement about all histories.", "anchors": ["src/git/protocol/pack.rs", "src/gust/driver/database/mysql/storage.rs", "src/gust/driver/structure/nodes.rs"]}
{"id": "C154", "title": "A push that does not succeed changes nothing", "statement": "A push of which only a part arrives, or whose pack lacks an object that a commit in it needs, or whose branch is no longer where the client believes it to be, gets no positive answer, and afterwards everything on both servers is as before.", "quantifier": "for all histories of both servers before, all contents and packs, all places at which the pack is cut off, all missing objects, HTTP and SSH", "why_tests_cant": "Every place at which every pack can be cut off, and every object that can be missing, after every history.", "anchors": ["src/git/protocol/pack.rs", "src/git/protocol/ssh.rs", "src/git/pack/mod.rs", "src/gust/driver/structure/nodes.rs", "src/gust/driver/database/mysql/storage.rs"]}
{"id": "C155", "title": "What can be cloned once can be cloned for ever", "statement": "Once a clone of a repository has been answered, every later clone of it is answered too, over HTTP and SSH, whatever anybody does in between, failed and damaged pushes and branches that are set back included. It has every object of the earlier clone, and every commit of the earlier clone checks out to the same files. If nobody pushes to the repository in between, it has exactly the same objects.", "quantifier": "for all histories of both servers before and after the first clone, all repositories and contents, HTTP and SSH", "why_tests_cant": "Every sequence of requests by anybody that can come between two clones.", "anchors": ["src/git/protocol/pack.rs", "src/git/protocol/ssh.rs", "src/gateway/api/lib.rs", "src/gust/driver/database/mysql/storage.rs"]}
{"id": "C156", "title": "Restarts of the servers are not noticed", "statement": "If the HTTP server or the SSH server is restarted between requests, any number of times, every later request gets exactly the reply that it would have got without the restarts, and repositories, branches, locks and large files are as they would be. Only SSH connections that were open have to be made again.", "quantifier": "for all histories of both servers, all numbers and places of restarts of either", "why_tests_cant": "Every history, with every place at which a restart may come.", "anchors": ["src/main.rs", "src/gateway/ssh_server.rs", "src/gateway/api/lib.rs", "src/git/protocol/ssh.rs"]}
{"id": "C157", "title": "A repository has one address for HTTP and SSH", "statement": "A repository pushed over HTTP to `http://host/q.git` is the one that `ssh://host/q.git` names, and the other way round: what is pushed over one protocol is listed and cloned over the other under the same path.", "quantifier": "for all paths, all histories of both servers with arbitrary pushes over either protocol, all later moments", "why_tests_cant": "The claim is over all histories of two servers on one database; a test of one server never sees the path the other one derives.", "anchors": ["src/git/protocol/ssh.rs: handle_git_command", "src/git/protocol/ssh.rs: exec_request", "src/gateway/api/lib.rs"]}
{"id": "C158", "title": "The listed locks are exactly those granted and not removed", "statement": "Whoever keeps book of the requests about locks and their replies knows the locks: a listing for a ref shows exactly the locks that were granted for it, without those whose removal was acknowledged, oldest first; requests that were refused have no effect. A request to lock a file is answered with a conflict exactly if one of these locks has its path; otherwise it is granted, unless the locks of the ref no longer fit into the database.", "quantifier": "for all histories of requests and messages to both servers, handled one after the other, all refs and paths, all contents of requests", "why_tests_cant": "The claim is about every sequence of requests of all clients, with refusals, unknown ids and malformed bodies in between; a test checks the listing after a few requests.", "anchors": ["src/git/lfs/http.rs: lfs_create_lock", "src/git/lfs/http.rs: lfs_delete_lock", "src/git/lfs/http.rs: lfs_retrieve_lock", "src/gust/driver/database/mysql/storage.rs: lfs_add_lock", "src/gust/driver/database/mysql/storage.rs: lfs_delete_lock"]}
{"id": "C159", "title": "What the server once called common it always calls common", "statement": "Once a client that fetches has read that a commit it listed is common, every client that lists that commit in a later fetch that is answered reads so too, whatever was done in between, whichever repository it fetches from, and whether it uses HTTP or SSH; and two clients that fetch at the same state of the server read the same of every commit that both list. Repeating a fetch therefore never loses progress of the negotiation.", "quantifier": "for all histories of requests and messages to both servers, all pairs of fetches with any wants and haves, all repositories", "why_tests_cant": "The claim relates every pair of fetches across all histories that may lie between them; a test sees one conversation.", "anchors": ["src/git/protocol/pack.rs: git_upload_pack", "src/gust/driver/database/mysql/storage.rs: get_commit_by_hash"]}
{"id": "C160", "title": "What can be downloaded from the LFS store follows from requests and replies", "statement": "Whoever watches the requests about an LFS object and their replies knows what the server has: the object can be downloaded exactly if it has been announced, no upload was refused since then, and bytes have been sent for it; the download then gives the bytes that were sent last. An upload is accepted exactly if the announcement is valid, gave the size of the bytes, and the oid is their SHA-256; it is refused with 406 if it is announced but one of the last two fails, and not answered if the object is not announced. Nothing else, like other requests, requests for other objects or messages over SSH, has an influence.", "quantifier": "for all histories of requests and messages to both servers, handled one after the other, all objects and contents", "why_tests_cant": "The claim is about every sequence of announcements, right and wrong uploads and downloads of any clients; a test goes through a few.", "anchors": ["src/git/lfs/http.rs: lfs_process_batch", "src/git/lfs/http.rs: lfs_upload_object", "src/git/lfs/http.rs: lfs_download_object", "src/gust/driver/lfs_content_store/mod.rs: put", "src/gust/driver/database/mysql/storage.rs: lfs_put_meta"]}
{"id": "C161", "title": "Every pack that is sent is a pack by git's format", "statement": "Whatever was done before over HTTP and over SSH, whatever is stored, and whatever other requests are being worked on: every pack that a client gets in the answer to a clone or a fetch follows the format of git. It has the signature, version 2, and the number of objects that really follow; every entry is a whole object with the right type and size; there is at least one object and none is there twice; the file ends with the SHA-1 of everything before it. Such a file can be read in one way only.", "quantifier": "for all histories of requests and messages to both servers, all interleavings with pushes and discoveries, all repositories, all clones and fetches that ask for a side-band and are answered, all stored objects", "why_tests_cant": "Whether a pack is readable depends on everything that is stored for the repository: sizes at which the length bytes change, objects that occur below several commits, submodule entries; a test looks at the packs of a few repositories.", "anchors": ["src/git/pack/encode.rs: encode, encode_header", "src/gust/driver/database/mysql/storage.rs: get_full_pack_data", "src/gust/driver/database/mysql/storage.rs: get_incremental_pack_data", "src/git/protocol/pack.rs: git_upload_pack","src/git/protocol/http.rs: send_pack"]}
{"id": "C162", "title": "Clients that only clone and fetch are not noticed by the others", "statement": "However many clients ask for refs, clone and fetch, over HTTP and on SSH connections of their own, whatever they send there (also requests that fail, or nonsense) and whenever they do it: everything stored on the server stays as if they had never been there, and every request over HTTP and every message on the other SSH connections is answered as if they had never been there. The repositories they read do not lie inside a repository that the others use (for these see C79 and C123).", "quantifier": "for all histories of requests and messages to both servers, all sets of reading clients, all contents of their requests", "why_tests_cant": "The claim compares every history with the same history without the readers; a test can only try a few positions of a few reads.", "anchors": ["src/git/protocol/pack.rs: git_info_refs, git_upload_pack", "src/git/protocol/http.rs: git_upload_pack", "src/git/protocol/ssh.rs: exec_request, data", "src/gust/driver/database/mysql/storage.rs: get_head_object_id", "src/gateway/api/lib.rs"]}
{"id": "C163", "title": "A push that asks to be atomic creates all the branches it names or none", "statement": "The server offers `atomic` to every client that is going to push. When a client takes the offer and names several branches in one push, then afterwards either all of them have been created, or none, whatever was done on the server before, over HTTP and over SSH.", "quantifier": "for all histories on both servers, all lists of at least two branches, all options and all packs", "why_tests_cant": "Partial effects depend on which of the commands is the one that is carried out, on the transport and on the state; a test can only try a few lists in a few states.", "anchors": ["src/git/protocol/pack.rs: git_info_refs, git_receive_pack", "src/git/protocol/mod.rs: capabilities", "src/git/protocol/http.rs: git_receive_pack", "src/git/protocol/ssh.rs: data"]}
{"id": "C164", "title": "A push that fails because the database does not move the branch can be made again, and leaves nothing behind", "statement": "When the database does not carry out the statement that moves a branch, the push is not answered as a success, no branch of any repository changes, and nothing of the push is handed out by clones. When the client makes the same push again later, over HTTP or SSH, and the database works, it is answered with `ok` and moves the branch.", "quantifier": "for all histories on both servers, all moments at which the database fails, all commands that move a branch, all packs and everything done before the second attempt except pushes to the repository", "why_tests_cant": "Database failures in the middle of a push are hard to produce in a test, and what they leave depends on everything stored before; a test can only try single ones.", "anchors": ["src/gust/driver/database/mysql/storage.rs", "src/git/protocol/pack.rs"]}
{"id": "C165", "title": "A push whose files the database does not all store takes effect completely or not at all, and can be made again", "statement": "When the database fails while the files and directories of a push are stored, the push is either answered with `ok`, and then its commits belong to the repository with everything they refer to and the branch has the new value; or it is not answered, and then all branches of all repositories and what clones of them contain are as before. In the second case the same push made again later, over HTTP or SSH, is answered with `ok` when the database works.", "quantifier": "for all histories on both servers, all subsets of the statements storing files that the database may refuse, all complete projects pushed to create or move a branch, and everything done before the second attempt except pushes to the repository", "why_tests_cant": "The files are stored by several statements without a transaction, and any of them may fail; a test can only try single failures on single databases, and what is already stored decides what leftovers of a half-stored push could do.", "anchors": ["src/gust/driver/database/mysql/storage.rs", "src/git/protocol/pack.rs"]}
{"id": "C166", "title": "A lock request during a database failure is granted or has no effect", "statement": "Whatever statements on the table of locks the database refuses, and whenever: a request to create or remove a lock that is answered with the lock has its full effect, and every other one changes nothing. The locks listed for a ref are at any time exactly those that were granted and not removed, by the replies the clients got; no two of them have the same path. When the database works again every listed lock can be removed and every file that is not locked can be locked.", "quantifier": "for all histories of lock requests (create, delete, list, verify) for all refs, and for all failures of INSERT, UPDATE and DELETE statements at any of the requests", "why_tests_cant": "A lock that a client believes to hold but that is not recorded, or the reverse, shows only when the database fails in the middle of some request; tests run with a database that works.", "anchors": ["src/gust/driver/database/mysql/storage.rs", "src/git/lfs/http.rs"]}
{"id": "C167", "title": "Large files survive failures of the database", "statement": "When an upload of an LFS object has been answered with success, later downloads of the object deliver exactly the uploaded bytes, and downloads never deliver other bytes for an oid, whatever statements on the table of objects the database refuses and whenever.", "quantifier": "for all histories of batch, upload and download requests, all objects, and all failures of INSERT and DELETE statements at any of the requests", "why_tests_cant": "What a failing statement leaves behind matters only for later requests, and depends on what has been announced and uploaded before; tests run with a database that works.", "anchors": ["src/gust/driver/database/mysql/storage.rs", "src/git/lfs/http.rs"]}
{"id": "C168", "title": "Locks survive lost answers of the database", "statement": "Whatever statements of lock requests the database refuses, and whatever statements it carries out without the server learning of it: every request takes effect as a whole or not at all, and does so when it is granted; no file is ever locked twice on a ref; a lock that was granted is listed until somebody asks to remove it; and every listed lock was asked for.", "quantifier": "for all histories of lock requests, all refs, paths and ids, and all failures and lost answers of SELECT, INSERT, UPDATE and DELETE statements at any of the requests", "why_tests_cant": "Whether a statement was carried out when its answer is lost cannot be controlled by a test, and what follows shows only in later requests.", "anchors": ["src/gust/driver/database/mysql/storage.rs", "src/git/lfs/http.rs"]}
{"id": "C169", "title": "Large files survive lost answers of the database", "statement": "When an upload of an LFS object has been answered with success, later downloads deliver exactly the uploaded bytes; the right bytes of an announced object are accepted; and downloads never deliver other bytes for an oid, whatever statements on the table of objects fail and whatever statements are carried out without the server learning of it.", "quantifier": "for all histories of batch, upload and download requests, all objects, and all failures and lost answers of SELECT, INSERT and DELETE statements at any point of the requests", "why_tests_cant": "Whether a statement was carried out when its answer is lost, and at which object of a batch, cannot be controlled by a test, and what follows shows only in later requests.", "anchors": ["src/gust/driver/database/mysql/storage.rs", "src/git/lfs/http.rs"]}

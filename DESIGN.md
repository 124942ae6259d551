# Formal model of gust: design

Source modelled: `/repo` (rust, open-rust-initiative/gust, pinned commit). Nothing in `/repo` is built or run.
The model is a set of total Lean 4 functions, one per Rust function, each with a comment citing file and lines.

## Conventions

* Bytes are `List UInt8`; Rust `String`/`&str` values are the list of their UTF-8 bytes (a predicate `utf8Valid`
  models `from_utf8`). `usize`/`u64`/`u32` are `Nat` with the machine bound made explicit where the code can reach it.
* `Res α = ok a | err e | panic | spin`: `err` is a Rust `Err`, `panic` a Rust panic (unwrap on `None`/`Err`,
  slice out of range, arithmetic overflow under overflow checks), `spin` means that the fuel of a model
  loop ran out. A theorem "for every fuel the result is `spin`" is non-termination; a theorem "= ok …" for some
  explicit fuel is termination. In a real run the loop over the lines of a fetch goes on for ever; all other fuel counts
  nested calls (also `#[async_recursion]` futures are polled inside each other), so there `spin` is a stack overflow,
  which aborts the whole process (Model/Workers.lean).
* Overflow: arithmetic is modelled with overflow checks on (dev profile); where the release profile differs in a way that
  matters (`write_offset_encoding`) both are modelled.
* External code is a parameter: SHA-1 (`sha1 : Bytes → Hash20`), SHA-256, zlib (`Zlib` structure with the law that inflating
  `deflate d ++ rest` gives `d` and consumes exactly the compressed bytes), CRC-32, Myers diff (any valid edit script), the database
  (tables as lists, each insert and update may fail), file system (finite map), random lock ids and clock (arbitrary inputs).
  The laws are hypotheses of theorems or structure fields, never axioms, and each has a concrete instance shown in Lean.
* `SqlExt` (`Model/Storage`) is the database: an arbitrary string folding for comparisons (collation), an arbitrary `LIKE` of which only
  `p%` matching `p`-prefixed text without backslashes is assumed, an arbitrary permutation for the order in which a query without `ORDER BY`
  returns rows, arbitrary accept/reject of every insert and update (by statement number and content), and an arbitrary outcome of the thread pool that is
  possible in the small-step model of C36. Selects do not fail, transactions of other requests do not interleave with one
  request. Column widths are enforced only where a theorem assumes it (`Spec.Schema`, C117-C121). Instances `demoSql`, `demoSqlRev` are in `Lemmas/DemoSql`.
* `Spec.Schema` and `Spec.SchemaOnly` (`Model/Schema`) are databases with the column limits of `Dump20230523.sql`: a statement with a value that is too long is
  refused as a whole (strict mode, which is the default of MySQL and which sqlx keeps); `SchemaOnly` refuses nothing else. Lengths of `varchar` are counted in
  characters, spaces at the end that do not fit are cut off. Instance `dumpSql` in `Props/SchemaExamples`.
* `ObjDir` (`Model/ObjectDir`) is a directory of objects: what `read_dir` returns, in an order of its own, with a second level for directories (entries of
  which are files, or something that cannot be read as a file). Reading one entry is assumed not to fail, writing a file not to run out of space, and the file
  system to record creation times, of which nothing else is assumed.
* `Moment` (`Model/Server`) is what the environment does during one HTTP request: a fresh `SqlExt`, the recursion depth, the order of hash sets, the
  cutting of the body into pieces, the random lock id and the time. Theorems about server histories quantify over one `Moment` per request.
* `Model/Clock`: the texts of ids (eight numbers drawn from 0 to 8) and times (`to_rfc3339` of chrono 0.4.23) of locks; a moment with such texts is a `Spec.RealMoment`. How chrono gets the calendar fields from the system time is not modelled; no leap seconds.
* SSH (`Model/Ssh`): messages of connections are handled one after the other, in any interleaving. About russh it is assumed that handlers run only on
  authenticated connections and that a panic in a handler ends that connection and no other. Channel ids, exec requests and data are inputs; windows, EOF and
  exit codes are not modelled (the server never sends an exit code and never closes a channel).
* HTTP and SSH server together (`Model/Both`): one database, requests and messages one after the other in any order. Each server process has its own memory;
  nothing but the database (and, for LFS, the content store of the HTTP server) is shared.
* Restarts (`Model/Restart`): either server may be restarted between requests. The HTTP server keeps nothing in memory; the SSH server loses its connections. Database and disk stay. Row ids (`id_generator`, made from the time and a counter)
  are not modelled: that they do not repeat after a restart is assumed, as it is without one.

## Layout

* `Verif/Base/*`   bytes, results, generic list facts
* `Verif/Model/*`  the code, function by function
* `Verif/Spec/*`   small independent specifications used to state properties
* `Verif/Lemmas/*` helper lemmas
* `Verif/Props/*`  property theorems (one file per group), with a non-trivial `example` beside each

## Trusted base

Lean 4.33.0 kernel; axioms `propext`, `Classical.choice`, `Quot.sound` only (each theorem uses a subset).
Axioms of each theorem listed in MANIFEST.json (from `Lean.collectAxioms`): `C147_plain_partial` use no axiom at all; `C22_ref_command_type`, `C58_equal_exact` use `propext`; `C04_hash_accepts_iff`, `C04_hash_case`, `C04_hash_roundtrip`, `C06_loose_path_injective`, `C100_both_write_false`, `C100_file`, `C100_killed_false`, `C100_same_key_partial`, `C100_two_starts_false`, `C146_writable`, `C147_written_differs`, `C15_pkt_format`, `C15_pkt_limit_sharp`, `C161_one_reading`, `C21_words_exist`, `C23_ref_name_partial`, `C32_cache_consistent`, `C32_colliding_ids`, `C41_negative_limit`, `C43_no_path_partial`, `C43_path_fails`, `C46_distinct`, `C46_inside`, `C58_agrees_false`, `C58_agrees_partial`, `C58_preorder_partial`, `C59_crash_false`, `C59_leftover_false` use `propext` and `Quot.sound`; all others use `propext`, `Classical.choice` and `Quot.sound`.
No `sorry`, no added axioms, no `native_decide`/`bv_decide`.
The correspondence between the Rust text and the Lean definitions is by reading (comments cite lines).
Trusted about the outside: the laws listed under "External code".

## Properties: what is modelled and how it is proved

| id | model | proof shape |
|----|-------|-------------|
| C01 | `write_size_encoding`, `read_size_encoding` | round trip, induction on 7-bit groups |
| C02 | header part of `convert_to_vec`, `read_type_and_size` | round trip via C01-style lemma; bound 2^61 shown sharp |
| C03 | `write_offset_encoding`, `read_offset_encoding` | **false**: negation (16384); partial: exact characterisation of the distances that survive |
| C04 | `Hash::from_bytes`, `to_plain_str` | round trip + iff for acceptance |
| C05 | `Hash::from_meta` pre-image | injectivity |
| C06 | `write_to_file`, `read_object_from_file`, folder/filename | round trip with abstract zlib and file map |
| C07 | `ObjectType` conversions | round trip + iff for acceptance |
| C08 | `Tree::decode_metadata`, `encode_metadata` | round trip both ways, induction on entries / input |
| C09 | `AuthorSign` | round trip |
| C10 | `Commit::decode_meta`, `encode_metadata` | **false** for merges (all parents read as the first): negation; partial for ≤ 1 parent |
| C11 | `Tag` | round trip for messages starting with newline; negation otherwise; **false** in general: `C11_tag_roundtrip_false` |
| C12 | `DeltaDiff`, `apply_delta` | refinement: any valid edit script; **false** for copies ≥ 2^24 |
| C13 | `apply_delta` | refinement against an independent delta semantics, for all byte strings |
| C14 | `DeltaDiff` | invariant over callbacks |
| C15, C16 | `add_pkt_line_string`, `read_pkt_line` | round trip, induction on stream |
| C17 | `send_pack`, `build_side_band_format` | all chunkings; independent demultiplexer |
| C18 | `git_upload_pack` read loop | **false**: spins for every fuel; partial: terminates when `done` present; `C18_exact`: the requests that spin, given by an independent grammar of packets |
| C19 | same loop | induction on request lines |
| C20 | same | **false**: hard-coded ACK id; partial |
| C21 | `parse_capabilities` | membership iff |
| C22 | `RefCommand::new` | decision logic |
| C23 | `parse_ref_update` | **false**: NUL kept; partial |
| C24 | `git_receive_pack` over HTTP and SSH | **false** for every push of several refs (HTTP: nothing stored; SSH: the first only) and for deletions; partial: one command with a pack |
| C25 | `git_receive_pack` | round trip |
| C26 | `git_receive_pack`, `save_packfile`, `handle_refs` (`Props/Durable`) | composition of the push, node, commit and ref theorems; **false** when inserts of commits or refs fail |
| C27 | `Pack::encode`, `decode` | round trip, induction over objects |
| C28 | `Pack::encode_delta`, `decode` | round trip for every base choice when the checked encoder succeeds; **false** at the distances C03 gets wrong |
| C29 | `check_header`, `encode_header` | iff + round trip |
| C30 | `decode` | **false**: any trailer accepted |
| C31 | `next_object` | **false**: offset 0 loops; partial: decoding ends if no entry read (`EntrySeq`, `BaseOf`) has distance 0; well-formed packs have none; every byte string either ends with recursion no deeper than its length or never ends |
| C32 | `PackObjectCache` | invariant over histories |
| C33 | `pack_object_dir` | decoder run on the appended pack (C64); **panics** when there is nothing to add; **false** in general: `C33_empty_false` |
| C34, C35 | `Idx::encode`, `decode` | round trip / counting |
| C36 | `update_from_cache` | small-step thread model: lock invariant, permutation invariant, progress, termination measure |
| C37 | `check_completeness`, `vec_sliding_window`, `write` | **false**: `write` never succeeds |
| C38 | `decode_by_idx` | **false**: result dropped; **false** for deltas against ids (order of the index); partial: random access to entries, induction on delta chains |
| C39 | `multi_decode` | **false** for the count; availability proved |
| C40 | lock create/delete as read and write steps (`Model/LfsLock`) | invariant over histories; non-overlapping interleavings reduce to sequential histories; **false** for overlapping ones: `C40_concurrent_false`, `C40_refused_false`, `C40_first_false`; over requests to both servers: `C40_served_partial` |
| C41 | `lfs_get_filtered_locks` | **false** when exactly one remains; partial characterisation; over requests to both servers: `C41_served_partial`, `C41_served_false` |
| C42 | `lfs_delete_lock` | set equation; id collisions; **false** for overlapping requests (a deleted lock returns); over requests: `C42_served_partial`, with real ids `C42_drawn_partial`, `C42_url` |
| C43 | `lfs_retrieve_lock` | **false**; over requests: `C43_served_partial`, `C43_file_false` |
| C44, C45 | content store histories (`Model/LfsStore`) | C44 **false** after a rejected upload; C45 **false** for bodies longer than one write; invariants over histories for the rest; over requests to both servers: `C44_served_partial`, `C44_served_false`, `C45_served_partial` |
| C46 | `transform_key` | injectivity |
| C47 | `lfs_process_batch` | decision logic, induction over objects; **false** in general: `C47_directory_false`; over requests: `C47_requests_partial` |
| C48 | `update_from_cache`, `build_node_tree`, `save_packfile` (`Model/Nodes`, `Model/Storage`) | soundness and completeness of the tree walk against reachability, induction on the recursion with the shared cache of processed ids; **false** for pushes that leave out objects |
| C49 | `get_full_pack_data`, `get_child_trees`, `Pack::encode` (`Lemmas/Fetch`, `Lemmas/Clone`, `Props/Clone`) | the collected map stays closed under "listed in a collected tree"; invariant over histories (`Lemmas/StoreRun`); pack round trip C27; **false** for empty and for case-folded paths |
| C50 | `get_incremental_pack_data` (`Lemmas/Inc`) | same invariant, exact set of objects; **false** for the commits |
| C51 | `save_nodes` | loop invariants, every accept/reject behaviour of the database; **false** for empty batches and the byte bound |
| C52 | `get_ref_object_id` + advertisement | map built from a permutation of rows; independent packet reader; **false** for shared ids |
| C53 | `update_refs` | frame theorem over arbitrary row order; **false** with equal ids |
| C54 | `get_head_object_id`, `search_refs` | decision logic, path components; idempotence for any two row orders; **false** with backslashes |
| C55 | `generate_child_commit_and_refs` | partial when names are unique; **false** by witness; never updated: two-query argument |
| C56 | `remove_git_suffix`, `handle_git_command` (`Model/Router`) | removal of a text treated as an operator on strings: splitting lemma for unbordered patterns; **false** in general and between HTTP and SSH |
| C57 | the three method routers (`Model/Router`) | suffix and segment lemmas for all strings, both directions; **false** for 404, for `/objects/locks` and for `/unlock`; every request that belongs to no endpoint is refused and changes nothing (`Props/Unserved`) |
| C58 | `Ord`/`PartialEq` of the four objects (`Model/Order`), `check_completeness` | lexicographic order laws; sorted permutations agree up to comparing equal; **false** for agreement with `==` |
| C59 | file operations of `git_receive_pack` (`Model/TempFile`) | invariant over all interleavings of any number of pushes; **false** within one second |
| C60 | `git_info_refs` | round trip through independent packet reader |
| C61 | `build_from_model_and_root` | equational |
| C62 | `send_pack`, `build_side_band_format` | **false**; exact answer for clients without side-band |
| C63 | `handle_upload_pack`, `handle_receive_pack` per SSH message | **false** by witness, and for every pack in more than one message (`C63_pieces_false`); partial for the natural division |
| C64 | `Pack::decode`, `next_object` | refinement of a relational format specification |
| C65 | lock create/delete | invariant over sequential histories and over interleavings in which requests for the same ref do not overlap; **false** for overlapping ones (lost update); over requests: `C65_served_partial` |
| C66 | `lfs_verify_lock`, `lfs_delete_lock` | **false**: invariant that no lock ever has another owner; over requests: `C66_theirs_false`, `C66_unlock_false`, `C66_named_partial` |
| C67 | `lfs_add_lock` | sortedness invariant; over requests: `C67_served`, and of the times themselves (`Model/Clock`): `C67_times` |
| C68 | content store histories | shape invariant of the disk; **false** for short oids and wrong sizes announced before; over requests: `C68_requests_partial` |
| C69 | content store histories | two-run argument (disks that agree on the content directory); **false** for oids with slashes; for requests after every history of both servers: `C69_served_partial`, `C69_served_false` |
| C70 | `git_receive_pack`, `get_status` | independent reader of the report; **false** for the name |
| C71 | all writers of the storage | induction over histories (`StoreRun`): rows are inserted children first, commits last |
| C72 | push followed by clone | the reachable set after a push is the old one plus what the pack reaches; **false** for tags |
| C73 | push seen from another path | same, no collision means shared rows have equal content |
| C74 | `internal_link` and its siblings, batch, upload, download over HTTP (`Model/Server`) | links read by an independent URL reader and routed back; history invariant of the object table and the content directory; **false** with user or repository; over both servers by `C75_api_both`: `C74_both_partial` |
| C75 | the whole HTTP server (`Model/Server`) | non-interference: frame and congruence of one request for each part of the state, induction over histories; with SSH `C75_git_both`, `C75_locks_both`, `C75_objects_both`; projection of a mixed history to its HTTP requests: `C75_api_both` |
| C76 | same | case analysis over all routes and replies; **false** for 406 and for crashing pushes; general over HTTP and SSH: `C76_stale_false` |
| C77 | same | server histories refine storage histories (`StoreRun`), then C71; **false** below a repository, when the path is a file there |
| C78 | same, push and clone | server histories refine storage histories, then C72, C17, C15; the reply is read by an independent client; **false** in general: `C78_tags_lost_false` |
| C79 | same, GET requests | states that agree up to an idempotent directory creation answer alike (simulation); **false** for discovery below a repository; with SSH `C79_get_both_partial` |
| C80 | `decodePack` with `getHashObject` on the state of a server (`Model/Server`) | invariant of the node table over all server histories makes the storage a `Supplies` source, then C64; the same over both servers (`both_nodes`); **false** for bases that are commits |
| C81 | `getFullPackL`: the clone with numbered queries, each seeing a state of the system of tasks (`Model/Concurrent`) | invariant over all interleavings gives completeness of the commits read first; later states only add, ids determine rows; a constant view gives the function of `Model/Storage`; **false** in general: `C81_empty_false` |
| C82 | `SysRun`: pushes and discoveries as tasks taking turns at database statements | invariant over rows, refs and the statements still to be run; tasks run alone are the functions of `Model/Storage` (`solo_push`, `solo_head`); **false** in general: `C82_insert_false` |
| C83 | `findRef`/`setRef` statements of `update_refs` | **false**: a schedule in which both updates succeed, from every state with a matching row; sequential case proved |
| C84 | refs and commits in `SysRun` | invariant: what a task is going to write names commits that are stored by then; **false** when an insert of commits fails |
| C85 | `SshServer` as a transition system over connections (`sshStep`) | independence by simulation; **false** for two channels of one connection: the last exec request wins, a push on one channel lands in the other's repository; a second login changes nothing |
| C86 | `handle_git_command`, `handle_upload_pack`, `handle_receive_pack` against `serve` | push, first fetch message and advertisement agree with HTTP whatever other connections do; **false** for a push in one message: the pack is sent back; later fetch requests by induction over the session: capabilities add up, so **false** for a second request (`Props/SshLater`) |
| C87 | `auth_publickey`, `auth_password` | **false**: histories that differ in credentials are indistinguishable; partial: nothing happens before authentication |
| C88 | `C88_http`, `C88_ssh`, `C88_overlapping` | refs are only ever added |
| C89 | `C89_others_partial`; false: `C89_delete_false`, `C89_delete_pack_false` | deletion never happens; both servers: `C89_ssh_false`, `C89_both_false` |
| C90 | `C90_confined_partial`, `C90_fetch_partial`; false: `C90_below_false` | invariant: each commit of a path came in a pack pushed there, together with all it reaches; fetch reply taken apart; **false** in general: `C90_below_false` |
| C91 | `C91_no_cycles`, `C91_fetch_ends`, `C91_refused`, over both servers `C91_no_cycles_both`, `C91_fetch_ends_both` | each stored row came from a pack that has all below it to a finite depth (`Built`); no collision among pushed packs carries this to storage; number of rows below an id as measure; every loop of the fetch halts |
| C92 | `C92_answered_partial`, over both servers `C92_answered_both_partial`, `C92_ssh_partial`; false: `C92_fetch_false`, `C92_push_false`, `C92_ssh_fetch_false`, `C92_ssh_push_false` | case distinction over the router; C91 for fetches; C31 and accessibility of the child relation of a finite pack without cycles for pushes; **false** in general: `C92_fetch_false`, `C92_push_false` |
| C93 | `write_to_file`, `find_all_loose`, `pack_loose_from_dir` | proved for tidy directories; **panics** on stray files and on directories without loose objects; **false** in general: `C93_stray_false`, `C93_empty_false` |
| C94 | `pack_object_dir`, `find_pack_file` | proved for one pack; **false** for several (objects missing), **panics** for none |
| C95 | `multi_decode`, `find_all_pack_file` | proved for git's file names; **panics** on others; **false** in general: `C95_name_false` |
| C96 | `git_receive_pack` then `git_info_refs` over all histories (`runServer`) | partial: under the stored name, with NUL; refs with different ids; negation for the pushed name; **false** in general: `C96_name_false` |
| C97 | `search_refs`, `get_head_object_id`, `handle_refs` over all histories of other repositories | partial: other repositories are those whose path is different for the collation; negation for paths that differ in case; **false** in general: `C97_case_false` |
| C98 | `build_res_header` and the headers of all handlers (`Model/Headers`) with the routing | proved |
| C99 | `get_head_object_id`, `generate_child_commit_and_refs`, `search_root_node_by_path` over all histories, of HTTP and of both servers (what is stored and what SSH sessions hold is UTF-8) | partial: crash characterised for both servers; negations for `..` and for a master without commit; **false** in general: `C99_dotdot_false`, `C99_dangling_false` |
| C100 | `server`, `load_key` as processes sharing the key file (`Model/HostKey`), invariant over all runs | partial: no start or kill while the file is being created; negations for both; **false** in general: `C100_two_starts_false`, `C100_both_write_false`, `C100_killed_false` |
| C101 | object handlers and `ContentStore` as tasks (`Model/LfsConcurrent`), invariant over all interleavings | partial: prefix, exact when quiet; negations for a second upload, a wrong upload, a kill; **false** in general: `C101_short_false`, `C101_mixed_false`, `C101_killed_false` |
| C102 | `lfs_process_batch`, `lfs_put_meta` as tasks | partial: objects nobody else announces; negation for two announcements; **false** in general: `C102_announced_false` |
| C103 | `git_upload_pack` acknowledgements with `get_commit_by_hash`, over HTTP histories (`Props/Acks`) and over both servers (`Props/AcksBoth`); commits are filed under their ids (invariant) | partial: exact up to wanted ids and other repositories, both negations proved; **false** in general: `C103_other_repository_false`, `C103_wanted_false` |
| C104 | `git_info_refs` with its two queries apart, statements of pushes and discoveries | invariant: the remaining statements of every task concern other paths; **false** in general: `C104_same_id_false` |
| C105 | the statements of one push among those of others | how far the push has come, as an invariant over all interleavings; **false** in general: `C105_same_id_false` |
| C106 | `handle_refs`, `generate_child_commit_and_refs` over HTTP and SSH | invariant over histories (`run_once`, `runBoth_once`); **false** when a branch is created again |
| C107 | `get_incremental_pack_data` with its queries apart, statements of pushes and discoveries | every query sees a state between the first and the last; **false** for the commit itself |
| C108 | `git_upload_pack` over HTTP with the three phases of its queries apart | the phases at separate moments of one interleaved run |
| C109 | push, storage and clone as in C78 and C108 | files by path in the pushed pack and in the received pack; **false** if inserts fail |
| C110 | HEAD of a path below a repository (`generate_child`), clone of both paths | files by path in the clone of the directory and in the clone of the repository; **false** when the name is not unique or the path does not exist; over both servers `C110_both_partial` |
| C111 | the whole path of a push and of a clone (`serve`) | C64/C80 (decoding), C48 (a finite pack without cycles has bounded depth), C70, C78 and C109 composed; nothing about the outcome of a request is assumed; over SSH: what is sent in two messages is handled as over HTTP (`sent_pushed`, `sent_lost`), then C115; **false** for packs that leave out objects; with the tables of the dump: `C111_tables_partial` (what fits is stored as by a database without limits, `push_fits`) |
| C112 | `read_object`, `read_unpacked_object`, `parse_decimal`, `Display for Hash` (`Model/LooseRead.lean`) | writes then reads as in C06; **false** for all objects but commits, and in a terminal |
| C113 | `find_common_base`, `parse_tree`, the `parse_from_file` functions (`Model/LooseRead.lean`) | induction over the walk; owners of an `Arc` are counted; **false** whenever there is something to send |
| C114 | the tasks of `Model/LfsConcurrent.lean` | progress: a rank that falls with every turn, under an invariant over all interleavings; **false** when somebody sends wrong content or a wrong size |
| C115 | `serve` and `sshStep` on one database (`Model/Both.lean`, `runBoth`) | an answered push or fetch over SSH is one over HTTP; storage invariant over mixed histories; C109 and C78 on top; **false** for the same path in both: the leading slash is dropped over SSH |
| C116 | `serve` and `sshStep` on one database (`runBoth`) | a session's path and service are those its connection was last opened for (`openFor_link`); every step has one of four effects on the database (`both_effect`), each keeps stored commits inside packs sent to their path (`effect_confined`); answers as in C90. Overlapping requests (Model/Concurrent): `C116_overlapping_partial`, by the invariant of C82 at the first query for the pack |
| C117 | `handle_refs`, `save_refs`, table `refs` of the dump (`Model/Schema`) | a statement with a row that does not fit is refused as a whole; effect of an answered push on the refs (`created_effect`); invariant that all rows fit (`runBoth_within`); **false** in general: `C117_long_false`, `C117_branch_false` |
| C118 | `save_commits`, table `commit` of the dump | chunks of 100 are stored or dropped as a whole; the commits of the decoded map are those of the pack (C36); **false** in general: `C118_big_false`, `C118_message_false` |
| C119 | `save_nodes`, table `node` of the dump | the rows of an answered push contain every reachable object with its content and its name (`pushed_rows`); conversely rows that fit are accepted (`roomy_stored`); **false** in general: `C119_big_false`, `C119_name_false`, `C119_file_false`, `C119_long_name_false`; `C119_same_partial`: what fits is handled as by a database that accepts every row, so the theorems that assume `Spec.Accepts` apply to such pushes |
| C120 | `lfs_put_meta` with the limits of table `meta` of the dump; overlapping LFS requests | invariant over all runs: no row for the object, and where each task can be (`bigTask_step`); conversely C102 with the limits discharged; **false** in general: `C120_big_false`; for requests after every history of both servers: `C120_served_false`, `C120_served_partial` |
| C121 | `lfs_add_lock`, `lfs_delete_lock` with the limits of table `locks` of the dump; JSON text of the locks | length of the text (`jsonLocks_chars`); invariant that every stored row fits (`reach_rowsFit`); removing locks makes the text shorter (`jsonLocks_sublist`); **false** in general: `C121_bounded_false`, `C121_full_false`, `C121_third_false`; for requests after every history of both servers: `C121_served_false`, `C121_refused_false`, `C121_served_partial`, `C121_removed_partial` |
| C122 | `get_head_object_id`, `get_ref_object_id`, `git_info_refs` over both servers; the grammar of the list of refs as git clients check it (`Spec.clientRefs`) | reading of the produced packets (`clientRefs_advertised`); invariant over histories that no master is stored at or above the path (`neverMaster_none`), using that `Path::starts_with` is transitive; **false** in general: `C122_unreadable_false`, `C122_ssh_false`, `C122_main_false` |
| C123 | `get_head_object_id`, `generate_child_commit_and_refs`, `handle_refs` over both servers | invariant over histories without packs for the path itself: its rows stay (`run_rowsAt`); **false** in both directions: `C123_down_false`, `C123_up_false`, `C123_run_false` |
| C124 | the LFS routes of `serve` | the handler does not depend on the prefix of the path (`lfs_route`); **false**: `C124_same_false`, `C124_lock_false`, `C124_file_false`; non-interference between branch names by agreement of one row (`run_branchRow`); over both servers: `C124_both_false` |
| C125 | `build_node_tree` over HTTP and SSH | every stored row is a tree or blob of the pack (C48); **false**: `C125_submodule_false`, `C125_lib_false` |
| C126 | `git_receive_pack` with a pack without objects, `handle_refs`, `get_ref_object_id` | the empty pack decodes to nothing and storing it changes nothing (`nothing_pushed`); replies to the question for refs are read in one way (`shows_unique`); **false** in general: `C126_hidden_false`, `C126_wrong_branch_false`, `C126_run_false`; over SSH: `C126_ssh_false` |
| C127 | `git_upload_pack` over HTTP and SSH, connections of both servers | the messages are unfinished in the sense of C18; a stuck connection stays stuck (induction over the history); **false**: `C127_rounds_false`; partial: `C127_once_partial` |
| C128 | `git_info_refs`, `git_upload_pack` over HTTP and SSH | lines that are neither want nor have do not change the state of the loop (induction); **false**: `C128_depth_false`, `C128_ignored_false`, `C128_offered_false` |
| C129 | `read_pkt_line` on a body in the coding gzip, over HTTP (no handler and no layer of the router decodes it) | the magic bytes are no length; **false**: `C129_compressed_false`, `C129_clone_false`. That git compresses fetch requests of more than 1024 bytes is knowledge about the client, not used in the theorems |
| C130 | `git_receive_pack`, `git_upload_pack` on a flush packet | computation in every state; **false** for fetches: `C130_fetch_false`. That git sends this test before requests larger than `http.postBuffer` is knowledge about the client |
| C131 | `Deserialize` of `LockRequest`, `UnlockRequest`, `VerifiableLockRequest`, `BatchVars` and `serde_json` (Model/Json.lean) | the parser is the JSON grammar of Spec/Json.lean (`parseJson_iff`, fuel = length + 1), texts are decoded as the grammar says (`jsonContent_iff`: UTF-8, escapes, surrogate pairs), members are found by name (`need_iff`, `opt_iff`, `dflt_iff`), and nothing else is taken for a request (`C131_refused`); **false** for optional members: `C131_transfers_false`, `C131_ref_false`. Not modelled: the recursion limit of `serde_json` (128 levels) |
| C132 | `Serialize` of the reply structs (Model/JsonOut.lean) | invariant over all histories: every stored string is UTF-8, every size has 64 bits (`serve_clean`); texts written are texts of the grammar (`rawText_reads`, `obj_text`, `arr_text`, `int_text`); with real ids and times, both servers: `C132_served` |
| C133 | the lock functions of `storage.rs` with the texts of the column `data` (Model/LockText.lean) | refinement: the table of texts is the image of the table of lists (`C133_stored`), by `readLocks_jsonLocks` |
| C134 | the `Err((StatusCode, String))` values of `lfs/http.rs` and `lib.rs` (Model/ErrorText.lean) | **false**: `C134_form_false`, `C134_conflict_false`; the texts of the handlers are shown not to be JSON by running the parser of C131 on them (`lfsErrorTexts_json`), which is complete by `parseJson_iff` |
| C135 | the model of C29-C31 on arbitrary bytes | relation `Spec.Stands` (what stands at an offset, Spec/PackRead.lean) independent of the cache; invariant `CacheFrom`: everything in the cache stands in the file, `nextObject_sound` by induction on the recursion; **false** in three ways: `C135_size_false`, `C135_more_false`, `C135_junk_false`; for answered pushes to both servers: `C135_pushed_partial` |
| C136 | `main` under `#[tokio::main]` as a pool of workers (Model/Workers.lean): a handler that loops without waiting takes its worker for ever, recursion without end overflows the stack and aborts the process. External: tokio's scheduler (assumed to hand every request to a worker that is not taken; a real one may strand some more) | **false**: `C136_workers_false`, `C136_rounds_false`, `C136_push_false` for every state and every later request; `C136_kept_partial` by induction on the history; both processes (Model/WorkersBoth.lean): `C136_ssh_workers_false`, `C136_ssh_rounds_false`, `C136_ssh_push_false`, `C136_apart_partial`, `C136_ssh_kept_partial` |
| C137 | queries of overlapping requests in any order (Model/Concurrent.lean). External: database | invariant of runs: no update in the system starts from the new id, and the row of the branch, once inserted, stays at its place; `C137_created_partial`, `C137_finishes_partial` |
| C138 | commits, directories and tags in git's formats (Spec/GitObjects.lean) as the decoders read them. External: decompression, hashes, database | characterisation of the decoders on git's formats: `ok` if and only if the texts are UTF-8 and the times since 1970; `C138_accepted_partial`, `C138_published_partial`, `C138_foreign_false`, `C138_latin_false`; with the tables of the dump: `C138_tables_partial` |
| C139 | generated commits of sub-directories in git's format (Spec/GitObjects.lean). External: database, hashes; how signatures are checked is a parameter | the encoding of a decoded commit in git's format is its text; the tree differs because directories are acyclic; `C139_unsigned_partial`, `C139_signature_false`; over both servers `C139_unsigned_both_partial`, `C139_signature_both_false` |
| C140 | options of the servers, the parser of socket addresses of the standard library, links of batch replies. External: operating system, command line parser | the parser takes exactly the texts of the specification (induction over the groups of an address); `C140_v4`, `C140_v6`, `C140_exact`, `C140_links`, `C140_names_false`, `C140_default_link_false` |
| C141 | uploads step by step (Model/LfsConcurrent), stopped behind any step, histories of requests before and after. External: the operating system keeps what was written | invariants of the store over histories with long oids (`LongStore`), effect of every prefix of the steps of an upload (`upload_steps`); `C141_kept_partial`, `C141_again_partial`, `C141_cut_false`, `C141_wrong_false` |
| C142 | overlapping requests (Model/Concurrent) and stops of the server: tasks are lost, the database is kept. External: every statement is executed completely or not at all | a server that is stopped is simulated by one that does not continue some tasks (`stopping_idle`, up to permutation of tasks); `C142_clone_partial`, `C142_refs_partial`, `C142_again_partial`; for HTTP and SSH: `C142_both_clone_partial`, `C142_both_again_partial`; with the tables of the dump: `C142_tables_partial` |
| C143 | pushes and fetches over HTTP and SSH, whole server. External: the database accepts the inserts of the push, no other stored object has the id of the tag | `project_stored` for the push, `fetch_confined` for everything answered later; `C143_lost_false`, `C143_fetch_false`, `C143_light_partial`; over both servers `C143_lost_both_false`, `C143_fetch_both_false`, `C143_light_both_partial`; with the tables of the dump: `C143_tables_partial` |
| C144 | pushes of one ref and fetches over HTTP and SSH, any state. External: pieces of the pack as `read_buf` cuts them | relational: `receiveData_caps`, `httpUploadPack_noHave`; `C144_push_same`, `C144_clone_same`, `C144_fetch_false`, `C144_report_false`; over both servers `C144_push_both_same`, `C144_clone_both_same`, `C144_fetch_both_false`, `C144_report_both_false` |
| C145 | both servers, whole histories; requests over HTTP for `C145_deep_false`. External: the tables of the dump and no other failures | a potential: the named paths that have no branch master of their own (`reads_bound`, `head_grows`); length of a re-encoded commit (`commit_length`); `push_names` and counting for pushes; `C145_reads_partial`, `C145_deep_false`, `C145_push_false`; long paths over SSH: `C145_ssh_false` |
| C146 | query strings (`Model/Query`): axum's `Query`, `serde_urlencoded`, `form_urlencoded`, `percent_encoding` and `from_utf8_lossy` written out. Not modelled: which bytes hyper admits in a request line | a grammar of query strings (`Spec.QueryText`) read back by induction; `C146_read`, `C146_lossy` (`lossyGo_lossy`), `C146_twice`, `C146_writable`, `C146_locks`, `C146_history` |
| C147 | HTTP, whole histories; the path of the URL as it stands in the request (`uri.path()`, never decoded) | rows are named after entries of pushed packs (`rows_named`), the fallback to a row without name; **false**: `C147_encoded_false`, `C147_same_false`; over SSH `Spec.gitLine` is what a git client writes (`sq_quote_buf`): `C147_ssh_partial`, **false**: `C147_quote_false`, `C147_space_false`, `C147_space_empty_false`, `C147_space_short_false` |
| C148 | both servers, mixed histories; the pushes as for C111 and C126 | nothing removes rows of commits and nodes, and a clone sends all commits stored for the path: `C148_set_back_partial`; **false**: `C148_kept_false`, `C148_forced_false` |
| C149 | both servers, mixed histories; `Spec.readFetch` is a client that reads the ACK lines, then the bands | shape of the incremental answer (C20, C32) + stored files (C111) through `both_nodes`: `C149_fetched_partial`, `C149_refused_partial`; **false**: `C149_no_commit_false`, `C149_unknown_false` |
| C150 | both servers, mixed histories; `Spec.ToldBoth`: what a git client reads over HTTP and on every SSH connection | `both_change` (what one step does to the database) + `told_both`: `C150_shown_partial`, `C150_unaffected_partial`; **false** for the name: `C150_name_false`; also `C77_both_partial`, `C88_both` |
| C151 | both servers, mixed histories; the same push sent twice | `packOf_mono`, `push_inRepo` (the repetition adds nothing), `mem_getRefObjectId` (equal rows collapse): `C151_again_partial`, `C151_told_partial`; **false** for updates (`C151_update_false`) and for later pushes (`C151_two_values_false`); with the tables of the dump: `C151_tables_partial` |
| C152 | both servers, mixed histories with any number of pushes to the repository | refinement of an inductive description (`Spec.Published`) by the stored rows: `published_inv`, from `noPack_step` (everything except packs for the repository leaves it alone, incl. announcements of pushes over SSH) and `push_inRepo`: `C152_accepted_partial`, `C152_exact_partial`, `C152_same_partial`, `C152_branches_partial`; with the tables of the dump: `C152_tables_accepted_partial`, `C152_tables_exact_partial`, `C152_tables_branches_partial` (`publishedFit_same`: the same visits without limits lead to the same state) |
| C153 | both servers, mixed histories, two servers or one | `union_project` (what clones send is complete and without cycles), `published_inv`: `C153_copied_partial`; with the tables of the dump: `C153_tables_partial` |
| C154 | both servers, mixed histories | `decodePack_tail` (what is read as a pack is read as the same pack whatever follows, so no proper part of a pack is one: `C30_cut_partial`), `sent_section`, `cut_section`, `unread_lost`: `C154_cut`, `C154_request`, `C154_session`, `C154_lacking`, `C63_pieces_false`; **false** for branches that have moved: `C154_stale_false`; with the tables of the dump: `C154_tables_stale_false` |
| C155 | both servers, mixed histories | `clone_closed` (what is reachable in a clone is in it, from `StoreInv`), `clone_answers`, `inRepo_mono`, `noPack_run`, `CheckedOut.same`: `C155_stays_partial`; **false** below other repositories: `C155_below_false`, `C155_file_false` (`full_fails`, `searchRootNode_name`) |
| C156 | both servers, mixed histories with restarts (`Model/Restart.lean`) | `restart_inv`, `number_inv` (simulation: same stored state, same state of the connections of the present process): `C156_unnoticed`, `C156_numbers`, `C155_restarted_partial` |
| C157 | both servers, mixed histories | invariant `runBoth_inv` (stored refs are of paths that were named), `unused_empty`: `C157_ssh_false`, `C157_http_false` (every history, whatever is pushed to the other server), `C157_slash_partial` |
| C158 | both servers, all histories | induction over the history with the list kept by an observer of requests and replies (`note_step`, `ledger_from`): `C158_listed`, `C158_asked` |
| C159 | both servers, all histories | the reader of a reply finds exactly the listed commits that are stored (`fetchedAny_reads`), and stored commits stay (`runBoth_extends`): `C159_stays`, `C159_same` |
| C160 | both servers, all histories | the state of one object is kept equal to a note made from requests and replies (`noteObject_step`, `noted_run`): `C160_download_partial`, `C160_upload_partial`; refuted for announcements that crash: `C160_crash_false` |
| C161 | both servers, all histories | the table of objects collected has one row per id, each made by `MetaData.new` from a stored row (`Gathered`, kept by `childLoop`, `fullLoop`, `incLoop`): `packOf_plain`; `C161_clone`, `C161_fetch`; the same with numbered queries, each answered by a database that only grows: `C161_overlapping`; the format has one reading: `entryCode_unique`, `C161_one_reading` |
| C162 | both servers, all histories | simulation between the runs with and without the readers (`Alike`: same database, locks and LFS objects, same links of the others, no session of a reader is one for pushing): `alike_read`, `alike_other`, `alike_run`, `C162_unnoticed` |
| C163 | both servers, all histories | `C163_rest_false` (a command section with several commands leaves both servers in the same state as one with the first; from `C24_ssh_first_only`), then C111 for the push of the first; over HTTP from `C24_several_server` |
| C164 | both servers, all histories | `refused_command` (from C53_update_scope_partial); refs from `savePackfile_refs`; second attempt with `noPack_run`, `packOf_mono` and C111; clones with `push_inRepo`, C49 and `clone_has` |
| C165 | both servers, all histories | `saved_or_not` (from C51_batches_partial: the nodes come first); InRepo depends on commits at the path, rows added are not reached (unique ids); clones with C49 and `clone_has`; second attempt with `noPack_run`, `packOf_mono` and C111 |
| C166 | `lfs_create_lock`, `lfs_delete_lock` with failing INSERT, UPDATE and DELETE statements (`Model/LocksFail`) | simulation: a granted request has the effect it has on a database without limits (`create_under`, `delete_under`), others none; then C40, C42 |
| C167 | `lfs_process_batch`, `lfs_upload_object` with failing INSERT and DELETE statements (`Model/ObjectsFail`) | `under_state` (files as without the failure, rows as without it or as before), then the invariants of C45 (`C167_kept_partial`), C68 (`C167_accepted_partial`) and C44 (`C167_content_partial`); **false** for wrong bytes: `C167_wrong_false` |
| C168 | lock requests with failing SELECT, INSERT, UPDATE and DELETE statements, carried out or not (`Model/LocksLost`) | `create_under`, `delete_under` of C166, then `lost_some` (the locks are those of a part of the requests with a database that never fails), C40, C65; refused requests may take effect: `C168_refused_false` |
| C169 | LFS object requests with failing SELECT, INSERT and DELETE statements, carried out or not (`Model/ObjectsLost`) | `lost_shortened` (a request that ends early is like a shorter one), then C167 |

Where a property is false of the code the negation is proved with a concrete witness and the strongest true part is kept as a
`…_partial` theorem.

## Not modelled

Terminal colouring and `Display` (except that of ids, C112); logging; configuration and CLI; HTTP/SSH wire handling and crypto in hyper/axum/russh; SQL engine
internals; JSON reading and writing of the LFS API is modelled (Model/Json.lean, Model/JsonOut.lean, C131-C133: `serdeJson` is the value of the parser parameter of the server model; not modelled: the recursion limit of 128 levels, numbers of other types, `Deserialize` of types that no handler reads); requests of the whole-server
model are handled one after the other (overlapping requests only in C40, C59, C65, C81-C84, C88, C101, C102, C104, C105, C107-C109); id generator crate; `driver/fs/file_system.rs` (not compiled).

Smaller points that the model leaves out, found while comparing it with the source once more:

- SSH: `connection_timeout` (ssh_server.rs 26: ten seconds without traffic end a connection), and the messages that end a channel. The handlers only ever call
  `session.data`; no exit status, end-of-file or close is sent for a channel by the code of this repository (ssh.rs, `channel_eof` and `channel_close` are commented out), so
  a client learns the end of a fetch or push from the contents of the data alone, or from the end of the connection. All SSH theorems are about these contents.
- `save_nodes` hands an empty batch to `insert_many` when the very first node of a push has 10 MiB or more. In the model this is one more batch (`nodeBatches`) which the database may
  accept or refuse (`acceptNodes`); theorems that assume that the database accepts all rows (`Spec.Accepts`) assume it of the empty batch too. The first node is a root directory.
- axum answers HEAD requests on GET routes; the model has no HEAD.
- Batch replies: all links of one reply have the same `expires_at` in the model (in the code the clock is read once per object).
- Failing SELECT statements: the code unwraps the result of every SELECT, so a failure ends the request (HTTP) or the connection (SSH) without an answer. By reading: no request writes to a table before its last SELECT, except a push that moves
  a branch (the SELECT of `update_refs` comes after the rows are inserted; a failure there has the effect of a refused UPDATE statement, which is modelled), the ref list of a directory (the SELECT of `get_ref_object_id` comes after the
  commit of the directory is made; the tables are then as after the answered request) and LFS batch requests (the objects are looked up and recorded one after the other; the tables are then as after a batch request with the first of them). So failing SELECTs lead to no contents of the tables that the model does not reach; what is not modelled is that the request is not answered (except for lock and LFS object requests, `Model/LocksLost` and `Model/ObjectsLost`).
  sea-orm reads a row back by a SELECT after every `update` (MySQL has no `RETURNING`); when that fails, the UPDATE statement is carried out and the code sees an error. For locks this is modelled (`Model/LocksLost`, C168); in `update_refs` the result is
  unwrapped, and the tables are as after the answered push.

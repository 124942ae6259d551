import Verif.Model.Storage

/-! # Requests that overlap in time

The handlers of `/repo/src/gust/driver/database/mysql/storage.rs` as sequences of database statements. Every request is a task; tasks take turns at their
statements (each `.await` on the connection is one), in any order. There are no transactions in the code. A task that is never scheduled again is a
connection that was dropped. The functions of `Model/Storage.lean` are the same sequences run without interruption (`Props/Concurrent.lean`). -/

namespace Gust

/-- The statements of the handlers that write. -/
inductive Act
  /-- `insert_many(..).exec(conn).await.unwrap()` of `save_nodes`, storage.rs 563-566 and 573-576 -/
  | nodes (b : List NodeRow)
  /-- one statement of `batch_save_model`, storage.rs 721, for commits; the result is dropped -/
  | commits (b : List CommitRow)
  /-- one statement of `batch_save_model`, storage.rs 721, for refs -/
  | refs (b : List RefRow)
  /-- the `SELECT` of `update_refs`, storage.rs 516-521 -/
  | findRef (cmd : RefCommand) (path : Bytes)
  /-- the `UPDATE` of `update_refs`, storage.rs 522-525: by primary key, here the position of the row -/
  | setRef (row : Nat) (id : Bytes)
  /-- the query of `get_head_object_id`, storage.rs 44-65 -/
  | headRefs (path : Bytes)
  /-- the first query of `generate_child_commit_and_refs`, storage.rs 611-616 -/
  | headCommit (ref : RefRow) (path : Bytes)
  /-- the queries of `search_root_node_by_path`, storage.rs 643-647 and, when `second`, 651-656 -/
  | headRoot (row : CommitRow) (ref : RefRow) (path : Bytes) (second : Bool)
  /-- a panic -/
  | fail

/-- What is left to do once the root of the generated commit is found, storage.rs 619-634. -/
def childActs (X : Ext) (row : CommitRow) (ref : RefRow) (path : Bytes) (root : NodeRow) : List Act :=
  match buildFromModel X row root with
  | .ok child => [.commits [child.row path], .refs [{ repoPath := path, refName := ref.refName, refGitId := Hash.toPlainStr child.base.id }]]
  | _ => [.fail]

/-- One statement: what the task has to do next before going on (`none`: the task has panicked), and the database. -/
def Act.step (X : Ext) (E : SqlExt) (db : Db) : Act → Option (List Act) × Db
  | .nodes b =>
    if E.acceptNodes db.inserts b then (some [], { db with nodes := db.nodes ++ b, inserts := db.inserts + 1 })
    else (none, { db with inserts := db.inserts + 1 })
  | .commits b =>
    (some [], { db with commits := if E.acceptCommits db.inserts b then db.commits ++ b else db.commits, inserts := db.inserts + 1 })
  | .refs b => (some [], { db with refs := if E.acceptRefs db.inserts b then db.refs ++ b else db.refs, inserts := db.inserts + 1 })
  | .findRef cmd path =>
    match (E.order ((List.range db.refs.length).filter (fun i => (db.refs[i]?).any (updateMatches E cmd path)))).head? with
    | some i => (some [.setRef i cmd.newId], db)
    | none => (none, db)
  | .setRef i id =>
    if E.acceptUpdate db.inserts id then (some [], { db with refs := db.refs.modify i (fun r => { r with refGitId := id }) }) else (none, db)
  | .headRefs path =>
    match (searchRefs E db path).find? (fun r => path == r.repoPath) with
    | some _ => (some [], db)
    | none =>
      match (searchRefs E db path).find? (fun r => pathStartsWith path r.repoPath) with
      | some r => (some [.headCommit r path], db)
      | none => (some [], db)
  | .headCommit r path =>
    match (E.order (db.commits.filter (fun c => E.fold c.gitId == E.fold r.refGitId))).head? with
    | none => (none, db)
    | some row => (some [.headRoot row r path false], db)
  | .headRoot row r path second =>
    match fileName path with
    | none => (none, db)
    | some name =>
      match (E.order (db.nodes.filter (fun n => E.fold n.name == E.fold (if second then [] else name)))).head? with
      | some root => (some (childActs X row r path root), db)
      | none => if second then (some [], db) else (some [.headRoot row r path true], db)
  | .fail => (none, db)

/-- The statements of `handle_refs`, storage.rs 81-87. -/
def refActs (cmd : RefCommand) (path : Bytes) : List Act :=
  match cmd.commandType with
  | .create => [.refs [{ repoPath := path, refName := cmd.refName, refGitId := cmd.newId }]]
  | .delete => [.fail]
  | .update => [.findRef cmd path]

/-- The statements of a push once the pack is read: `save_packfile`, storage.rs 89-100, then `handle_refs`. (The decoder's own queries, for the bases of thin
packs, come before.) -/
def pushActs (pool : PackCache → Res ObjDecodedMap) (fuel : Nat) (p : Pack) (path : Bytes) (cmd : RefCommand) : List Act :=
  match pool p.result with
  | .ok m =>
    match buildNodeTree fuel m with
    | .ok nodes =>
      (nodeBatches 0 [] nodes).map .nodes ++ (chunks 100 m.commits.length (m.commits.map (fun c => c.row path))).map .commits ++ refActs cmd path
    | _ => [.fail]
  | _ => [.fail]

/-- The database and the tasks: what each has still to do (`none`: panicked, `[]`: finished). `pushed` is for the statements of theorems only: number of
the task, path and pack of every push that arrived. -/
structure Sys where
  db : Db
  tasks : List (Option (List Act))
  pushed : List (Nat × Bytes × Pack)

/-- One event. `Q` says which behaviour of the database is possible, `R` which paths are used, `W` what is pushed.
- a push to a path arrives and its pack is decoded. The answers of the storage during decoding are left open (`St`);
- HEAD of a path is asked for;
- a task runs its next statement. -/
inductive SysStep (X : Ext) (Q : SqlExt → Prop) (R : Bytes → Prop) (W : Pack → RefCommand → Prop) : Sys → Sys → Prop
  | push (s : Sys) (St : ObjectSource) (fuel0 : Nat) (file : Bytes) (p : Pack) (E : SqlExt) (fuel : Nat) (path : Bytes) (cmd : RefCommand) :
      decodePack X St fuel0 file = .ok p → R path → W p cmd → SysStep X Q R W s
        { s with tasks := s.tasks ++ [some (pushActs E.pool fuel p path cmd)], pushed := (s.tasks.length, path, p) :: s.pushed }
  | head (s : Sys) (path : Bytes) : R path → SysStep X Q R W s { s with tasks := s.tasks ++ [some [.headRefs path]] }
  | act (s : Sys) (i : Nat) (a : Act) (as : List Act) (E : SqlExt) : s.tasks[i]? = some (some (a :: as)) → Q E →
      SysStep X Q R W s { s with db := (a.step X E s.db).2, tasks := s.tasks.set i ((a.step X E s.db).1.map (· ++ as)) }

/-- Any number of events. -/
inductive SysRun (X : Ext) (Q : SqlExt → Prop) (R : Bytes → Prop) (W : Pack → RefCommand → Prop) : Sys → Sys → Prop
  | refl (s : Sys) : SysRun X Q R W s s
  | step (s t u : Sys) : SysRun X Q R W s t → SysStep X Q R W t u → SysRun X Q R W s u

/-- Nothing stored, nobody there. -/
def Sys.empty : Sys := { db := { nodes := [], commits := [], refs := [], inserts := 0 }, tasks := [], pushed := [] }

/-! ## Asking for refs -/

/-- The answer to a request for the refs of `path` when other requests come between its queries: HEAD is asked for in the database `db1`, the refs in `db2`
(`git_info_refs`, /repo/src/git/protocol/pack.rs 46-71). Where there is a branch master the question for HEAD is one query that changes nothing, see
`getHead_master` in `Props/RefsShown.lean`; only for such repositories is this the model of an interrupted request. -/
def refsAnswer (X : Ext) (E1 E2 : SqlExt) (service : ServiceType) (db1 db2 : Db) (path : Bytes) : Res Bytes :=
  match (getHeadObjectId X E1 db1 path).1 with
  | .ok headId => .ok (gitInfoRefs .http service headId (getRefObjectId E2 db2 path))
  | .spin => .spin
  | _ => .panic

/-! ## Clones

The queries of a clone are numbered; query `k` sees the database of `V k`. -/

/-- `childOne` with numbered queries. -/
def childOneL (X : Ext) (rec : NodeRow → HashMeta → Nat → Res (HashMeta × Nat)) (c : NodeRow) (hm : HashMeta) (k : Nat) : Res (HashMeta × Nat) :=
  if c.nodeType = ascii "tree" then rec c hm k
  else do
    let m ← MetaData.new X .blob c.data
    pure (entryInsert hm (Hash.toPlainStr m.id) m, k)

/-- `childLoop` with numbered queries. -/
def childLoopL (X : Ext) (rec : NodeRow → HashMeta → Nat → Res (HashMeta × Nat)) : List NodeRow → HashMeta → Nat → Res (HashMeta × Nat)
  | [], hm, k => .ok (hm, k)
  | c :: cs, hm, k => do
    let (hm, k) ← childOneL X rec c hm k
    childLoopL X rec cs hm k

/-- `get_child_trees`, storage.rs 679-705, with numbered queries. -/
def getChildTreesL (X : Ext) (V : Nat → SqlExt × Db) : Nat → NodeRow → HashMeta → Nat → Res (HashMeta × Nat)
  | 0, _, _, _ => .spin
  | fuel + 1, root, hm, k => do
    let m ← MetaData.new X .tree root.data
    let items ← (decodeTree root.data).unwrap
    let (hm, k) ← childLoopL X (getChildTreesL X V fuel) (childRows (V k).1 (V k).2 items hm) hm (k + 1)
    pure (entryInsert hm (Hash.toPlainStr m.id) m, k)

/-- The loop over the commits, storage.rs 115-125, with numbered queries. -/
def fullLoopL (X : Ext) (V : Nat → SqlExt × Db) (fuel : Nat) (trees : Hash → Option NodeRow) : List CommitObj → HashMeta → Nat → Res (HashMeta × Nat)
  | [], hm, k => .ok (hm, k)
  | c :: cs, hm, k =>
    let hm := entryInsert hm (Hash.toPlainStr c.base.id) c.base
    match trees c.commit.treeId with
    | some root => do
      let (hm, k) ← getChildTreesL X V fuel root hm k
      fullLoopL X V fuel trees cs hm k
    | none => .err .other

/-- The objects of `get_full_pack_data`, storage.rs 102-125: the commits are read first, then their roots, then the directories. -/
def fullObjectsL (X : Ext) (V : Nat → SqlExt × Db) (fuel : Nat) (path : Bytes) : Res (HashMeta × Nat) := do
  let commits ← loadCommits X (commitsByPath (V 0).1 (V 0).2 path)
  let trees ← nodesByIds (V 1).1 (V 1).2 (commits.map (fun c => Hash.toPlainStr c.commit.treeId))
  fullLoopL X V fuel trees commits [] 2

/-- `get_full_pack_data`, storage.rs 102-128, while other requests are served. -/
def getFullPackL (X : Ext) (V : Nat → SqlExt × Db) (fuel : Nat) (path : Bytes) : Res Bytes := do
  let (hm, k) ← fullObjectsL X V fuel path
  packOf X (V k).1 hm

/-! ## Fetches of some commits -/

/-- `incLoop` (storage.rs 139-148) with numbered queries: the commits are read first, then for each wanted one its root, then the directories. -/
def incLoopL (X : Ext) (V : Nat → SqlExt × Db) (fuel : Nat) (want : List Bytes) : List CommitRow → HashMeta → Nat → Res (HashMeta × Nat)
  | [], hm, k => .ok (hm, k)
  | r :: rs, hm, k => do
    let m ← MetaData.new X .commit r.data
    if Hash.toPlainStr m.id ∈ want then do
      let c ← (Commit.decode m.data).unwrap
      match getNodeById (V k).1 (V k).2 (Hash.toPlainStr c.treeId) with
      | some root => do
        let (hm, k) ← getChildTreesL X V fuel root hm (k + 1)
        incLoopL X V fuel want rs hm k
      | none => .err .other
    else incLoopL X V fuel want rs hm k

/-- The objects of `get_incremental_pack_data`, storage.rs 130-148, with numbered queries. -/
def incObjectsL (X : Ext) (V : Nat → SqlExt × Db) (fuel : Nat) (path : Bytes) (want _have : List Bytes) : Res (HashMeta × Nat) :=
  incLoopL X V fuel want (commitsByPath (V 0).1 (V 0).2 path) [] 1

/-- `get_incremental_pack_data`, storage.rs 130-152, while other requests are served. -/
def getIncPackL (X : Ext) (V : Nat → SqlExt × Db) (fuel : Nat) (path : Bytes) (want have_ : List Bytes) : Res Bytes := do
  let (hm, k) ← incObjectsL X V fuel path want have_
  packOf X (V k).1 hm

end Gust

import Verif.Model.Nodes
import Verif.Model.Protocol
import Verif.Model.LfsStore

/-! # `/repo/src/gust/driver/database/mysql/storage.rs`: repositories -/

namespace Gust

/-- A row of the table `commit` (`/repo/Dump20230523.sql` 25-42); the columns that are never set or read are left out. -/
structure CommitRow where
  gitId : Bytes
  tree : Bytes
  data : Bytes
  repoPath : Bytes
  deriving DecidableEq, Repr

/-- A row of the table `refs` (`/repo/Dump20230523.sql` 103-112) without row id and time stamps. -/
structure RefRow where
  repoPath : Bytes
  refName : Bytes
  refGitId : Bytes
  deriving DecidableEq, Repr

/-- The three tables of repositories, rows in the order of insertion, and the number of insert statements so far. None of the tables has a
unique key besides the generated row id. -/
structure Db where
  nodes : List NodeRow
  commits : List CommitRow
  refs : List RefRow
  inserts : Nat
  deriving DecidableEq

/-- What the code takes from the database server and the runtime.
- `fold`: strings are compared by a canonical form (collation `utf8mb4_0900_ai_ci`);
- `like s p`: `s LIKE CONCAT(p, '%')`. All that is assumed is that a string matches each of its own beginnings that contains no backslash;
- `order`: a query without `ORDER BY` returns its rows in an arbitrary order;
- `accept…`: whether a statement that writes succeeds may depend on anything (row sizes, connection, …); a statement inserts all of its rows or none. `acceptUpdate` is given the new id;
- `pool`: the result of the parallel `update_from_cache`, one of the possible outcomes. -/
structure SqlExt where
  fold : Bytes → Bytes
  like : Bytes → Bytes → Bool
  like_prefix : ∀ p t, (0x5c : UInt8) ∉ p → like (p ++ t) p = true
  order : {α : Type} → List α → List α
  order_perm : ∀ {α : Type} (l : List α), (order l).Perm l
  acceptNodes : Nat → List NodeRow → Bool
  acceptCommits : Nat → List CommitRow → Bool
  acceptRefs : Nat → List RefRow → Bool
  acceptUpdate : Nat → Bytes → Bool
  pool : PackCache → Res ObjDecodedMap
  pool_outcome : ∀ c, UpdateFromCache ObjDecodedMap.default c (pool c)

/-! ## Inserting -/

/-- The loop of `save_nodes`, storage.rs 551-579: the batches handed to `insert_many`, in order. `sum` and `batch` are the variables of the loop. -/
def nodeBatches : (sum : Nat) → (batch : List NodeRow) → List NodeRow → List (List NodeRow)
  | _, batch, [] => if batch.length ≠ 0 then [batch] else []
  | sum, batch, node :: nodes =>
    if sum + node.data.length < 10 * 1024 * 1024 ∧ batch.length < 50 then nodeBatches (sum + node.data.length) (batch ++ [node]) nodes
    else batch :: nodeBatches 0 [node] nodes

/-- `insert_many(batch).exec(conn).await.unwrap()` for each batch, storage.rs 563-566 and 573-576. -/
def insertNodes (E : SqlExt) : List (List NodeRow) → Db → Res Unit × Db
  | [], db => (.ok (), db)
  | b :: bs, db =>
    if E.acceptNodes db.inserts b then insertNodes E bs { db with nodes := db.nodes ++ b, inserts := db.inserts + 1 }
    else (.panic, { db with inserts := db.inserts + 1 })

/-- `save_nodes`, storage.rs 551-579. -/
def saveNodes (E : SqlExt) (nodes : List NodeRow) (db : Db) : Res Unit × Db := insertNodes E (nodeBatches 0 [] nodes) db

/-- `chunks(100)`, by fuel (the number of rows is enough). -/
def chunks {α : Type} (n : Nat) : Nat → List α → List (List α)
  | 0, _ => []
  | fuel + 1, l => if l = [] then [] else l.take n :: chunks n fuel (l.drop n)

/-- `batch_save_model`, storage.rs 709-726, for commits: results of the statements are collected and dropped. -/
def insertCommits (E : SqlExt) : List (List CommitRow) → Db → Db
  | [], db => db
  | b :: bs, db =>
    insertCommits E bs { db with
      commits := if E.acceptCommits db.inserts b then db.commits ++ b else db.commits
      inserts := db.inserts + 1 }

/-- `batch_save_model`, storage.rs 709-726, for refs. -/
def insertRefs (E : SqlExt) : List (List RefRow) → Db → Db
  | [], db => db
  | b :: bs, db =>
    insertRefs E bs { db with
      refs := if E.acceptRefs db.inserts b then db.refs ++ b else db.refs
      inserts := db.inserts + 1 }

/-- `Commit::convert_to_model`, structure/mod.rs 88-102. -/
def CommitObj.row (c : CommitObj) (path : Bytes) : CommitRow :=
  { gitId := Hash.toPlainStr c.base.id, tree := Hash.toPlainStr c.commit.treeId, data := c.base.data, repoPath := path }

/-- `save_commits`, storage.rs 581-593. -/
def saveCommits (E : SqlExt) (commits : List CommitObj) (path : Bytes) (db : Db) : Db :=
  insertCommits E (chunks 100 commits.length (commits.map (fun c => c.row path))) db

/-- `save_packfile`, storage.rs 89-100. Errors are unwrapped, so it never returns `Err`. Tags are not stored. -/
def savePackfile (E : SqlExt) (fuel : Nat) (pack : Pack) (path : Bytes) (db : Db) : Res Unit × Db :=
  match E.pool pack.result with
  | .ok m =>
    match buildNodeTree fuel m with
    | .ok nodes =>
      match saveNodes E nodes db with
      | (.ok (), db) => (.ok (), saveCommits E m.commits path db)
      | (.spin, db) => (.spin, db)
      | (_, db) => (.panic, db)
    | .spin => (.spin, db)
    | _ => (.panic, db)
  | .spin => (.spin, db)
  | _ => (.panic, db)

/-! ## Refs -/

/-- `save_refs`, storage.rs 507-513, with `RefCommand::convert_to_model`, `/repo/src/git/protocol/mod.rs` 203-212. -/
def saveRefs (E : SqlExt) (cmd : RefCommand) (path : Bytes) (db : Db) : Db :=
  insertRefs E (chunks 100 1 [{ repoPath := path, refName := cmd.refName, refGitId := cmd.newId }]) db

/-- The rows found by `update_refs`: old id and path, storage.rs 516-518. The name of the ref is not looked at. -/
def updateMatches (E : SqlExt) (cmd : RefCommand) (path : Bytes) (r : RefRow) : Bool :=
  E.fold r.refGitId == E.fold cmd.oldId && E.fold r.repoPath == E.fold path

/-- `update_refs`, storage.rs 515-526: one of the matching rows (picked by position) gets the new id; none is a panic, and so is an `UPDATE` that fails. -/
def updateRefs (E : SqlExt) (cmd : RefCommand) (path : Bytes) (db : Db) : Res Unit × Db :=
  match (E.order ((List.range db.refs.length).filter (fun i => (db.refs[i]?).any (updateMatches E cmd path)))).head? with
  | some i =>
    if E.acceptUpdate db.inserts cmd.newId then (.ok (), { db with refs := db.refs.modify i (fun r => { r with refGitId := cmd.newId }) })
    else (.panic, db)
  | none => (.panic, db)

/-- `handle_refs`, storage.rs 81-87. `delete_refs`, storage.rs 528-538, builds a row without primary key, and deleting such a row panics. -/
def handleRefs (E : SqlExt) (cmd : RefCommand) (path : Bytes) (db : Db) : Res Unit × Db :=
  match cmd.commandType with
  | .create => (.ok (), saveRefs E cmd path db)
  | .delete => (.panic, db)
  | .update => updateRefs E cmd path db

/-- `HashMap::insert` on a map of strings, as the list of its entries. -/
def entryInsert {α : Type} (m : List (Bytes × α)) (k : Bytes) (v : α) : List (Bytes × α) :=
  if m.any (fun p => p.1 == k) then m.map (fun p => if p.1 = k then (k, v) else p) else m ++ [(k, v)]

/-- `get_ref_object_id`, storage.rs 67-79: a map from ids to names. -/
def getRefObjectId (E : SqlExt) (db : Db) (path : Bytes) : List (Bytes × Bytes) :=
  (E.order (db.refs.filter (fun r => E.fold r.repoPath == E.fold path))).foldl (fun m r => entryInsert m r.refGitId r.refName) []

/-! ## HEAD -/

/-- `search_refs`, storage.rs 496-505. -/
def searchRefs (E : SqlExt) (db : Db) (path : Bytes) : List RefRow :=
  E.order (db.refs.filter (fun r => E.like path r.repoPath && E.fold r.refName == E.fold (ascii "refs/heads/master")))

/-- `Path::starts_with`: by whole components. -/
def pathStartsWith (p base : Bytes) : Bool :=
  components base == (false, []) || ((components p).1 == (components base).1 && (components base).2.isPrefixOf (components p).2)

/-- `Path::file_name`: the last component, unless there is none or it is `..`. -/
def fileName (p : Bytes) : Option Bytes :=
  match (components p).2.getLast? with
  | some c => if c = [0x2e, 0x2e] then none else some c
  | none => none

/-- `search_root_node_by_path`, storage.rs 641-658: any node with this name, in any repository; otherwise any node without a name. -/
def searchRootNode (E : SqlExt) (db : Db) (path : Bytes) : Res (Option NodeRow) := do
  let name ← Res.unwrapOpt (fileName path)
  pure (match (E.order (db.nodes.filter (fun n => E.fold n.name == E.fold name))).head? with
    | some n => some n
    | none => (E.order (db.nodes.filter (fun n => E.fold n.name == E.fold []))).head?)

/-- `Commit::build_from_model_and_root`, structure/mod.rs 80-86, with `encode_metadata`, commit.rs 139-161. -/
def buildFromModel (X : Ext) (row : CommitRow) (root : NodeRow) : Res CommitObj := do
  let c ← (Commit.decode row.data).unwrap
  let treeId ← (Hash.fromStr root.gitId).unwrap
  let c := { c with treeId := treeId, parents := [] }
  let base ← MetaData.new X .commit c.encode
  pure { base := base, commit := c }

/-- `generate_child_commit_and_refs`, storage.rs 610-639. -/
def generateChild (X : Ext) (E : SqlExt) (ref : RefRow) (path : Bytes) (db : Db) : Res Bytes × Db :=
  match (E.order (db.commits.filter (fun c => E.fold c.gitId == E.fold ref.refGitId))).head? with
  | none => (.panic, db)
  | some rootCommit =>
    match searchRootNode E db path with
    | .ok (some root) =>
      match buildFromModel X rootCommit root with
      | .ok child =>
        let db := saveCommits E [child] path db
        let id := Hash.toPlainStr child.base.id
        (.ok id, insertRefs E (chunks 100 1 [{ repoPath := path, refName := ref.refName, refGitId := id }]) db)
      | .spin => (.spin, db)
      | _ => (.panic, db)
    | .ok none => (.ok zeroId, db)
    | .spin => (.spin, db)
    | _ => (.panic, db)

/-- `get_head_object_id`, storage.rs 44-65. -/
def getHeadObjectId (X : Ext) (E : SqlExt) (db : Db) (path : Bytes) : Res Bytes × Db :=
  match (searchRefs E db path).find? (fun r => path == r.repoPath) with
  | some r => (.ok r.refGitId, db)
  | none =>
    match (searchRefs E db path).find? (fun r => pathStartsWith path r.repoPath) with
    | some r => generateChild X E r path db
    | none => (.ok zeroId, db)

/-- `git_info_refs` on this storage, `/repo/src/git/protocol/pack.rs` 46-71: HEAD is asked for first, then the refs. -/
def advertise (X : Ext) (E : SqlExt) (protocol : Protocol) (service : ServiceType) (db : Db) (path : Bytes) : Res Bytes × Db :=
  match getHeadObjectId X E db path with
  | (.ok headId, db) => (.ok (gitInfoRefs protocol service headId (getRefObjectId E db path)), db)
  | (.spin, db) => (.spin, db)
  | (_, db) => (.panic, db)

/-! ## Fetching -/

/-- `get_hash_object`, storage.rs 167-195, as the decoder sees it: `none` is `Err`. -/
def getHashObject (X : Ext) (E : SqlExt) (db : Db) : ObjectSource := fun h =>
  match (E.order (db.nodes.filter (fun n => E.fold n.gitId == E.fold h))).head? with
  | some n =>
    match MetaData.new X (if n.nodeType = ascii "tree" then .tree else .blob) n.data with
    | .ok m => some m
    | _ => none
  | none => none

/-- `get_commit_by_hash`, storage.rs 154-165. -/
def getCommitByHash (X : Ext) (E : SqlExt) (db : Db) (h : Bytes) : Res MetaData :=
  match (E.order (db.commits.filter (fun c => E.fold c.gitId == E.fold h))).head? with
  | some c => MetaData.new X .commit c.data
  | none => .err .other

/-- The objects collected for a pack: `HashMap<String, MetaData>`. -/
abbrev HashMeta := List (Bytes × MetaData)

/-- One child, storage.rs 697-702. -/
def childOne (X : Ext) (rec : NodeRow → HashMeta → Res HashMeta) (c : NodeRow) (hm : HashMeta) : Res HashMeta :=
  if c.nodeType = ascii "tree" then rec c hm
  else do
    let m ← MetaData.new X .blob c.data
    pure (entryInsert hm (Hash.toPlainStr m.id) m)

/-- The loop over the children, storage.rs 696-703. -/
def childLoop (X : Ext) (rec : NodeRow → HashMeta → Res HashMeta) : List NodeRow → HashMeta → Res HashMeta
  | [], hm => .ok hm
  | c :: cs, hm => do
    let hm ← childOne X rec c hm
    childLoop X rec cs hm

/-- The rows asked for, storage.rs 684-695: rows for the items that have not been collected yet. Items without a row are passed over. -/
def childRows (E : SqlExt) (db : Db) (items : List TreeItem) (hm : HashMeta) : List NodeRow :=
  let ids := (items.map (fun i => Hash.toPlainStr i.id)).filter (fun k => !hm.any (fun p => p.1 == k))
  E.order (db.nodes.filter (fun n => ids.any (fun k => E.fold n.gitId == E.fold k)))

/-- `get_child_trees`, storage.rs 679-705. The depth of the recursion is bounded by fuel. -/
def getChildTrees (X : Ext) (E : SqlExt) (db : Db) : Nat → NodeRow → HashMeta → Res HashMeta
  | 0, _, _ => .spin
  | fuel + 1, root, hm => do
    let m ← MetaData.new X .tree root.data
    let items ← (decodeTree root.data).unwrap
    let hm ← childLoop X (getChildTrees X E db fuel) (childRows E db items hm) hm
    pure (entryInsert hm (Hash.toPlainStr m.id) m)

/-- The query of `get_all_commits_by_path`, storage.rs 484-488. -/
def commitsByPath (E : SqlExt) (db : Db) (path : Bytes) : List CommitRow :=
  E.order (db.commits.filter (fun c => E.fold c.repoPath == E.fold path))

/-- `Commit::new(MetaData::new(Commit, data))` for each row, storage.rs 490-492 and 109-113. -/
def loadCommits (X : Ext) : List CommitRow → Res (List CommitObj)
  | [] => .ok []
  | r :: rs => do
    let m ← MetaData.new X .commit r.data
    let c ← (Commit.decode m.data).unwrap
    let cs ← loadCommits X rs
    pure ({ base := m, commit := c } :: cs)

/-- `get_nodes_by_ids`, storage.rs 668-677: the rows by their ids, the last row with an id wins. A stored id that is not hexadecimal panics. -/
def nodesByIds (E : SqlExt) (db : Db) (ids : List Bytes) : Res (Hash → Option NodeRow) :=
  let rows := E.order (db.nodes.filter (fun n => ids.any (fun k => E.fold n.gitId == E.fold k)))
  if rows.all (fun n => (Hash.fromBytes n.gitId).isSome) then
    .ok (fun h => rows.reverse.find? (fun n => Hash.fromBytes n.gitId == some h))
  else .panic

/-- The loop over the commits of `get_full_pack_data`, storage.rs 115-125. -/
def fullLoop (X : Ext) (E : SqlExt) (db : Db) (fuel : Nat) (trees : Hash → Option NodeRow) : List CommitObj → HashMeta → Res HashMeta
  | [], hm => .ok hm
  | c :: cs, hm =>
    let hm := entryInsert hm (Hash.toPlainStr c.base.id) c.base
    match trees c.commit.treeId with
    | some root => do
      let hm ← getChildTrees X E db fuel root hm
      fullLoop X E db fuel trees cs hm
    | none => .err .other

/-- The objects of `get_full_pack_data`, storage.rs 102-125. -/
def fullObjects (X : Ext) (E : SqlExt) (fuel : Nat) (db : Db) (path : Bytes) : Res HashMeta := do
  let commits ← loadCommits X (commitsByPath E db path)
  let trees ← nodesByIds E db (commits.map (fun c => Hash.toPlainStr c.commit.treeId))
  fullLoop X E db fuel trees commits []

/-- `hash_meta.into_values()` in the order of the map, and `Pack::encode`, storage.rs 126 and 150. -/
def packOf (X : Ext) (E : SqlExt) (hm : HashMeta) : Res Bytes := do
  let (_, file) ← encodePack X (E.order (hm.map Prod.snd))
  pure file

/-- `get_full_pack_data`, storage.rs 102-128. -/
def getFullPack (X : Ext) (E : SqlExt) (fuel : Nat) (db : Db) (path : Bytes) : Res Bytes := do
  let hm ← fullObjects X E fuel db path
  packOf X E hm

/-- `get_node_by_id`, storage.rs 660-666. -/
def getNodeById (E : SqlExt) (db : Db) (id : Bytes) : Option NodeRow :=
  (E.order (db.nodes.filter (fun n => E.fold n.gitId == E.fold id))).head?

/-- The loop of `get_incremental_pack_data`, storage.rs 139-148. The commits themselves are not collected. -/
def incLoop (X : Ext) (E : SqlExt) (db : Db) (fuel : Nat) (want : List Bytes) : List CommitRow → HashMeta → Res HashMeta
  | [], hm => .ok hm
  | r :: rs, hm => do
    let m ← MetaData.new X .commit r.data
    if Hash.toPlainStr m.id ∈ want then do
      let c ← (Commit.decode m.data).unwrap
      match getNodeById E db (Hash.toPlainStr c.treeId) with
      | some root => do
        let hm ← getChildTrees X E db fuel root hm
        incLoop X E db fuel want rs hm
      | none => .err .other
    else incLoop X E db fuel want rs hm

/-- The objects of `get_incremental_pack_data`, storage.rs 130-148. The haves are not used. -/
def incObjects (X : Ext) (E : SqlExt) (fuel : Nat) (db : Db) (path : Bytes) (want _have : List Bytes) : Res HashMeta :=
  incLoop X E db fuel want (commitsByPath E db path) []

/-- `get_incremental_pack_data`, storage.rs 130-152. -/
def getIncPack (X : Ext) (E : SqlExt) (fuel : Nat) (db : Db) (path : Bytes) (want have_ : List Bytes) : Res Bytes := do
  let hm ← incObjects X E fuel db path want have_
  packOf X E hm

/-- The MySQL storage as seen by the push code. -/
def mysqlPush (X : Ext) (E : SqlExt) (fuel : Nat) : PushEnv Db Pack :=
  { unpack := fun db body => decodePack X (getHashObject X E db) fuel body
    savePack := savePackfile E fuel
    handleRefs := handleRefs E }

/-- The MySQL storage as seen by the fetch code, at one moment. -/
def mysqlFetch (X : Ext) (E : SqlExt) (fuel : Nat) (db : Db) (path : Bytes) : FetchStore :=
  { known := fun h => match getCommitByHash X E db h with | .ok _ => true | _ => false
    fullPack := getFullPack X E fuel db path
    incPack := fun want have_ => getIncPack X E fuel db path want have_ }

end Gust

import Verif.Model.Storage

/-! # What the storage properties talk about -/

namespace Gust.Spec

open Gust

/-- Total size of the data of some rows. -/
def rowsSize (rows : List NodeRow) : Nat := (rows.map (fun n => n.data.length)).sum

/-- The refs stored for a path (as the database compares paths). -/
def refsAt (fold : Bytes → Bytes) (refs : List RefRow) (path : Bytes) : List RefRow :=
  refs.filter (fun r => fold r.repoPath == fold path)

/-- Is this the master ref, as the database compares names? -/
def isMaster (fold : Bytes → Bytes) (r : RefRow) : Prop := fold r.refName = fold (ascii "refs/heads/master")

/-- A file or directory name. -/
def NameOk (c : Bytes) : Prop := c ≠ [] ∧ (0x2f : UInt8) ∉ c ∧ c ≠ [0x2e]

/-- A path made of names: `/a/b` or `a/b`. -/
def pathText (abs : Bool) : List Bytes → Bytes
  | [] => if abs then [0x2f] else []
  | c :: cs => (if abs then [0x2f] else []) ++ c ++ cs.flatMap (fun d => 0x2f :: d)

/-- A path (not the empty string) that is neither this path nor above it. -/
def NotAbove (abs : Bool) (cs : List Bytes) (p : Bytes) : Prop :=
  ∃ b bs, p = pathText b bs ∧ (∀ c ∈ bs, NameOk c) ∧ p ≠ [] ∧ ¬ (b = abs ∧ bs <+: cs)

/-- Follow names down from a tree, reading trees from the stored rows. -/
def follow (nodes : List NodeRow) : Hash → List Bytes → Option Hash
  | id, [] => some id
  | id, c :: cs =>
    match nodes.find? (fun n => n.gitId == Hash.toPlainStr id && n.nodeType == ascii "tree") with
    | none => none
    | some n =>
      match decodeTree n.data with
      | .ok items =>
        match items.find? (fun i => i.filename == c) with
        | some i => follow nodes i.id cs
        | none => none
      | _ => none

/-- The ids reachable from the commits among some objects, going down through the trees among them. -/
inductive PackReach (find : Hash → Option MetaData) : Hash → Prop
  | commit (o : MetaData) (c : Commit) : find o.id = some o → o.t = .commit → Commit.decode o.data = .ok c → PackReach find c.treeId
  | item (o : MetaData) (items : List TreeItem) (i : TreeItem) : PackReach find o.id → find o.id = some o → o.t = .tree →
      decodeTree o.data = .ok items → i ∈ items → PackReach find i.id

/-- Objects that can all be read, with all that is reachable from the commits among them; names are unique within each tree. -/
structure SelfContained (find : Hash → Option MetaData) : Prop where
  kinds : ∀ o, find o.id = some o → o.t = .commit ∨ o.t = .tree ∨ o.t = .blob ∨ o.t = .tag
  commits : ∀ o, find o.id = some o → o.t = .commit → ∃ c, Commit.decode o.data = .ok c ∧ ∃ t, find c.treeId = some t ∧ t.id = c.treeId ∧ t.t = .tree
  trees : ∀ o, find o.id = some o → o.t = .tree → ∃ items, decodeTree o.data = .ok items
  tags : ∀ o, find o.id = some o → o.t = .tag → ∃ g, Tag.decode o.data = .ok g
  items : ∀ o items i, PackReach find o.id → find o.id = some o → o.t = .tree → decodeTree o.data = .ok items → i ∈ items →
    ∃ x, find i.id = some x ∧ x.id = i.id ∧ x.t = if i.itemType = .tree then .tree else .blob
  names : ∀ o items, PackReach find o.id → find o.id = some o → o.t = .tree → decodeTree o.data = .ok items →
    (items.map TreeItem.filename).Nodup

/-- The object in a row of the table of nodes. -/
def nodeObj (n : NodeRow) : ObjectType × Bytes := (if n.nodeType = ascii "tree" then .tree else .blob, n.data)

/-- The ids reachable from an id, going down through the stored trees. -/
inductive StoreReach (nodes : List NodeRow) (root : Hash) : Hash → Prop
  | refl : StoreReach nodes root root
  | item (n : NodeRow) (t : Hash) (items : List TreeItem) (i : TreeItem) : StoreReach nodes root t → n ∈ nodes → n.gitId = Hash.toPlainStr t →
      n.nodeType = ascii "tree" → decodeTree n.data = .ok items → i ∈ items → StoreReach nodes root i.id

/-- Stored directories below an id are nested less than `k` deep. -/
def NestedWithin (nodes : List NodeRow) : Nat → Hash → Prop
  | 0, _ => False
  | k + 1, h => ∀ n ∈ nodes, n.gitId = Hash.toPlainStr h → n.nodeType = ascii "tree" → ∀ items, decodeTree n.data = .ok items → ∀ i ∈ items,
      (∃ n' ∈ nodes, n'.gitId = Hash.toPlainStr i.id ∧ n'.nodeType = ascii "tree") → NestedWithin nodes k i.id

/-- The commits stored for a path (as the database compares paths). -/
def commitsAt (fold : Bytes → Bytes) (commits : List CommitRow) (path : Bytes) : List CommitRow :=
  commits.filter (fun c => fold c.repoPath == fold path)

/-- An object of the repository at a path: one of its commits, or a stored object reachable from one of them. -/
inductive InRepo (fold : Bytes → Bytes) (db : Db) (path : Bytes) : ObjectType × Bytes → Prop
  | commit (r : CommitRow) : r ∈ commitsAt fold db.commits path → InRepo fold db path (.commit, r.data)
  | node (r : CommitRow) (c : Commit) (h : Hash) (n : NodeRow) : r ∈ commitsAt fold db.commits path → Commit.decode r.data = .ok c →
      StoreReach db.nodes c.treeId h → n ∈ db.nodes → n.gitId = Hash.toPlainStr h → InRepo fold db path (nodeObj n)

end Gust.Spec

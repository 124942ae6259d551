import Verif.Model.Decoded

/-! # `/repo/src/gust/driver/structure/nodes.rs` and the conversions of `/repo/src/gust/driver/structure/mod.rs` -/

namespace Gust

/-- A row of the table `node`, nodes.rs 136-150 and 214-228 (`/repo/Dump20230523.sql` 79-95), without the generated row and node ids, the
time stamps and `content_sha`, none of which is ever read. -/
structure NodeRow where
  gitId : Bytes
  nodeType : Bytes
  name : Bytes
  mode : Bytes
  data : Bytes
  deriving DecidableEq, Repr

/-- `dyn Node`: `TreeNode`, nodes.rs 31-40, or `FileNode`, nodes.rs 42-51 (ids, `pid` and `path` are never read). -/
inductive RepoNode
  | file (gitId : Hash) (name mode data : Bytes)
  | tree (gitId : Hash) (name mode data : Bytes) (children : List RepoNode)

namespace RepoNode

/-- `get_name`, nodes.rs 102-104 and 190-192. -/
def name : RepoNode → Bytes
  | file _ n _ _ => n
  | tree _ n _ _ _ => n

/-- `add_child`, nodes.rs 156-158 and 234-236: files panic. -/
def addChild : RepoNode → RepoNode → Res RepoNode
  | file _ _ _ _, _ => .panic
  | tree i n m d cs, c => .ok (tree i n m d (cs ++ [c]))

/-- `find_child`, nodes.rs 152-154 and 230-232: the position of the first child with this name; files panic. -/
def findChild : RepoNode → Bytes → Res (Option Nat)
  | file _ _ _ _, _ => .panic
  | tree _ _ _ _ cs, name => .ok (cs.findIdx? (fun c => c.name == name))

/-- The child at a position. -/
def childAt : RepoNode → Nat → Option RepoNode
  | file _ _ _ _, _ => none
  | tree _ _ _ _ cs, i => cs[i]?

/-- What a change through the reference returned by `find_child` does. -/
def setChild : RepoNode → Nat → RepoNode → RepoNode
  | file i n m d, _, _ => file i n m d
  | tree i n m d cs, k, c => tree i n m d (cs.set k c)

mutual
/-- `Repo::convert_node_to_model`, nodes.rs 347-357, with `convert_to_model`, nodes.rs 134-150 and 213-228. -/
def models : RepoNode → List NodeRow
  | file i n m d => [{ gitId := Hash.toPlainStr i, nodeType := ascii "blob", name := n, mode := m, data := d }]
  | tree i n m d cs =>
    { gitId := Hash.toPlainStr i, nodeType := ascii "tree", name := n, mode := m, data := d } :: modelsAll cs
/-- The loop over the children, nodes.rs 352-354. -/
def modelsAll : List RepoNode → List NodeRow
  | [] => []
  | c :: cs => models c ++ modelsAll cs
end

/-- `Tree::convert_to_node`, structure/mod.rs 114-133. -/
def ofTree (t : TreeObj) (item : Option TreeItem) : RepoNode :=
  tree t.base.id ((item.map TreeItem.filename).getD []) ((item.map TreeItem.mode).getD []) t.base.data []

/-- `Blob::convert_to_node`, structure/mod.rs 43-62. -/
def ofBlob (b : BlobObj) (item : Option TreeItem) : RepoNode :=
  file b.base.id ((item.map TreeItem.filename).getD []) ((item.map TreeItem.mode).getD []) b.base.data

end RepoNode

/-- `Repo`, nodes.rs 24-31, without the cache of processed ids, which is passed along. -/
structure Repo where
  treeMap : Hash → Option TreeObj
  blobMap : Hash → Option BlobObj

/-- `collect` of (id, object) pairs into a `HashMap`, nodes.rs 285-297: the last object with an id wins. -/
def Repo.of (m : ObjDecodedMap) : Repo :=
  { treeMap := fun h => m.trees.reverse.find? (fun t => t.base.id == h)
    blobMap := fun h => m.blobs.reverse.find? (fun b => b.base.id == h) }

/-- One item of a tree which has not been processed before, nodes.rs 325-341: the node and the processed ids. Everything that is not a tree is
looked up among the blobs, submodules included. -/
def buildItem (R : Repo) (rec : TreeObj → RepoNode → List Hash → Res (RepoNode × List Hash)) (item : TreeItem) (node : RepoNode)
    (cache : List Hash) : Res (RepoNode × List Hash) :=
  if item.itemType = .tree then do
    let tree ← Res.unwrapOpt (R.treeMap item.id)
    let node ← node.addChild (RepoNode.ofTree tree (some item))
    let i ← node.findChild item.filename
    let i ← Res.unwrapOpt i
    let child ← Res.unwrapOpt (node.childAt i)
    let (child, cache) ← rec tree child cache
    pure (node.setChild i child, item.id :: cache)
  else do
    let blob ← Res.unwrapOpt (R.blobMap item.id)
    let node ← node.addChild (RepoNode.ofBlob blob (some item))
    pure (node, item.id :: cache)

/-- The loop of `Repo::build_node_tree`, nodes.rs 321-343. -/
def buildItems (R : Repo) (rec : TreeObj → RepoNode → List Hash → Res (RepoNode × List Hash)) :
    List TreeItem → RepoNode → List Hash → Res (RepoNode × List Hash)
  | [], node, cache => .ok (node, cache)
  | item :: items, node, cache =>
    if item.id ∈ cache then buildItems R rec items node cache
    else do
      let (node, cache) ← buildItem R rec item node cache
      buildItems R rec items node cache

/-- `Repo::build_node_tree`, nodes.rs 320-344. The depth of the recursion is bounded by fuel (`spin` when it runs out; a real run would
exhaust the stack). -/
def buildTree (R : Repo) : Nat → TreeObj → RepoNode → List Hash → Res (RepoNode × List Hash)
  | 0, _, _, _ => .spin
  | fuel + 1, tree, node, cache => buildItems R (buildTree R fuel) tree.items node cache

/-- The loop over the commits, nodes.rs 307-314. -/
def buildCommits (R : Repo) (fuel : Nat) : List CommitObj → List Hash → Res (List NodeRow)
  | [], _ => .ok []
  | c :: cs, cache => do
    let tree ← Res.unwrapOpt (R.treeMap c.commit.treeId)
    let (root, cache) ← buildTree R fuel tree (RepoNode.ofTree tree none) cache
    let rest ← buildCommits R fuel cs cache
    pure (root.models ++ rest)

/-- `build_node_tree`, nodes.rs 281-316. -/
def buildNodeTree (fuel : Nat) (m : ObjDecodedMap) : Res (List NodeRow) := buildCommits (Repo.of m) fuel m.commits []

end Gust

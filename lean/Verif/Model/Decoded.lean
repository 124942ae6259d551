import Verif.Base.Map
import Verif.Model.Idx
import Verif.Model.Tree
import Verif.Model.Commit

/-! # `/repo/src/git/pack/decode.rs`, `multidecode.rs`, `Pack::decode_by_idx`, `Pack::write` -/

namespace Gust

/-- `Blob`, blob.rs 18-21. -/
structure BlobObj where
  filename : Bytes
  base : MetaData
  deriving DecidableEq

/-- `Tree`, tree.rs 87-92. -/
structure TreeObj where
  base : MetaData
  items : List TreeItem
  name : Bytes
  deriving DecidableEq

/-- `Commit` with its `meta`, commit.rs 24-31. -/
structure CommitObj where
  base : MetaData
  commit : Commit
  deriving DecidableEq

/-- `Tag` with its `meta`, tag.rs 23-30. -/
structure TagObj where
  base : MetaData
  tag : Tag
  deriving DecidableEq

/-- One further decoded object. -/
inductive Decoded
  | blob (b : BlobObj)
  | tree (t : TreeObj)
  | commit (c : CommitObj)
  | tag (g : TagObj)
  deriving DecidableEq

/-- The raw object inside. -/
def Decoded.base : Decoded → MetaData
  | blob b => b.base
  | tree t => t.base
  | commit c => c.base
  | tag g => g.base

/-- The `match` of `update_from_cache`, decode.rs 55-70, with `Blob::new` (blob.rs 60-65), `Tree::new` (tree.rs 149-157),
`Commit::new` (commit.rs 59-82), `Tag::new` (tag.rs 54-71): errors of the decoders are unwrapped. -/
def decodeObject (m : MetaData) : Res Decoded :=
  match m.t with
  | .blob => .ok (.blob { filename := [], base := m })
  | .commit => do
    let c ← (Commit.decode m.data).unwrap
    pure (.commit { base := m, commit := c })
  | .tag => do
    let g ← (Tag.decode m.data).unwrap
    pure (.tag { base := m, tag := g })
  | .tree => do
    let items ← (decodeTree m.data).unwrap
    pure (.tree { base := m, items := items, name := [] })
  | _ => .panic

/-! ## The thread pool

`par_iter().for_each` runs the closure once for each cached object, on several threads. Each closure takes the write lock of
the vector of its kind, pushes (which reads and then changes the vector) and releases the lock. -/

/-- Where a closure is. -/
inductive Phase (α : Type)
  | todo
  | locked
  /-- has read the vector -/
  | loaded (seen : List α)
  | stored
  | done

/-- The four vectors, their locks, and the closures. -/
structure PoolState (α : Type) where
  phase : Nat → Phase α
  lock : ObjectType → Option Nat
  coll : ObjectType → List α

/-- Before the first closure starts, decode.rs 46-49. -/
def PoolState.init (α : Type) : PoolState α :=
  { phase := fun _ => .todo, lock := fun _ => none, coll := fun _ => [] }

/-- One step of closure `i`, which pushes `v` to the vector of kind `k`: decode.rs 57-67. Any number of closures may be in
progress at a time (the pool has eight threads; more interleavings are considered than can happen). -/
inductive PoolStep {α : Type} (tasks : List (ObjectType × α)) : PoolState α → PoolState α → Prop
  | acquire (s : PoolState α) (i : Nat) (k : ObjectType) (v : α) : tasks[i]? = some (k, v) → s.phase i = .todo →
      s.lock k = none →
      PoolStep tasks s { s with phase := setAt s.phase i .locked, lock := setAt s.lock k (some i) }
  | load (s : PoolState α) (i : Nat) (k : ObjectType) (v : α) : tasks[i]? = some (k, v) → s.phase i = .locked →
      PoolStep tasks s { s with phase := setAt s.phase i (.loaded (s.coll k)) }
  | store (s : PoolState α) (i : Nat) (k : ObjectType) (v : α) (seen : List α) : tasks[i]? = some (k, v) →
      s.phase i = .loaded seen →
      PoolStep tasks s { s with phase := setAt s.phase i .stored, coll := setAt s.coll k (seen ++ [v]) }
  | release (s : PoolState α) (i : Nat) (k : ObjectType) (v : α) : tasks[i]? = some (k, v) → s.phase i = .stored →
      PoolStep tasks s { s with phase := setAt s.phase i .done, lock := setAt s.lock k none }

/-- Executions. -/
inductive PoolRun {α : Type} (tasks : List (ObjectType × α)) : PoolState α → Nat → PoolState α → Prop
  | refl (s : PoolState α) : PoolRun tasks s 0 s
  | step (s t u : PoolState α) (n : Nat) : PoolRun tasks s n t → PoolStep tasks t u → PoolRun tasks s (n + 1) u

/-- `for_each` returns when all closures are done. -/
def PoolState.final {α : Type} (tasks : List (ObjectType × α)) (s : PoolState α) : Prop :=
  ∀ i < tasks.length, s.phase i = .done

/-! ## `ObjDecodedMap` -/

/-- `ObjDecodedMap`, decode.rs 29-36; `map_hash` and `name_map` are only looked up. -/
structure ObjDecodedMap where
  mapHash : Hash → Bool
  blobs : List BlobObj
  trees : List TreeObj
  tags : List TagObj
  commits : List CommitObj
  nameMap : Hash → Option Bytes

/-- `ObjDecodedMap::default()`. -/
def ObjDecodedMap.default : ObjDecodedMap :=
  { mapHash := fun _ => false, blobs := [], trees := [], tags := [], commits := [], nameMap := fun _ => none }

/-- The blobs among decoded objects (the vectors are homogeneous in Rust). -/
def Decoded.asBlob : Decoded → Option BlobObj
  | blob b => some b
  | _ => none

/-- The trees among decoded objects. -/
def Decoded.asTree : Decoded → Option TreeObj
  | tree t => some t
  | _ => none

/-- The commits among decoded objects. -/
def Decoded.asCommit : Decoded → Option CommitObj
  | commit c => some c
  | _ => none

/-- The tags among decoded objects. -/
def Decoded.asTag : Decoded → Option TagObj
  | tag g => some g
  | _ => none

/-- `self.blobs = …` etc., decode.rs 73-76. `map_hash` and `name_map` are not touched. -/
def ObjDecodedMap.fill (self : ObjDecodedMap) (coll : ObjectType → List Decoded) : ObjDecodedMap :=
  { self with
    blobs := (coll .blob).filterMap Decoded.asBlob
    commits := (coll .commit).filterMap Decoded.asCommit
    trees := (coll .tree).filterMap Decoded.asTree
    tags := (coll .tag).filterMap Decoded.asTag }

/-- Decode every object of the cache, or panic. -/
def decodeAll : List MetaData → Res (List (ObjectType × Decoded))
  | [] => .ok []
  | m :: ms => do
    let d ← decodeObject m
    let ds ← decodeAll ms
    pure ((m.t, d) :: ds)

/-- `ObjDecodedMap::update_from_cache`, decode.rs 43-105: the possible outcomes. A closure that panics makes the whole call
panic (rayon passes the panic on); otherwise the result is what any complete execution of the pool leaves. -/
inductive UpdateFromCache (self : ObjDecodedMap) (cache : PackCache) : Res ObjDecodedMap → Prop
  | panic : decodeAll (cache.byHash.map Prod.snd) = .panic → UpdateFromCache self cache .panic
  | ok (tasks : List (ObjectType × Decoded)) (n : Nat) (s : PoolState Decoded) :
      decodeAll (cache.byHash.map Prod.snd) = .ok tasks → PoolRun tasks (PoolState.init Decoded) n s → s.final tasks →
      UpdateFromCache self cache (.ok (self.fill s.coll))

namespace ObjDecodedMap

/-- Inner loop of `check_completeness`, decode.rs 116-126: the new `name_map`. -/
def checkItems (mapHash : Hash → Bool) : List TreeItem → (Hash → Option Bytes) → Res (Hash → Option Bytes)
  | [], names => .ok names
  | item :: items, names =>
    if mapHash item.id then checkItems mapHash items (setAt names item.id (some item.filename)) else .err .other

/-- Outer loop, decode.rs 115-127. -/
def checkTrees (mapHash : Hash → Bool) : List TreeObj → (Hash → Option Bytes) → Res (Hash → Option Bytes)
  | [], names => .ok names
  | t :: ts, names => do
    let names ← checkItems mapHash t.items names
    checkTrees mapHash ts names

/-- `Ord for Tree`, tree.rs 94-102: larger names first, then larger sizes first; `le a b` is `a.cmp(b) != Greater`. -/
def nameSizeLe (an : Bytes) (as : Nat) (bn : Bytes) (bs : Nat) : Bool :=
  if an = bn then bs ≤ as else !bytesLt an bn

/-- `ObjDecodedMap::check_completeness`, decode.rs 112-151. `sort` is a stable sort. -/
def checkCompleteness (self : ObjDecodedMap) : Res ObjDecodedMap := do
  let names ← checkTrees self.mapHash self.trees self.nameMap
  let trees := self.trees.map (fun t => { t with name := (names t.base.id).getD t.name })
  let blobs := self.blobs.map (fun b => { b with filename := (names b.base.id).getD b.filename })
  pure { self with
    nameMap := names
    trees := trees.mergeSort (fun a b => nameSizeLe a.name a.base.size b.name b.base.size)
    blobs := blobs.mergeSort (fun a b => nameSizeLe a.filename a.base.size b.filename b.base.size)
    tags := self.tags.mergeSort (fun a b => b.base.size ≤ a.base.size)
    commits := self.commits.mergeSort (fun a b => b.base.size ≤ a.base.size) }

/-- `Arc::try_unwrap(x.meta.clone()).unwrap()`, decode.rs 158-168: the clone shares its object with `x.meta`, so the count of
owners is at least two and `try_unwrap` fails. -/
def tryUnwrapClone (_ : MetaData) : Res MetaData := .panic

/-- One of the four loops of `vec_sliding_window`. -/
def unwrapAll : List MetaData → Res (List MetaData)
  | [] => .ok []
  | m :: ms => do
    let x ← tryUnwrapClone m
    let xs ← unwrapAll ms
    pure (x :: xs)

/-- `ObjDecodedMap::vec_sliding_window`, decode.rs 155-171. -/
def vecSlidingWindow (self : ObjDecodedMap) : Res (List MetaData) := do
  let a ← unwrapAll (self.commits.map CommitObj.base)
  let b ← unwrapAll (self.tags.map TagObj.base)
  let c ← unwrapAll (self.trees.map TreeObj.base)
  let d ← unwrapAll (self.blobs.map BlobObj.base)
  pure (a ++ b ++ c ++ d)

/-- `Pack::write`, encode.rs 322-332: the file written. -/
def packWrite (X : Ext) (p : Profile) (D : Differ) (map : ObjDecodedMap) : Res ((Nat × Hash) × Bytes) := do
  let map ← map.checkCompleteness.unwrap
  let ms ← map.vecSlidingWindow
  encodeDelta X p D ms

end ObjDecodedMap

/-! ## Decoding with an index -/

/-- `Pack::decode_by_idx`, pack/mod.rs 128-150: the possible outcomes. The objects go to a local cache; the returned pack
keeps the empty cache it was created with. `St` is the default (unconnected) storage. -/
inductive DecodeByIdx (X : Ext) (St : ObjectSource) (fuel : Nat) (idx : Idx) (file : Bytes) : Res Pack → Prop
  | headerErr (e : GitErr) : checkHeader file = .err e → DecodeByIdx X St fuel idx file (.err e)
  | headerPanic : checkHeader file = .panic → DecodeByIdx X St fuel idx file .panic
  | tooMany (r : Nat × Bytes) : checkHeader file = .ok r → 2 ^ 32 ≤ idx.numberOfObjects →
      DecodeByIdx X St fuel idx file .panic
  | objects (r : Nat × Bytes) : checkHeader file = .ok r → idx.numberOfObjects < 2 ^ 32 →
      decodeByIdxLoop X St fuel file idx.idxItems PackCache.empty = .panic → DecodeByIdx X St fuel idx file .panic
  | spin (r : Nat × Bytes) : checkHeader file = .ok r → idx.numberOfObjects < 2 ^ 32 →
      decodeByIdxLoop X St fuel file idx.idxItems PackCache.empty = .spin → DecodeByIdx X St fuel idx file .spin
  | update (r : Nat × Bytes) (c : PackCache) : checkHeader file = .ok r → idx.numberOfObjects < 2 ^ 32 →
      decodeByIdxLoop X St fuel file idx.idxItems PackCache.empty = .ok c →
      UpdateFromCache ObjDecodedMap.default c .panic → DecodeByIdx X St fuel idx file .panic
  | ok (r : Nat × Bytes) (c : PackCache) (m : ObjDecodedMap) : checkHeader file = .ok r → idx.numberOfObjects < 2 ^ 32 →
      decodeByIdxLoop X St fuel file idx.idxItems PackCache.empty = .ok c →
      UpdateFromCache ObjDecodedMap.default c (.ok m) →
      DecodeByIdx X St fuel idx file
        (.ok { numberOfObjects := idx.numberOfObjects, signature := idx.packSignature, result := PackCache.empty })

/-! ## Several packs -/

/-- The loop of `Pack::decode_with_cache`, multidecode.rs 53-64: errors are unwrapped. -/
def decodeWithCacheLoop (X : Ext) (St : ObjectSource) (file : Bytes) (fuel : Nat) :
    Nat → Nat → PackCache → Res (PackCache × Nat)
  | 0, pos, cache => .ok (cache, pos)
  | n + 1, pos, cache => do
    let ((_, cache), pos') ← (nextObject X St file fuel pos cache).unwrap
    if 2 ^ 32 ≤ pos then .panic else decodeWithCacheLoop X St file fuel n pos' cache

/-- `Pack::decode_with_cache`, multidecode.rs 48-71: the new pack and the shared cache. -/
def decodeWithCache (X : Ext) (St : ObjectSource) (fuel : Nat) (file : Bytes) (cache : PackCache) :
    Res (Pack × PackCache) := do
  let (n, _) ← (checkHeader file).unwrap
  let (cache, pos) ← decodeWithCacheLoop X St file fuel n 12 cache
  let (id, _) ← (readBytes 20 (file.drop pos)).unwrap
  let signature ← Hash.fromRow id
  pure ({ numberOfObjects := n, signature := signature, result := PackCache.empty }, cache)

/-- The loop of `Pack::multi_decode`, multidecode.rs 86-89: `pack` is the element of `pack_vec`, whose count is added; the pack
returned by `decode_with_cache` is dropped. -/
def multiLoop (X : Ext) (St : ObjectSource) (fuel : Nat) : List (Pack × Bytes) → (total : Nat) → PackCache →
    Res (Nat × PackCache)
  | [], total, cache => .ok (total, cache)
  | (pack, file) :: rest, total, cache => do
    let (_, cache) ← decodeWithCache X St fuel file cache
    multiLoop X St fuel rest (total + pack.numberOfObjects) cache

/-- `Pack::multi_decode`, multidecode.rs 74-92: `files` are the pack files found, in the order of `pack_vec.sort()`
(creation time). -/
def multiDecode (X : Ext) (St : ObjectSource) (fuel : Nat) (files : List Bytes) : Res Pack := do
  let (total, cache) ← multiLoop X St fuel (files.map (fun f => (Pack.default, f))) 0 PackCache.empty
  pure { Pack.default with numberOfObjects := total, result := cache }

end Gust

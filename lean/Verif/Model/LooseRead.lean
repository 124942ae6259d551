import Verif.Model.MetaData
import Verif.Model.Commit
import Verif.Model.Tree

/-! # Reading single objects from an object directory

`read_object`, `read_unpacked_object` and `parse_decimal` of `/repo/src/git/object/delta.rs`, the `parse_from_file` functions of
`/repo/src/git/object/base/`, and `find_common_base` / `parse_tree` of `/repo/src/git/protocol/pack.rs`. None of the last two is
called at this commit (the call at pack.rs 127 is a comment); `read_object` is public. -/

namespace Gust

/-- `Display for Hash` (`to_string`), hash.rs 39-50: the digits in bold red (`colored` crate) if the process writes to a terminal,
which the crate finds out from the environment, and the bare digits otherwise. -/
def Hash.display (terminal : Bool) (h : Hash) : Bytes :=
  if terminal then [0x1b] ++ ascii "[1;31m" ++ Hash.toPlainStr h ++ [0x1b] ++ ascii "[0m" else Hash.toPlainStr h

/-- `parse_decimal`, delta.rs 171-179: no digits at all is zero. The overflow checks after each digit are one check of the result, as
the value never decreases. -/
def parseDecimal (s : Bytes) : Option Nat :=
  match parseDigits decCharValue 10 0 s with
  | some v => if v < U64 then some v else none
  | none => none

/-- The type chosen by the `match` of `read_unpacked_object`, delta.rs 137-148. The arms are lower-case names, hence *bindings*: the
first one matches every text. -/
def looseKind (_text : Bytes) : ObjectType := .commit

/-- The part of `read_unpacked_object` after decompression, delta.rs 136-168. A length of 2^63 or more panics in
`Vec::with_capacity`; memory exhaustion is not modelled. -/
def readUnpackedBytes (X : Ext) (decoded : Bytes) : Res MetaData := do
  let (kind, rest) ← (readUntilDelimiter 0x20 decoded).unwrap
  let (sizeText, contents) ← (readUntilDelimiter 0x00 rest).unwrap
  match parseDecimal sizeText with
  | none => .err .delta
  | some size =>
    if 2 ^ 63 ≤ size then .panic
    else if contents.length ≠ size then .err .delta
    else MetaData.new X (looseKind kind) contents

/-- The file opened by `read_unpacked_object` for an id, delta.rs 130-134: `.git/objects`, the first two characters of the text of
the id, and the others. -/
def unpackedPath (terminal : Bool) (h : Hash) : Bytes :=
  MetaData.pathPush (MetaData.pathPush (ascii ".git/objects") ((h.display terminal).take 2)) ((h.display terminal).drop 2)

/-- `read_unpacked_object`, delta.rs 127-168: a file that cannot be opened or decompressed panics. -/
def readUnpackedObject (X : Ext) (terminal : Bool) (fs : MetaData.FS) (h : Hash) : Res MetaData := do
  let file ← Res.unwrapOpt (fs (unpackedPath terminal h))
  let (decoded, _) ← Res.unwrapOpt (X.inflate file)
  readUnpackedBytes X decoded

/-- `read_object`, delta.rs 104-121. -/
def readObject (X : Ext) (terminal : Bool) (fs : MetaData.FS) (h : Hash) : Res MetaData :=
  match readUnpackedObject X terminal fs h with
  | .ok m => if m.id ≠ h then .err .delta else .ok m
  | .err _ => .panic
  | .panic => .panic
  | .spin => .spin

/-- `ObjectClass::parse_meta`, `/repo/src/git/object/base/mod.rs` 42-47, on the file of an object: errors panic. -/
def parseMeta (X : Ext) (fs : MetaData.FS) (root : Bytes) (h : Hash) : Res MetaData :=
  (MetaData.readObjectFromFile X fs (MetaData.loosePath root h)).unwrap

/-- `Commit::parse_from_file`, commit.rs 53-56: the object and its decoded form, whatever its type. -/
def Commit.parseFromFile (X : Ext) (fs : MetaData.FS) (root : Bytes) (h : Hash) : Res (MetaData × Commit) := do
  let m ← parseMeta X fs root h
  let c ← (Commit.decode m.data).unwrap
  pure (m, c)

/-- `Tree::parse_from_file`, tree.rs 144-158. -/
def Tree.parseFromFile (X : Ext) (fs : MetaData.FS) (root : Bytes) (h : Hash) : Res (MetaData × List TreeItem) := do
  let m ← parseMeta X fs root h
  let items ← (decodeTree m.data).unwrap
  pure (m, items)

/-- `Blob::parse_from_file`, blob.rs 54-57. -/
def Blob.parseFromFile (X : Ext) (fs : MetaData.FS) (root : Bytes) (h : Hash) : Res MetaData := parseMeta X fs root h

/-- `Arc::try_unwrap(a).unwrap()`: the value if there is a single owner, a panic otherwise. -/
def arcUnwrap {α : Type} (owners : Nat) (a : α) : Res α := if owners = 1 then .ok a else .panic

/-- What the two functions carry along: the objects to send (newest first; a later entry of the same id replaces an earlier one) and
the ids dealt with. -/
structure BaseWalk where
  result : List (Hash × MetaData)
  basic : List Hash

/-- One round of the loop of `parse_tree`, protocol/pack.rs 356-379; `sub` is the recursive call. -/
def walkItem (X : Ext) (fs : MetaData.FS) (root : Bytes) (init : Bool) (sub : Hash → BaseWalk → Res BaseWalk)
    (w : BaseWalk) (item : TreeItem) : Res BaseWalk :=
  if item.id ∈ w.basic then .ok w
  else do
    let w ← (match item.itemType with
      | .blob =>
        if init then .ok w else do
          let m ← Blob.parseFromFile X fs root item.id
          let m' ← arcUnwrap 1 m
          pure { w with result := (m.id, m') :: w.result }
      | .blobExecutable => .panic
      | .tree => sub item.id w
      | .commit => .panic
      | .link => .panic : Res BaseWalk)
    pure { w with basic := item.id :: w.basic }

/-- `parse_tree`, protocol/pack.rs 338-380; `init` is `init_basic`. The first number bounds the depth of the recursion; running out is
`spin`. -/
def parseTreeWalk (X : Ext) (fs : MetaData.FS) (root : Bytes) : Nat → Bool → Hash → BaseWalk → Res BaseWalk
  | 0, _, _, _ => .spin
  | fuel + 1, init, id, w =>
    if id ∈ w.basic then .ok w
    else do
      let (m, items) ← Tree.parseFromFile X fs root id
      let m ← arcUnwrap 1 m
      let w : BaseWalk := { result := if init then w.result else (id, m) :: w.result, basic := id :: w.basic }
      items.foldlM (walkItem X fs root init (parseTreeWalk X fs root fuel init)) w

/-- The loop of `find_common_base`, protocol/pack.rs 296-321: the common commit, the trees of the commits passed (last passed first)
and the objects collected. `commit.clone()` at 309 makes a second owner of the object that 310 unwraps. -/
def findBaseLoop (X : Ext) (fs : MetaData.FS) (root : Bytes) (have_ : List Bytes) :
    Nat → Hash → List Hash → List (Hash × MetaData) → Res (Commit × List Hash × List (Hash × MetaData))
  | 0, _, _, _ => .spin
  | fuel + 1, id, passed, result => do
    let (m, c) ← Commit.parseFromFile X fs root id
    if Hash.toPlainStr id ∈ have_ then .ok (c, passed, result)
    else do
      let m' ← arcUnwrap 2 m
      match c.parents with
      | [p] => findBaseLoop X fs root have_ fuel p (c.treeId :: passed) ((m.id, m') :: result)
      | _ => .panic

/-- `find_common_base`, protocol/pack.rs 287-336: the objects to send to a client that has the commits `have_`. -/
def findCommonBase (X : Ext) (fs : MetaData.FS) (root : Bytes) (fuel : Nat) (id : Hash) (have_ : List Bytes) :
    Res (List (Hash × MetaData)) := do
  let (base, passed, result) ← findBaseLoop X fs root have_ fuel id [] []
  let w ← parseTreeWalk X fs root fuel true base.treeId { result := result, basic := [] }
  let w ← passed.foldlM (fun w t => parseTreeWalk X fs root fuel false t w) w
  pure w.result

end Gust

import Verif.Model.MetaData

/-! # `/repo/src/git/object/base/tree.rs` -/

namespace Gust

/-- `TreeItemType`, tree.rs 22-29. -/
inductive TreeItemType
  | blob
  | blobExecutable
  | tree
  | commit
  | link
  deriving DecidableEq, Repr

namespace TreeItemType

/-- `TreeItemType::to_bytes`, tree.rs 48-56. -/
def toBytes : TreeItemType → Bytes
  | blob => ascii "100644"
  | blobExecutable => ascii "100755"
  | tree => ascii "40000"
  | link => ascii "120000"
  | commit => ascii "160000"

/-- `TreeItemType::tree_item_type_from`, tree.rs 60-75. The error message `String::from_utf8(mode).unwrap()` (71)
panics for a mode that is not UTF-8. -/
def fromMode (mode : Bytes) : Res TreeItemType :=
  if mode = ascii "40000" then .ok tree
  else if mode = ascii "100644" then .ok blob
  else if mode = ascii "100755" then .ok blobExecutable
  else if mode = ascii "120000" then .ok link
  else if mode = ascii "160000" then .ok commit
  else if mode = ascii "100664" then .ok blob
  else if mode = ascii "100640" then .ok blob
  else if utf8Valid mode then .err .treeItem else .panic

end TreeItemType

/-- `TreeItem`, tree.rs 79-85. -/
structure TreeItem where
  mode : Bytes
  itemType : TreeItemType
  id : Hash
  filename : Bytes
  deriving DecidableEq

/-- One iteration of `Tree::decode_metadata`, tree.rs 161-184, on the data from `index` on: the item and the remaining
data. -/
def decodeTreeItem (data : Bytes) : Res (TreeItem × Bytes) := do
  let modeIndex ← Res.unwrapOpt (findByte 0x20 data)
  let mode ← slice data 0 modeIndex
  let itemType ← (TreeItemType.fromMode mode).unwrap
  let filenameIndex ← Res.unwrapOpt (findByte 0x00 data)
  let filename ← slice data (modeIndex + 1) filenameIndex
  if !utf8Valid filename then .panic
  else do
    let row ← slice data (filenameIndex + 1) (filenameIndex + 21)
    let id ← Hash.fromRow row
    pure ({ mode := mode, itemType := itemType, id := id, filename := filename },
      data.drop (filenameIndex + 21))

theorem decodeTreeItem_shrinks {data : Bytes} {r : TreeItem × Bytes}
    (h : decodeTreeItem data = .ok r) : r.2.length < data.length := by
  simp only [decodeTreeItem, Res.bind_eq_ok] at h
  obtain ⟨mi, _, mode, _, it, _, fi, _, fn, _, h⟩ := h
  by_cases hu : utf8Valid fn
  · simp only [hu, Bool.not_true, Bool.false_eq_true, if_false, Res.bind_eq_ok] at h
    obtain ⟨row, hrow, id, _, h⟩ := h
    simp only [slice] at hrow
    split at hrow
    · rename_i hlen
      simp only [Res.pure_eq, Res.ok.injEq] at h
      subst h
      simp only [List.length_drop]
      omega
    · cases hrow
  · simp [hu] at h

/-- The `while` loop of `Tree::decode_metadata`, tree.rs 161-184. -/
def decodeTree (data : Bytes) : Res (List TreeItem) :=
  if data = [] then .ok []
  else
    match h : decodeTreeItem data with
    | .ok r => do
      let items ← decodeTree r.2
      pure (r.1 :: items)
    | .err e => .err e
    | .panic => .panic
    | .spin => .spin
termination_by data.length
decreasing_by exact decodeTreeItem_shrinks h

/-- The bytes of one item in `Tree::encode_metadata`, tree.rs 194-198. -/
def encodeTreeItem (item : TreeItem) : Bytes :=
  item.mode ++ [0x20] ++ item.filename ++ [0x00] ++ item.id.1

/-- `Tree::encode_metadata`, tree.rs 191-202: the tree data (the caller wraps it with `MetaData::new`). -/
def encodeTree (items : List TreeItem) : Bytes := items.flatMap encodeTreeItem

end Gust

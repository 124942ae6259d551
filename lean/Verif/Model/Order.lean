import Verif.Model.Decoded

/-! # `Ord`, `PartialOrd` and `PartialEq` of the objects

tree.rs 94-121, blob.rs 23-50, commit.rs 33-49, tag.rs 32-48. -/

namespace Gust

/-- `str::cmp`: lexicographic on the bytes. -/
def strCmp (a b : Bytes) : Ordering := if a = b then .eq else if bytesLt a b then .lt else .gt

/-- `usize::cmp`. -/
def sizeCmp (a b : Nat) : Ordering := if a = b then .eq else if a < b then .lt else .gt

/-- `Ord for Tree`, tree.rs 94-102 (and `PartialOrd`, 104-112, the same text wrapped in `Some`). -/
def TreeObj.cmp (a b : TreeObj) : Ordering :=
  match strCmp b.name a.name with
  | .eq => sizeCmp b.base.size a.base.size
  | o => o

/-- `PartialEq for Tree`, tree.rs 114-121. -/
def TreeObj.eq (a b : TreeObj) : Bool := a.name == b.name

/-- `Ord for Blob`, blob.rs 23-31 (and `PartialOrd`, 33-41). -/
def BlobObj.cmp (a b : BlobObj) : Ordering :=
  match strCmp b.filename a.filename with
  | .eq => sizeCmp b.base.size a.base.size
  | o => o

/-- `PartialEq for Blob`, blob.rs 43-50. -/
def BlobObj.eq (a b : BlobObj) : Bool := a.filename == b.filename

/-- `Ord for Commit`, commit.rs 33-37 (and `PartialOrd`, 39-43). -/
def CommitObj.cmp (a b : CommitObj) : Ordering := sizeCmp b.base.size a.base.size

/-- `PartialEq for Commit`, commit.rs 45-49. -/
def CommitObj.eq (a b : CommitObj) : Bool := a.base.size == b.base.size

/-- `Ord for Tag`, tag.rs 32-36 (and `PartialOrd`, 38-42). -/
def TagObj.cmp (a b : TagObj) : Ordering := sizeCmp b.base.size a.base.size

/-- `PartialEq for Tag`, tag.rs 44-48. -/
def TagObj.eq (a b : TagObj) : Bool := a.base.size == b.base.size

end Gust

import Verif.Model.Text

/-! # `/repo/src/git/object/types.rs` -/

namespace Gust

/-- `ObjectType`, types.rs 20-28. -/
inductive ObjectType
  | commit
  | tree
  | blob
  | tag
  | offsetDelta
  | hashDelta
  deriving DecidableEq, Repr

namespace ObjectType

/-- `Display for ObjectType` (`to_string`), types.rs 31-42. -/
def display : ObjectType → Bytes
  | blob => ascii "blob"
  | tree => ascii "tree"
  | commit => ascii "commit"
  | tag => ascii "tag"
  | offsetDelta => ascii "OffsetDelta"
  | hashDelta => ascii "HashDelta"

/-- `ObjectType::to_bytes`, types.rs 48-56. -/
def toBytes : ObjectType → Bytes
  | blob => [0x62, 0x6c, 0x6f, 0x62]
  | tree => [0x74, 0x72, 0x65, 0x65]
  | commit => [0x63, 0x6f, 0x6d, 0x6d, 0x69, 0x74]
  | tag => [0x74, 0x61, 0x67]
  | _ => []

/-- `ObjectType::from_string`, types.rs 60-68. -/
def fromString (s : Bytes) : Res ObjectType :=
  if s = ascii "blob" then .ok blob
  else if s = ascii "tree" then .ok tree
  else if s = ascii "commit" then .ok commit
  else if s = ascii "tag" then .ok tag
  else .err .objectInfo

/-- `ObjectType::type2_number`, types.rs 72-81. -/
def number : ObjectType → Nat
  | commit => 1
  | tree => 2
  | blob => 3
  | tag => 4
  | offsetDelta => 6
  | hashDelta => 7

/-- `ObjectType::number_type`, types.rs 85-95. -/
def ofNumber : Nat → Res ObjectType
  | 1 => .ok commit
  | 2 => .ok tree
  | 3 => .ok blob
  | 4 => .ok tag
  | 6 => .ok offsetDelta
  | 7 => .ok hashDelta
  | _ => .panic

end ObjectType
end Gust

import Verif.Model.Hash

/-! # `/repo/src/git/object/metadata.rs` -/

namespace Gust

/-- `MetaData`, metadata.rs 21-29 (`h: HashType` has a single value and is left out). -/
structure MetaData where
  t : ObjectType
  id : Hash
  size : Nat
  data : Bytes
  deltaHeader : Bytes
  deriving DecidableEq

namespace MetaData

/-- `MetaData::new`, metadata.rs 39-53. -/
def new (X : Ext) (t : ObjectType) (data : Bytes) : Res MetaData := do
  let id ← Hash.fromMeta X t data
  pure { t := t, id := id, size := data.length, data := data, deltaHeader := [] }

/-- The plain loose-object bytes fed to the compressor by `write_to_file`, metadata.rs 65-69. -/
def looseBytes (m : MetaData) : Bytes :=
  m.t.toBytes ++ [0x20] ++ decStr m.data.length ++ [0] ++ m.data

/-- `PathBuf::push` of a relative component. -/
def pathPush (p c : Bytes) : Bytes :=
  if p = [] ∨ p.getLast? = some 0x2f then p ++ c else p ++ [0x2f] ++ c

/-- Where `write_to_file` puts the object, metadata.rs 72-78. -/
def loosePath (root : Bytes) (id : Hash) : Bytes :=
  pathPush (pathPush root (Hash.toFolder id)) (Hash.toFilename id)

/-- A file system as a map from paths to contents. -/
abbrev FS := Bytes → Option Bytes

/-- `MetaData::write_to_file`, metadata.rs 62-88: new file system and returned path.
Simplification: directory creation and disk errors are not modelled. -/
def writeToFile (X : Ext) (m : MetaData) (root : Bytes) (fs : FS) : FS × Bytes :=
  let path := loosePath root m.id
  (fun p => if p = path then some (X.deflate m.looseBytes) else fs p, path)

/-- `while _size > 0` loop of `convert_to_vec`, metadata.rs 96-104 (entered with a positive size). -/
def sizeTail (size : Nat) : Bytes :=
  if size >>> 7 > 0 then u8 (0x80 ||| size) :: sizeTail (size >>> 7)
  else [u8 size]
termination_by size
decreasing_by
  simp only [Nat.shiftRight_eq_div_pow] at *
  omega

/-- Type and size header of `convert_to_vec`, metadata.rs 92-107. -/
def entryHeader (t : ObjectType) (size : Nat) : Bytes :=
  (u8 (0x80 ||| (t.number <<< 4)) + u8 (size &&& 0x0f)) ::
    (if size >>> 4 > 0 then sizeTail (size >>> 4) else [0])

/-- `MetaData::convert_to_vec`, metadata.rs 91-124. -/
def convertToVec (X : Ext) (m : MetaData) : Bytes :=
  entryHeader m.t m.size ++
    (match m.t with
     | .offsetDelta => m.deltaHeader
     | .hashDelta => m.deltaHeader
     | _ => []) ++
    X.deflate m.data

/-- Parsing part of `read_object_from_file`, metadata.rs 139-161, on the decompressed bytes.
The size field is parsed but never compared with the data. -/
def parseLoose (X : Ext) (decoded : Bytes) : Res MetaData := do
  let typeIndex ← Res.unwrapOpt (findByte 0x20 decoded)
  let t ← slice decoded 0 typeIndex
  let sizeIndex ← Res.unwrapOpt (findByte 0x00 decoded)
  let sizeText ← slice decoded (typeIndex + 1) sizeIndex
  let _size ← Res.unwrapOpt (parseUsize sizeText)
  let data ← sliceFrom decoded (sizeIndex + 1)
  if !utf8Valid t then .panic
  else if t = ascii "blob" then new X .blob data
  else if t = ascii "tree" then new X .tree data
  else if t = ascii "commit" then new X .commit data
  else if t = ascii "tag" then new X .tag data
  else .err .objectInfo

/-- `MetaData::read_object_from_file`, metadata.rs 129-162: missing file or bad zlib data panics. -/
def readObjectFromFile (X : Ext) (fs : FS) (path : Bytes) : Res MetaData := do
  let file ← Res.unwrapOpt (fs path)
  let (decoded, _) ← Res.unwrapOpt (X.inflate file)
  parseLoose X decoded

/-- `MetaData::change_to_delta`, metadata.rs 166-171 (the id is kept). -/
def changeToDelta (m : MetaData) (t : ObjectType) (changed header : Bytes) : MetaData :=
  { m with t := t, data := changed, size := changed.length, deltaHeader := header }

end MetaData
end Gust

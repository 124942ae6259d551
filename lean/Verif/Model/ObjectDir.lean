import Verif.Model.Decoded
import Verif.Model.LfsStore
import Verif.Model.Router

/-! # Object directories on disk

`find_all_loose`, `pack_loose_files`, `pack_loose_from_dir`, `find_pack_file` and `pack_object_dir` of `/repo/src/git/pack/encode.rs`,
`find_all_pack_file` of `/repo/src/git/utils.rs`, `multi_decode` of `/repo/src/git/pack/multidecode.rs`, and `write_to_file` of
`/repo/src/git/object/metadata.rs` as seen by them. -/

namespace Gust

/-- An entry of an object directory: a file, or a directory with its entries (files with their content; `none` for anything that
cannot be read as a file, whose inside is never looked at). Links count as files. -/
inductive DirEntry
  | file (content : Bytes)
  | dir (entries : List (Bytes × Option Bytes))
  deriving DecidableEq

/-- An object directory: what `read_dir` lists, in the order in which it lists it. Entries whose listing fails (they are passed over,
encode.rs 224 and 236) are left out; nothing else changes the directory meanwhile. -/
abbrev ObjDir := List (Bytes × DirEntry)

namespace ObjDir

/-- The content of the file `root/a/b`. -/
def read (d : ObjDir) (a b : Bytes) : Option Bytes :=
  match d.find? (fun e => e.1 == a) with
  | some (_, .dir es) =>
    match es.find? (fun e => e.1 == b) with
    | some (_, c) => c
    | none => none
  | _ => none

/-- The files two levels below `root`, by their paths. -/
def fs (root : Bytes) (d : ObjDir) : MetaData.FS := fun p =>
  if (root ++ [0x2f]).isPrefixOf p then
    match splitOn 0x2f (p.drop (root.length + 1)) with
    | [a, b] => d.read a b
    | _ => none
  else none

/-- The inner loop of `find_all_loose`, encode.rs 235-248: the ids, printed again. Names that are not text and names that do not complete
an id panic. -/
def looseNames (a : Bytes) : List (Bytes × Option Bytes) → Res (List Bytes)
  | [] => .ok []
  | (b, _) :: es =>
    if !utf8Valid b then .panic
    else do
      let h ← (Hash.fromStr (a ++ b)).unwrap
      let hs ← looseNames a es
      pure (Hash.toPlainStr h :: hs)

/-- `Pack::find_all_loose`, encode.rs 215-258. -/
def findAllLoose : ObjDir → Res (List Bytes)
  | [] => .ok []
  | (a, e) :: d =>
    if !utf8Valid a then .panic
    else
      match e with
      | .dir es =>
        if a.length = 2 then do
          let hs ← looseNames a es
          let rest ← findAllLoose d
          pure (hs ++ rest)
        else findAllLoose d
      | .file _ => findAllLoose d

/-- `format!("{}/pack-{}.pack", target, signature)`, encode.rs 194-198 and 310-314. -/
def packName (target : Bytes) (sig : Hash) : Bytes := target ++ ascii "/pack-" ++ Hash.toPlainStr sig ++ ascii ".pack"

/-- `Pack::pack_loose_from_dir` with `pack_loose_files`, encode.rs 188-205 and 260-265: number of objects, signature, and the file created
with its content. That the file can be created is assumed. -/
def packLooseFromDir (X : Ext) (root target : Bytes) (d : ObjDir) : Res ((Nat × Hash) × Bytes × Bytes) := do
  let names ← findAllLoose d
  let ((n, sig), file) ← packLoose X (d.fs root) root names
  pure ((n, sig), packName target sig, file)

/-- `&name[name.len() - 4..] == "pack"`, encode.rs 277 and utils.rs 293: shorter names and names with another character across that
position panic. -/
def isPackName (name : Bytes) : Res Bool := do
  if name.length < 4 then .panic
  else do
    let last ← strSlice name (name.length - 4) name.length
    pure (last == ascii "pack")

/-- The loop of `find_pack_file`, encode.rs 273-282: the first entry whose name ends in `pack`. Without one the directory itself is opened
and reading it fails, which panics as well. -/
def firstPack : List (Bytes × Option Bytes) → Res Bytes
  | [] => .panic
  | (name, c) :: es =>
    if !utf8Valid name then .panic
    else do
      let found ← isPackName name
      if found then Res.unwrapOpt c else firstPack es

/-- `Pack::find_pack_file`, encode.rs 268-288: the content of the file opened. -/
def findPackFile (d : ObjDir) : Res Bytes :=
  match d.find? (fun e => e.1 == ascii "pack") with
  | some (_, .dir es) => firstPack es
  | _ => .panic

/-- `Pack::pack_object_dir`, encode.rs 289-320. -/
def repack (X : Ext) (root target : Bytes) (d : ObjDir) : Res ((Nat × Hash) × Bytes × Bytes) := do
  let old ← findPackFile d
  let names ← findAllLoose d
  let ((n, sig), file) ← packObjectDir X (d.fs root) root old names
  pure ((n, sig), packName target sig, file)

/-- `find_all_pack_file`, utils.rs 280-306, with `get_hash_form_filename`, utils.rs 274-276: content and id (taken from the name) of the
files whose name ends in `pack`. -/
def allPacks : List (Bytes × Option Bytes) → Res (List (Option Bytes × Hash))
  | [] => .ok []
  | (name, c) :: es =>
    if !utf8Valid name then .panic
    else do
      let found ← isPackName name
      if found then do
        let text ← strSlice name 5 45
        let h ← (Hash.fromStr text).unwrap
        let rest ← allPacks es
        pure ((c, h) :: rest)
      else allPacks es

/-- `File::open(…).unwrap()` for each, multidecode.rs 49 (opening fails or the first read does). -/
def openAll : List (Option Bytes) → Res (List Bytes)
  | [] => .ok []
  | c :: cs => do
    let b ← Res.unwrapOpt c
    let bs ← openAll cs
    pure (b :: bs)

/-- `Pack::multi_decode`, multidecode.rs 74-92, of the directory with these entries. `byTime` is the order of `pack_vec.sort()`, by creation
time; that the file system records it is assumed (`created().unwrap()`, 20-45). A file that cannot be opened panics, before or after the
ones that can are decoded; here before. -/
def decodeAllPacks (X : Ext) (St : ObjectSource) (fuel : Nat) (byTime : List (Option Bytes × Hash) → List (Option Bytes × Hash))
    (es : List (Bytes × Option Bytes)) : Res Pack := do
  let found ← allPacks es
  let files ← openAll ((byTime found).map Prod.fst)
  multiDecode X St fuel files

/-- `create_dir_all` and `File::create` with the writes of `write_to_file`, metadata.rs 72-84: a file where the directory should be, or a
directory where the file should be, panics. New entries are listed last; nothing proved below
depends on the place. -/
def write (X : Ext) (m : MetaData) (d : ObjDir) : Res ObjDir :=
  match d.find? (fun e => e.1 == Hash.toFolder m.id) with
  | none => .ok (d ++ [(Hash.toFolder m.id, .dir [(Hash.toFilename m.id, some (X.deflate m.looseBytes))])])
  | some (_, .file _) => .panic
  | some (_, .dir es) =>
    let put (es' : List (Bytes × Option Bytes)) : ObjDir :=
      d.map (fun e => if e.1 = Hash.toFolder m.id then (e.1, .dir es') else e)
    match es.find? (fun e => e.1 == Hash.toFilename m.id) with
    | none => .ok (put (es ++ [(Hash.toFilename m.id, some (X.deflate m.looseBytes))]))
    | some (_, none) => .panic
    | some (_, some _) =>
      .ok (put (es.map (fun e => if e.1 = Hash.toFilename m.id then (e.1, some (X.deflate m.looseBytes)) else e)))

/-- Writing several objects. -/
def writeAll (X : Ext) : List MetaData → ObjDir → Res ObjDir
  | [], d => .ok d
  | m :: ms, d => do
    let d ← d.write X m
    writeAll X ms d

end ObjDir
end Gust

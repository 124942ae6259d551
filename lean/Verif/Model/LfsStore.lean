import Verif.Model.LfsLock
import Verif.Model.MetaData
import Verif.Model.Protocol

/-! # LFS objects: `/repo/src/gust/driver/lfs_content_store/mod.rs`, the metadata functions of
`/repo/src/gust/driver/database/mysql/storage.rs`, and the object handlers of `/repo/src/git/lfs/http.rs` -/

namespace Gust

/-- Parameters of the object server: SHA-256 as lower-case hexadecimal text (`sha256::digest`), how many bytes one `write`
call takes at most (Linux: 0x7ffff000), the content directory and the external address of the server. -/
structure StoreExt where
  digest : Bytes → Bytes
  maxWrite : Nat
  base : Bytes
  origin : Bytes

/-! ## Paths -/

/-- `Path::join` / `PathBuf::push`: an absolute argument replaces the path. -/
def pathJoin (p c : Bytes) : Bytes := if c.head? = some 0x2f then c else MetaData.pathPush p c

/-- What the operating system sees of a path: whether it is absolute, and its components (empty ones and `.` dropped).
Simplification: `..` and symbolic links are not resolved, and names with NUL bytes (which the operating system rejects) are not
treated specially. -/
def components (p : Bytes) : Bool × List Bytes :=
  (p.head? == some 0x2f, (splitOn 0x2f p).filter (fun c => c ≠ [] ∧ c ≠ [0x2e]))

/-- May a string be cut before byte `i` (`str::is_char_boundary`, for `i` within the string)? -/
def isBoundary (s : Bytes) (i : Nat) : Bool :=
  match s[i]? with
  | some b => b < 0x80 || 0xC0 ≤ b
  | none => true

/-- `transform_key`, lfs_content_store/mod.rs 55-66. Panics when bytes 2 or 4 are inside a character. -/
def transformKey (key : Bytes) : Res Bytes :=
  if key.length < 5 then .ok key
  else if isBoundary key 2 && isBoundary key 4 then
    .ok (pathJoin (pathJoin (key.take 2) ((key.drop 2).take 2)) (key.drop 4))
  else .panic

/-- The file of an object: `base_path.join(transform_key(oid))`, mod.rs 19, 31, 49. -/
def storePath (E : StoreExt) (oid : Bytes) : Res (Bool × List Bytes) := do
  let k ← transformKey oid
  pure (components (pathJoin E.base k))

/-! ## The file system -/

/-- A directory or a file. -/
inductive Node
  | dir
  | file (content : Bytes)
  deriving DecidableEq, Repr

/-- What is where. On a real file system the two paths without components, the root and the working directory, are directories.
Simplification: the empty string, which names nothing, is not told from the working directory; it is the path of an object only
if base directory and oid are both empty. -/
abbrev Disk := Bool × List Bytes → Option Node

/-- A file system with nothing in it. -/
def Disk.blank : Disk := fun p => if p.2 = [] then some .dir else none

/-- `create_dir_all` for the components `cs` below `pre`: the file system afterwards, and whether it succeeded (it fails when
a component is a file). -/
def mkdirs (abs : Bool) : Disk → List Bytes → List Bytes → Disk × Bool
  | d, _, [] => (d, true)
  | d, pre, c :: cs =>
    match d (abs, pre ++ [c]) with
    | some (.file _) => (d, false)
    | some .dir => mkdirs abs d (pre ++ [c]) cs
    | none => mkdirs abs (setAt d (abs, pre ++ [c]) (some .dir)) (pre ++ [c]) cs

/-- `ContentStore::new`, mod.rs 13-16: creates the content directory; panics when it cannot. -/
def storeNew (E : StoreExt) (d : Disk) : Disk × Bool := mkdirs (components E.base).1 d [] (components E.base).2

/-- `ContentStore::exist`, mod.rs 48-52. -/
def storeExist (E : StoreExt) (d : Disk) (oid : Bytes) : Res Bool := do
  let p ← storePath E oid
  pure (d p).isSome

/-- `ContentStore::put`, mod.rs 30-46: the file is written before size and digest are compared. -/
def storePut (E : StoreExt) (d : Disk) (oid : Bytes) (size : Int) (body : Bytes) : Disk × Res Bool :=
  match storePath E oid with
  | .ok p =>
    let (d1, ok) := mkdirs p.1 d [] p.2.dropLast
    if !ok then (d1, .panic)
    else
      match d1 p with
      | some .dir => (d1, .panic)
      | _ =>
        let written := min body.length E.maxWrite
        let d2 := setAt d1 p (some (.file (body.take written)))
        if (written : Int) ≠ size then (d2, .ok false)
        else if E.digest body ≠ oid then (d2, .ok false)
        else (d2, .ok true)
  | _ => (d, .panic)

/-- `ContentStore::get` with start 0, and `read_to_end`, mod.rs 18-28, http.rs 487-492: panics when there is no file. -/
def storeGet (E : StoreExt) (d : Disk) (oid : Bytes) : Res Bytes := do
  let p ← storePath E oid
  match d p with
  | some (.file c) => pure c
  | _ => .panic

/-! ## Metadata -/

/-- The table `meta`: for each primary key (canonical form) the stored oid and size. The column `exist` is always set. -/
abbrev MetaTable := Bytes → Option (Bytes × Int)

/-- `lfs_get_meta`, storage.rs 197-211: `none` is `Err`. -/
def lfsGetMeta (D : DbExt) (m : MetaTable) (oid : Bytes) : Option (Bytes × Int) := m (D.fold oid)

/-- `lfs_put_meta`, storage.rs 213-246: a row that exists is returned as it is. -/
def lfsPutMeta (D : DbExt) (m : MetaTable) (oid : Bytes) (size : Int) : Option ((Bytes × Int) × MetaTable) :=
  match m (D.fold oid) with
  | some row => some (row, m)
  | none => if D.metaFits oid size then some ((oid, size), setAt m (D.fold oid) (some (oid, size))) else none

/-- `lfs_delete_meta`, storage.rs 248-256. -/
def lfsDeleteMeta (D : DbExt) (m : MetaTable) (oid : Bytes) : MetaTable := setAt m (D.fold oid) none

/-! ## Handlers -/

/-- `RequestVars`, structs.rs 6-17; `password` and `authorization` have no effect here. -/
structure RequestVars where
  oid : Bytes
  size : Int
  user : Bytes := []
  repo : Bytes := []

/-- `internal_link("objects", origin)`, structs.rs 28-47. -/
def internalLink (origin : Bytes) (v : RequestVars) : Bytes :=
  let p : Bytes := []
  let p := if v.user.length > 0 then pathJoin p v.user else p
  let p := if v.repo.length > 0 then pathJoin p v.repo else p
  let p := pathJoin p origin
  let p := pathJoin p (ascii "objects")
  pathJoin p v.oid

/-- What an entry of the batch response offers. -/
inductive Offer
  | download (href : Bytes)
  | upload (href : Bytes)
  | error (code : Nat)
  deriving DecidableEq, Repr

/-- `Representation`, structs.rs 86-96, without headers and expiry time. -/
structure Rep where
  oid : Bytes
  size : Int
  offer : Offer
  deriving DecidableEq, Repr

/-- Server state. -/
structure LfsState where
  metas : MetaTable
  disk : Disk

/-- One object of a batch, http.rs 375-402, and `represent`, http.rs 503-577. -/
def batchOne (D : DbExt) (E : StoreExt) (disk : Disk) (m : MetaTable) (upload : Bool) (v : RequestVars) :
    Res Rep × MetaTable :=
  let put : Res Rep × MetaTable :=
    if upload then
      match lfsPutMeta D m v.oid v.size with
      | some (row, m') => (.ok { oid := row.1, size := row.2, offer := .upload (internalLink E.origin v) }, m')
      | none => (.panic, m)
    else (.ok { oid := v.oid, size := v.size, offer := .error 404 }, m)
  match lfsGetMeta D m v.oid with
  | some row =>
    match storeExist E disk row.1 with
    | .ok true => (.ok { oid := row.1, size := row.2, offer := .download (internalLink E.origin v) }, m)
    | .ok false => put
    | _ => (.panic, m)
  | none => put

/-- The loop over the objects, http.rs 374-403. -/
def batchLoop (D : DbExt) (E : StoreExt) (disk : Disk) (upload : Bool) : List RequestVars → MetaTable → Res (List Rep) × MetaTable
  | [], m => (.ok [], m)
  | v :: vs, m =>
    match batchOne D E disk m upload v with
    | (.ok r, m1) =>
      match batchLoop D E disk upload vs m1 with
      | (.ok rs, m2) => (.ok (r :: rs), m2)
      | (_, m2) => (.panic, m2)
    | (_, m1) => (.panic, m1)

/-- The reply for a result: everything but a value is a panic here. -/
def Res.toReply {α : Type} : Res α → Reply α
  | .ok a => .ok a
  | _ => .panic

/-- `lfs_process_batch`, http.rs 334-419. -/
def processBatch (D : DbExt) (E : StoreExt) (s : LfsState) (operation : Bytes) (objects : List RequestVars) :
    Reply (List Rep) × LfsState :=
  let (d, ok) := storeNew E s.disk
  if !ok then (.panic, { s with disk := d })
  else
    let (r, m) := batchLoop D E d (operation == ascii "upload") objects s.metas
    (r.toReply, { metas := m, disk := d })

/-- `lfs_upload_object`, http.rs 421-468. -/
def uploadObject (D : DbExt) (E : StoreExt) (s : LfsState) (oid body : Bytes) : Reply Unit × LfsState :=
  let (d, ok) := storeNew E s.disk
  if !ok then (.panic, { s with disk := d })
  else
    match lfsGetMeta D s.metas oid with
    | none => (.panic, { s with disk := d })
    | some row =>
      match storePut E d row.1 row.2 body with
      | (d', .ok true) => (.ok (), { s with disk := d' })
      | (d', .ok false) => (.status 406, { metas := lfsDeleteMeta D s.metas oid, disk := d' })
      | (d', _) => (.panic, { s with disk := d' })

/-- `lfs_download_object`, http.rs 470-501. -/
def downloadObject (D : DbExt) (E : StoreExt) (s : LfsState) (oid : Bytes) : Reply Bytes × LfsState :=
  let (d, ok) := storeNew E s.disk
  if !ok then (.panic, { s with disk := d })
  else
    match lfsGetMeta D s.metas oid with
    | none => (.panic, { s with disk := d })
    | some row => ((storeGet E d row.1).toReply, { s with disk := d })

/-! ## Histories -/

/-- A request on the object routes. -/
inductive LfsReq
  | batch (operation : Bytes) (objects : List RequestVars)
  | upload (oid body : Bytes)
  | download (oid : Bytes)

/-- The state after a request. -/
def LfsReq.run (D : DbExt) (E : StoreExt) (s : LfsState) : LfsReq → LfsState
  | .batch op vs => (processBatch D E s op vs).2
  | .upload oid body => (uploadObject D E s oid body).2
  | .download oid => (downloadObject D E s oid).2

/-- The state after a history. -/
def runLfs (D : DbExt) (E : StoreExt) (s : LfsState) (h : List LfsReq) : LfsState := h.foldl (LfsReq.run D E) s

end Gust

import Verif.Model.LfsStore
import Verif.Model.TempFile

/-! # Requests on LFS objects that overlap in time

The object handlers of `/repo/src/git/lfs/http.rs` 334-501 with `/repo/src/gust/driver/lfs_content_store/mod.rs` as sequences of database statements and file
operations. Every request is a task; tasks take turns (the server uses several threads) in any order. A task that is never scheduled again is a server that was
killed. `processBatch`, `uploadObject` and `downloadObject` are the same sequences run without interruption (`Props/LfsConcurrent.lean`).
Simplification: `create_dir_all` is one step. (Directories are never removed, and it accepts directories that others create meanwhile.) Files are never removed or
renamed by the server, so an open file is its path. -/

namespace Gust

/-- What a request is answered with. -/
inductive LfsOut
  | entries (l : List Rep)
  | stored
  | content (c : Bytes)
  deriving DecidableEq

/-- What a task does next. -/
inductive LfsPhase
  /-- `ContentStore::new`, http.rs 373, 440, 479 -/
  | start
  /-- `lfs_get_meta` of an upload or download, http.rs 442 and 488 -/
  | lookup
  /-- the path and `create_dir_all` of `put`, mod.rs 31-33, for the row found -/
  | dirs (row : Bytes × Int)
  /-- `File::create`, mod.rs 35: the file is emptied -/
  | create (row : Bytes × Int) (p : Bool × List Bytes)
  /-- `write`, mod.rs 36, and the comparisons, mod.rs 37-44 -/
  | write (row : Bytes × Int) (p : Bool × List Bytes)
  /-- `lfs_delete_meta`, http.rs 457 -/
  | reject
  /-- `File::open`, mod.rs 21 -/
  | open (row : Bytes × Int)
  /-- a `read` of `read_to_end`, http.rs 493; what was read so far -/
  | read (p : Bool × List Bytes) (acc : Bytes)
  /-- `lfs_get_meta` for the next object of a batch, http.rs 374-375; the entries so far -/
  | next (vs : List RequestVars) (acc : List Rep)
  /-- `exist`, http.rs 380, for the row found for the first object -/
  | look (row : Bytes × Int) (v : RequestVars) (vs : List RequestVars) (acc : List Rep)
  /-- the `SELECT` of `lfs_put_meta`, storage.rs 213-230 -/
  | check (v : RequestVars) (vs : List RequestVars) (acc : List Rep)
  /-- the `INSERT` of `lfs_put_meta`, storage.rs 232-245 -/
  | insert (v : RequestVars) (vs : List RequestVars) (acc : List Rep)
  /-- answered -/
  | done (r : Reply LfsOut)

/-- A request and how far it is. -/
structure LfsTask where
  req : LfsReq
  phase : LfsPhase

/-- http.rs 385-402: the object is announced, or (in a download batch) reported missing. -/
def notFound (upload : Bool) (v : RequestVars) (vs : List RequestVars) (acc : List Rep) : LfsPhase :=
  if upload then .check v vs acc else .next vs (acc ++ [{ oid := v.oid, size := v.size, offer := .error 404 }])

/-- The entry for an announced object, http.rs 387. -/
def uploadRep (E : StoreExt) (row : Bytes × Int) (v : RequestVars) : Rep :=
  { oid := row.1, size := row.2, offer := .upload (internalLink E.origin v) }

/-- Is the request a batch with operation "upload"? -/
def LfsReq.announces : LfsReq → Bool
  | .batch op _ => op == ascii "upload"
  | _ => false

/-- One step of a task. `n + 1` is the size of the buffer a `read` gets. -/
def LfsTask.step (D : DbExt) (E : StoreExt) (n : Nat) (s : LfsState) (t : LfsTask) : LfsPhase × LfsState :=
  match t.phase with
  | .start =>
    let (d, ok) := storeNew E s.disk
    if !ok then (.done .panic, { s with disk := d })
    else
      match t.req with
      | .batch _ vs => (.next vs [], { s with disk := d })
      | _ => (.lookup, { s with disk := d })
  | .lookup =>
    match t.req with
    | .upload oid _ =>
      match lfsGetMeta D s.metas oid with
      | none => (.done .panic, s)
      | some row => (.dirs row, s)
    | .download oid =>
      match lfsGetMeta D s.metas oid with
      | none => (.done .panic, s)
      | some row => (.open row, s)
    | .batch _ _ => (.done .panic, s)
  | .dirs row =>
    match storePath E row.1 with
    | .ok p =>
      let (d, ok) := mkdirs p.1 s.disk [] p.2.dropLast
      if !ok then (.done .panic, { s with disk := d }) else (.create row p, { s with disk := d })
    | _ => (.done .panic, s)
  | .create row p =>
    match s.disk p with
    | some .dir => (.done .panic, s)
    | _ => (.write row p, { s with disk := setAt s.disk p (some (.file [])) })
  | .write row p =>
    match t.req, s.disk p with
    | .upload _ body, some (.file old) =>
      let written := min body.length E.maxWrite
      let s' := { s with disk := setAt s.disk p (some (.file (writeAt old 0 (body.take written)))) }
      if (written : Int) ≠ row.2 then (.reject, s')
      else if E.digest body ≠ row.1 then (.reject, s')
      else (.done (.ok .stored), s')
    | _, _ => (.done .panic, s)
  | .reject =>
    match t.req with
    | .upload oid _ => (.done (.status 406), { s with metas := lfsDeleteMeta D s.metas oid })
    | _ => (.done .panic, s)
  | .open row =>
    match storePath E row.1 with
    | .ok p =>
      match s.disk p with
      | some (.file _) => (.read p [], s)
      | _ => (.done .panic, s)
    | _ => (.done .panic, s)
  | .read p acc =>
    match s.disk p with
    | some (.file c) =>
      if c.length ≤ acc.length then (.done (.ok (.content acc)), s) else (.read p (acc ++ (c.drop acc.length).take (n + 1)), s)
    | _ => (.done .panic, s)
  | .next [] acc => (.done (.ok (.entries acc)), s)
  | .next (v :: vs) acc =>
    match lfsGetMeta D s.metas v.oid with
    | some row => (.look row v vs acc, s)
    | none => (notFound t.req.announces v vs acc, s)
  | .look row v vs acc =>
    match storeExist E s.disk row.1 with
    | .ok true => (.next vs (acc ++ [{ oid := row.1, size := row.2, offer := .download (internalLink E.origin v) }]), s)
    | .ok false => (notFound t.req.announces v vs acc, s)
    | _ => (.done .panic, s)
  | .check v vs acc =>
    match s.metas (D.fold v.oid) with
    | some row => (.next vs (acc ++ [uploadRep E row v]), s)
    | none => (.insert v vs acc, s)
  | .insert v vs acc =>
    match s.metas (D.fold v.oid) with
    | some _ => (.done .panic, s)
    | none =>
      if D.metaFits v.oid v.size then
        (.next vs (acc ++ [uploadRep E (v.oid, v.size) v]), { s with metas := setAt s.metas (D.fold v.oid) (some (v.oid, v.size)) })
      else (.done .panic, s)
  | .done r => (.done r, s)

/-- The server and its tasks. -/
structure LfsServer where
  state : LfsState
  tasks : List LfsTask

/-- What happens: a request arrives, or a task takes a step. `R` says which requests are sent. -/
inductive LfsServer.Step (D : DbExt) (E : StoreExt) (R : LfsReq → Prop) : LfsServer → LfsServer → Prop
  | arrive (s : LfsServer) (q : LfsReq) : R q → LfsServer.Step D E R s { s with tasks := s.tasks ++ [{ req := q, phase := .start }] }
  | run (s : LfsServer) (i n : Nat) (t : LfsTask) : s.tasks[i]? = some t → LfsServer.Step D E R s
      { state := (t.step D E n s.state).2, tasks := s.tasks.set i { t with phase := (t.step D E n s.state).1 } }

/-- Any number of events. -/
inductive LfsServer.Runs (D : DbExt) (E : StoreExt) (R : LfsReq → Prop) : LfsServer → LfsServer → Prop
  | refl (s : LfsServer) : LfsServer.Runs D E R s s
  | step (s t u : LfsServer) : LfsServer.Runs D E R s t → LfsServer.Step D E R t u → LfsServer.Runs D E R s u

end Gust

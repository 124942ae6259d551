import Verif.Model.Router
import Verif.Model.Storage

/-! # The whole HTTP server: `/repo/src/gateway/api/lib.rs` with the handlers behind it

Requests are handled one after the other here; requests that overlap in time are treated for locks in `Model/LfsLock.lean` and for the
temporary file of pushes in `Model/TempFile.lean`. -/

namespace Gust

/-- Parsing of JSON bodies (`serde_json::from_slice`) for the request types of `/repo/src/git/lfs/structs.rs`; `none` is an error. -/
structure JsonExt where
  /-- `LockRequest`: the name of the ref and the path -/
  lock : Bytes → Option (Bytes × Bytes)
  /-- `UnlockRequest`: the name of the ref and `force` -/
  unlock : Bytes → Option (Bytes × Option Bool)
  /-- `VerifiableLockRequest`: the name of the ref, `cursor` and `limit` -/
  verify : Bytes → Option (Bytes × Option Bytes × Option Int)
  /-- `BatchVars`: the operation and the objects -/
  batch : Bytes → Option (Bytes × List RequestVars)

/-- What does not change while the server runs. -/
structure ServerExt where
  X : Ext
  D : DbExt
  S : StoreExt
  J : JsonExt

/-- What the environment does during one request: the database (rows in any order, inserts that fail), how deep recursion goes before the
process dies (`fuel`), the order of `HashSet`s, how the pack is cut into pieces when it is sent, the random id and the time for a
new lock. -/
structure Moment where
  sql : SqlExt
  fuel : Nat
  ord : List Bytes → List Bytes
  cut : Bytes → List Bytes
  lockId : Bytes
  now : Bytes

/-- A request: method, path, query and body. -/
structure HttpReq where
  method : Method
  path : Bytes
  service : Option Bytes := none
  query : LockListQuery := {}
  body : Bytes := []

/-- Everything the server keeps. -/
structure ServerState where
  db : Db
  locks : LockTable
  lfs : LfsState

/-- Bodies of successful replies; those of the LFS API as values, before `serde_json::to_string`. -/
inductive Payload
  | bytes (b : Bytes)
  | lock (l : Lock)
  | locks (l : List Lock) (next : Bytes)
  | verified (l : VerifiableLockList)
  | objects (l : List Rep)
  deriving DecidableEq, Repr

/-- What the client sees: a reply, or none because the handler never ends. -/
inductive Outcome
  | reply (r : Reply Payload)
  | hang
  deriving DecidableEq, Repr

/-- A value, the dropped connection after a panic, or nothing. Errors do not occur: all are unwrapped. -/
def Res.outcome {α : Type} (f : α → Payload) : Res α → Outcome
  | .ok a => .reply (.ok (f a))
  | .spin => .hang
  | _ => .reply .panic

/-- A reply with its value as payload. -/
def Reply.outcome {α : Type} (f : α → Payload) : Reply α → Outcome
  | .ok a => .reply (.ok (f a))
  | .status c => .reply (.status c)
  | .panic => .reply .panic

/-- `http::git_upload_pack` and `send_pack`, http.rs 35-85: the whole body of the reply. A request that has not ended when the body
is used up never ends (`C18_fetch_dichotomy`), so the length of the body is enough fuel for the loop. -/
def httpUploadPack (St : FetchStore) (ord : List Bytes → List Bytes) (cut : Bytes → List Bytes) (body : Bytes) : Res Bytes := do
  let (s, _) ← fetchLoop (body.length + 1) { want := [], have_ := [], caps := [], firstLine := true } body
  let (pack, buf) ← fetchAnswer St s.caps (ord s.want) (ord s.have_)
  pure (buf ++ sendPack s.caps (cut pack))

/-- The database after `receiveData`, also when the handler panics half-way, pack.rs 174-212. -/
def receiveDataDb {σ P : Type} (E : PushEnv σ P) (st : PushState σ) (body : Bytes) : σ :=
  match st.commands.getLast? with
  | none => st.db
  | some cmd =>
    match E.unpack st.db body with
    | .ok pack =>
      match E.savePack pack st.path st.db with
      | (.ok (), db) => (E.handleRefs { cmd with ok := true } st.path db).2
      | (_, db) => db
    | _ => st.db

/-- The database after `git_receive_pack`. -/
def gitReceiveDb {σ P : Type} (E : PushEnv σ P) (st : PushState σ) (body : Bytes) : σ :=
  if (ascii "PACK").isPrefixOf body then receiveDataDb E st body else st.db

/-- The database after `http::git_receive_pack`, http.rs 87-111. -/
def httpReceiveDb {σ P : Type} (E : PushEnv σ P) (st : PushState σ) (body : Bytes) : σ :=
  match gitReceivePack E st body with
  | .ok (packData, st1) => gitReceiveDb E st1 packData
  | _ => gitReceiveDb E st body

/-- One request, lib.rs 79-216. -/
def serve (P : ServerExt) (m : Moment) (s : ServerState) (r : HttpReq) : Outcome × ServerState :=
  match route r.method r.path r.service with
  | .download oid =>
    let (reply, lfs) := downloadObject P.D P.S s.lfs oid
    (reply.outcome .bytes, { s with lfs := lfs })
  | .listLocks => ((retrieveLock P.D s.locks r.query).outcome (fun p => .locks p.1 p.2), s)
  | .infoRefs repo service =>
    let (reply, db) := advertise P.X m.sql .http service s.db repo
    (reply.outcome .bytes, { s with db := db })
  | .verifyLocks =>
    match P.J.verify r.body with
    | none => (.reply .panic, s)
    | some (ref, cursor, limit) => ((verifyLock P.D s.locks ref cursor limit).outcome .verified, s)
  | .createLock =>
    match P.J.lock r.body with
    | none => (.reply .panic, s)
    | some (ref, path) =>
      let (reply, locks) := createLock P.D s.locks ref path m.lockId m.now
      (reply.outcome .lock, { s with locks := locks })
  | .deleteLock id =>
    if id = [] ∨ r.body = [] then (.reply (.status 400), s)
    else
      match P.J.unlock r.body with
      | none => (.reply .panic, s)
      | some (ref, force) =>
        let (reply, locks) := deleteLock P.D s.locks ref id force
        (reply.outcome .lock, { s with locks := locks })
  | .batch =>
    match P.J.batch r.body with
    | none => (.reply .panic, s)
    | some (operation, objects) =>
      let (reply, lfs) := processBatch P.D P.S s.lfs operation objects
      (reply.outcome .objects, { s with lfs := lfs })
  | .uploadPack repo => ((httpUploadPack (mysqlFetch P.X m.sql m.fuel s.db repo) m.ord m.cut r.body).outcome .bytes, s)
  | .receivePack repo =>
    let st : PushState Db := { caps := [], commands := [], path := repo, db := s.db }
    ((httpReceivePack (mysqlPush P.X m.sql m.fuel) st r.body).outcome (fun p => .bytes p.1),
      { s with db := httpReceiveDb (mysqlPush P.X m.sql m.fuel) st r.body })
  | .upload oid =>
    let (reply, lfs) := uploadObject P.D P.S s.lfs oid r.body
    (reply.outcome (fun _ => .bytes []), { s with lfs := lfs })
  | .forbidden => (.reply (.status 403), s)
  | .notFound => (.reply (.status 404), s)
  | .methodNotAllowed => (.reply (.status 405), s)
  | .crash => (.reply .panic, s)

/-- The state after a history of requests. -/
def runServer (P : ServerExt) (s : ServerState) (h : List (Moment × HttpReq)) : ServerState :=
  h.foldl (fun s p => (serve P p.1 s p.2).2) s

/-- A new server. -/
def ServerState.empty : ServerState :=
  { db := { nodes := [], commits := [], refs := [], inserts := 0 }, locks := noLocks, lfs := { metas := fun _ => none, disk := .blank } }

end Gust

import Verif.Base.Map
import Verif.Model.Text

/-! # LFS locks: `/repo/src/git/lfs/http.rs` and the lock functions of `/repo/src/gust/driver/database/mysql/storage.rs` -/

namespace Gust

/-- `Lock`, `/repo/src/git/lfs/structs.rs` 107-112. The owner is a `User` with one string. -/
structure Lock where
  id : Bytes
  path : Bytes
  lockedAt : Bytes
  owner : Option Bytes
  deriving DecidableEq, Repr

/-- What the database does beyond storing rows (`/repo/Dump20230523.sql` 50-69): string columns are compared under the collation
`utf8mb4_0900_ai_ci`, that is by a canonical form `fold`; a row is refused when a column is too long (`locks.data` has 10000
characters, `locks.id` 200, `meta.oid` 100, `meta.size` is a 32-bit integer). Other failures of the database are not modelled.
`minTime` is `DateTime::<Utc>::MIN_UTC.to_rfc3339()`. -/
structure DbExt where
  fold : Bytes → Bytes
  locksFit : Bytes → List Lock → Bool
  metaFits : Bytes → Int → Bool
  minTime : Bytes

/-- The table `locks`: for each primary key (canonical form) the list of locks of the row. The column `data` holds the JSON
text of the list; serialising and parsing it again is taken to give the same list. (So the column is never the empty string,
and the branches for `""` in `lfs_add_lock` and `lfs_delete_lock` are left out.) -/
abbrev LockTable := Bytes → Option (List Lock)

/-- HTTP reply: success with a value, an error status, or a panic in the handler (the connection is dropped). -/
inductive Reply (α : Type)
  | ok (a : α)
  | status (code : Nat)
  | panic
  deriving DecidableEq, Repr

/-- `str::parse::<i64>()`. -/
def parseI64 (s : Bytes) : Option Int :=
  let (neg, digits) := match s with
    | c :: rest => if c = 43 then (false, rest) else if c = 45 then (true, rest) else (false, s)
    | [] => (false, s)
  if digits = [] then none
  else match parseDigits decCharValue 10 0 digits with
    | some v =>
      if neg then (if v ≤ 2 ^ 63 then some (-(v : Int)) else none)
      else (if v < 2 ^ 63 then some (v : Int) else none)
    | none => none

/-- `to_string` of an `i64`. -/
def i64Str (n : Int) : Bytes := if n < 0 then 45 :: decStr n.natAbs else decStr n.natAbs

/-! ## Storage -/

/-- `lfs_get_locks`, storage.rs 258-272. -/
def lfsGetLocks (D : DbExt) (t : LockTable) (refspec : Bytes) : Option (List Lock) := t (D.fold refspec)

/-- The cursor, storage.rs 288-303: the locks from the one with this id on (it included). -/
def fromCursor (locks : List Lock) (cursor : Bytes) : Res (List Lock) :=
  if cursor = [] then .ok locks
  else match locks.findIdx? (fun l => l.id == cursor) with
    | some i => .ok (locks.drop i)
    | none => .err .other

/-- The path filter, storage.rs 305-318. -/
def onlyPath (locks : List Lock) (path : Bytes) : List Lock :=
  if path = [] then locks else locks.filter (fun l => l.path == path)

/-- The limit, storage.rs 320-329. A negative limit panics (index or `split_off` out of range). -/
def cutPage (locks : List Lock) (limit : Bytes) : Res (List Lock × Bytes) :=
  if limit = [] then .ok (locks, [])
  else match parseI64 limit with
    | none => .panic
    | some n =>
      let size : Int := min n locks.length
      if size < 0 then .panic
      else
        let k := size.toNat
        let next := if k + 1 < locks.length then ((locks[k]?).map (·.id)).getD [] else []
        .ok (locks.take k, next)

/-- `lfs_get_filtered_locks`, storage.rs 274-332. -/
def lfsGetFilteredLocks (D : DbExt) (t : LockTable) (refspec path cursor limit : Bytes) : Res (List Lock × Bytes) := do
  let locks := (lfsGetLocks D t refspec).getD []
  let locks ← fromCursor locks cursor
  cutPage (onlyPath locks path) limit

/-- Byte-wise lexicographic order of strings (`str::partial_cmp`), as "not greater". -/
def bytesLe : Bytes → Bytes → Bool
  | [], _ => true
  | _ :: _, [] => false
  | a :: s, b :: t => a < b || (a == b && bytesLe s t)

/-- Insert before the first lock that is not older. -/
def insertLock (x : Lock) : List Lock → List Lock
  | [] => [x]
  | y :: ys => if bytesLe x.lockedAt y.lockedAt then x :: y :: ys else y :: insertLock x ys

/-- `sort_by` on `locked_at`, storage.rs 352-356 and 370-374. `sort_by` is stable, and so is this insertion sort; a stable
sort is determined by the order. -/
def sortLocks : List Lock → List Lock
  | [] => []
  | x :: xs => insertLock x (sortLocks xs)

/-- `UPDATE locks SET data = … WHERE id = …` (`ActiveModel::update`): an error when the row is gone or the data too long. -/
def updateRow (D : DbExt) (t : LockTable) (repo : Bytes) (l : List Lock) : Option LockTable :=
  if (t (D.fold repo)).isSome && D.locksFit repo l then some (setAt t (D.fold repo) (some l)) else none

/-- `INSERT INTO locks …`: an error when the key exists or a column is too long. -/
def insertRow (D : DbExt) (t : LockTable) (repo : Bytes) (l : List Lock) : Option LockTable :=
  if (t (D.fold repo)).isNone && D.locksFit repo l then some (setAt t (D.fold repo) (some l)) else none

/-- The write of `lfs_add_lock`, given the row it has read, storage.rs 340-387. -/
def addLockWrite (D : DbExt) (t : LockTable) (repo : Bytes) (row : Option (List Lock)) (locks : List Lock) : Option LockTable :=
  match row with
  | some old => updateRow D t repo (sortLocks (old ++ locks))
  | none => insertRow D t repo (sortLocks locks)

/-- `lfs_add_lock`, storage.rs 334-388: `none` is `Err`. -/
def lfsAddLock (D : DbExt) (t : LockTable) (repo : Bytes) (locks : List Lock) : Option LockTable :=
  addLockWrite D t repo (t (D.fold repo)) locks

/-- `Lock` with empty strings, storage.rs 397-405 and 423-431. -/
def emptyLock (D : DbExt) : Lock := { id := [], path := [], owner := none, lockedAt := D.minTime }

/-- The loop of `lfs_delete_lock`, storage.rs 433-450: the lock to delete and the locks kept so far. -/
def deleteScan (id : Bytes) (force : Bool) : List Lock → Lock × List Lock → Option (Lock × List Lock)
  | [], acc => some acc
  | l :: ls, (del, new) =>
    if l.id = id then
      if l.owner.isSome && !force then none else deleteScan id force ls (l, new)
    else if l.id.length > 0 then deleteScan id force ls (del, new ++ [l])
    else deleteScan id force ls (del, new)

/-- `lfs_delete_lock` after reading the row, storage.rs 408-479. The row has been read as `row`; the write goes to `t`. -/
def deleteLockWrite (D : DbExt) (t : LockTable) (repo : Bytes) (row : Option (List Lock)) (id : Bytes) (force : Bool) :
    Option (Lock × LockTable) :=
  match row with
  | none => none
  | some old =>
    match deleteScan id force old (emptyLock D, []) with
    | none => none
    | some (del, new) =>
      if del.id = [] then none
      else if new = [] then some (del, setAt t (D.fold repo) none)
      else match updateRow D t repo new with
        | some t' => some (del, t')
        | none => none

/-- `lfs_delete_lock`, storage.rs 390-479: `none` is `Err`. -/
def lfsDeleteLock (D : DbExt) (t : LockTable) (repo id : Bytes) (force : Bool) : Option (Lock × LockTable) :=
  deleteLockWrite D t repo (t (D.fold repo)) id force

/-! ## Handlers (requests already parsed; a malformed JSON body panics in all of them) -/

/-- `LockListQuery`, structs.rs 165-172. -/
structure LockListQuery where
  path : Option Bytes := none
  id : Option Bytes := none
  cursor : Option Bytes := none
  limit : Option Bytes := none
  refspec : Option Bytes := none

/-- `lfs_retrieve_lock`, http.rs 23-80: `cursor` and `limit` are read from `path`. -/
def retrieveLock (D : DbExt) (t : LockTable) (q : LockListQuery) : Reply (List Lock × Bytes) :=
  let repo := q.refspec.getD []
  let path := q.path.getD []
  let cursor := q.path.getD []
  let limit := q.path.getD []
  match lfsGetFilteredLocks D t repo path cursor limit with
  | .ok r => .ok r
  | .err _ => .status 500
  | _ => .panic

/-- `VerifiableLockList`, structs.rs 158-163. -/
structure VerifiableLockList where
  ours : List Lock
  theirs : List Lock
  next : Bytes
  deriving DecidableEq, Repr

/-- `lfs_verify_lock`, http.rs 82-156. -/
def verifyLock (D : DbExt) (t : LockTable) (refName : Bytes) (cursor : Option Bytes) (limit : Option Int) :
    Reply VerifiableLockList :=
  let limit := limit.getD 0
  let limit := if limit = 0 then 100 else limit
  match lfsGetFilteredLocks D t refName [] (cursor.getD []) (i64Str limit) with
  | .ok (locks, next) =>
    .ok { ours := locks.filter (fun l => l.owner.isNone), theirs := locks.filter (fun l => l.owner.isSome), next := next }
  | .err _ => .status 500
  | _ => .panic

/-- The new lock, http.rs 208-224: `id` from the random number generator, `now` from the clock. -/
def newLock (path id now : Bytes) : Lock := { id := id, path := path, owner := none, lockedAt := now }

/-- `lfs_create_lock`, http.rs 158-246. -/
def createLock (D : DbExt) (t : LockTable) (refName path id now : Bytes) : Reply Lock × LockTable :=
  match lfsGetFilteredLocks D t refName path [] (ascii "1") with
  | .ok (locks, _) =>
    if locks.length > 0 then (.status 409, t)
    else match lfsAddLock D t refName [newLock path id now] with
      | some t' => (.ok (newLock path id now), t')
      | none => (.status 500, t)
  | .err _ => (.status 500, t)
  | _ => (.panic, t)

/-- The reply of `lfs_delete_lock`, http.rs 290-331. -/
def deleteReply (D : DbExt) (l : Lock) : Reply Lock :=
  if l.id = [] ∧ l.path = [] ∧ l.owner = none ∧ l.lockedAt = D.minTime then .status 404 else .ok l

/-- `lfs_delete_lock`, http.rs 248-332, `id` from the request path. -/
def deleteLock (D : DbExt) (t : LockTable) (refName id : Bytes) (force : Option Bool) : Reply Lock × LockTable :=
  if id = [] then (.status 400, t)
  else match lfsDeleteLock D t refName id (force.getD false) with
    | some (l, t') => (deleteReply D l, t')
    | none => (.status 500, t)

/-! ## Histories: requests one after the other -/

/-- A request on the lock routes together with the random id and the time the server will use. -/
inductive LockReq
  | create (refName path id now : Bytes)
  | delete (refName id : Bytes) (force : Option Bool)
  | list (q : LockListQuery)
  | verify (refName : Bytes) (cursor : Option Bytes) (limit : Option Int)

/-- The table after one request. -/
def LockReq.run (D : DbExt) (t : LockTable) : LockReq → LockTable
  | .create r p i n => (createLock D t r p i n).2
  | .delete r i f => (deleteLock D t r i f).2
  | .list _ => t
  | .verify _ _ _ => t

/-- The empty table. -/
def noLocks : LockTable := fun _ => none

/-- The table after a history. -/
def runLocks (D : DbExt) (h : List LockReq) : LockTable := h.foldl (LockReq.run D) noLocks

/-! ## Concurrent requests

The handlers run as tasks of a multi-threaded runtime; the database executes each statement atomically, in any order. A
creation has three statements (the check, the read and the write of `lfs_add_lock`), a deletion two. -/

/-- Where a request is. -/
inductive LockTask
  | create (refName path id now : Bytes)
  | createRead (refName : Bytes) (lock : Lock)
  | createWrite (refName : Bytes) (row : Option (List Lock)) (lock : Lock)
  | delete (refName id : Bytes) (force : Option Bool)
  | deleteWrite (refName : Bytes) (row : Option (List Lock)) (id : Bytes) (force : Option Bool)
  | done (r : Reply Lock)
  deriving DecidableEq, Repr

/-- The next database statement of a request. -/
def LockTask.step (D : DbExt) (t : LockTable) : LockTask → LockTask × LockTable
  | .create r p i n =>
    match lfsGetFilteredLocks D t r p [] (ascii "1") with
    | .ok (locks, _) => if locks.length > 0 then (.done (.status 409), t) else (.createRead r (newLock p i n), t)
    | .err _ => (.done (.status 500), t)
    | _ => (.done .panic, t)
  | .createRead r l => (.createWrite r (t (D.fold r)) l, t)
  | .createWrite r row l =>
    match addLockWrite D t r row [l] with
    | some t' => (.done (.ok l), t')
    | none => (.done (.status 500), t)
  | .delete r i f => if i = [] then (.done (.status 400), t) else (.deleteWrite r (t (D.fold r)) i f, t)
  | .deleteWrite r row i f =>
    match deleteLockWrite D t r row i (f.getD false) with
    | some (l, t') => (.done (deleteReply D l), t')
    | none => (.done (.status 500), t)
  | .done r => (.done r, t)

/-- Server state: the table and the requests received so far. -/
structure LockServer where
  table : LockTable
  tasks : List LockTask

/-- A new request arrives, or one request executes its next statement. -/
inductive LockServer.Step (D : DbExt) : LockServer → LockServer → Prop
  | recvCreate (s : LockServer) (r p i n : Bytes) : Step D s { s with tasks := s.tasks ++ [.create r p i n] }
  | recvDelete (s : LockServer) (r i : Bytes) (f : Option Bool) : Step D s { s with tasks := s.tasks ++ [.delete r i f] }
  | act (s : LockServer) (k : Nat) (task : LockTask) : s.tasks[k]? = some task →
      Step D s { table := (task.step D s.table).2, tasks := s.tasks.set k (task.step D s.table).1 }

/-- Reachable server states. -/
inductive LockServer.Reach (D : DbExt) : LockServer → Prop
  | init : Reach D { table := noLocks, tasks := [] }
  | step (s s' : LockServer) : Reach D s → LockServer.Step D s s' → Reach D s'

end Gust

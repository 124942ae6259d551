import Verif.Model.LfsLock

/-! # Lock requests while the database fails

`Model/LfsLock` has a database that refuses rows only because of their contents, always the same ones. Here statements may fail at any time. -/

namespace Gust

/-- What the database does during one request: which rows the INSERT and UPDATE statements on table `locks` may write (besides the limits of the table), and whether a DELETE statement is carried out. -/
structure LockFault where
  fits : Bytes → List Lock → Bool
  deletes : Bool

/-- The database during the request. -/
def DbExt.under (D : DbExt) (f : LockFault) : DbExt := { D with locksFit := fun r l => D.locksFit r l && f.fits r l }

/-- Whether `lfs_delete_lock` comes to its DELETE statement, `/repo/src/gust/driver/database/mysql/storage.rs` 411-457: the lock is found, and no other lock remains. -/
def removesRow (D : DbExt) (t : LockTable) (repo id : Bytes) (force : Bool) : Bool :=
  match t (D.fold repo) with
  | none => false
  | some old =>
    match deleteScan id force old (emptyLock D, []) with
    | none => false
    | some (del, new) => decide (del.id ≠ []) && decide (new = [])

/-- `lfs_delete_lock` of `/repo/src/git/lfs/http.rs` 248-332: the result of the DELETE statement is unwrapped (storage.rs 457-460), that of the UPDATE statement is looked at (storage.rs 470-474). -/
def deleteLockUnder (D : DbExt) (f : LockFault) (t : LockTable) (refName id : Bytes) (force : Option Bool) : Reply Lock × LockTable :=
  if id ≠ [] ∧ f.deletes = false ∧ removesRow D t refName id (force.getD false) = true then (.panic, t)
  else deleteLock (D.under f) t refName id force

/-- One request: the reply of the requests that change locks, and the table. For `lfs_create_lock`, http.rs 158-246, a failing statement is like one that is refused because of its contents (storage.rs 361-365, 381-385). -/
def LockReq.under (D : DbExt) (f : LockFault) (t : LockTable) : LockReq → Option (Reply Lock) × LockTable
  | .create r p i n => let x := createLock (D.under f) t r p i n; (some x.1, x.2)
  | .delete r i g => let x := deleteLockUnder D f t r i g; (some x.1, x.2)
  | .list _ => (none, t)
  | .verify _ _ _ => (none, t)

/-- A history: the requests with their replies, and the table afterwards. -/
def runUnder (D : DbExt) : LockTable → List (LockFault × LockReq) → List (LockReq × Option (Reply Lock)) × LockTable
  | t, [] => ([], t)
  | t, (f, q) :: h => ((q, (q.under D f t).1) :: (runUnder D (q.under D f t).2 h).1, (runUnder D (q.under D f t).2 h).2)

end Gust

import Verif.Model.LocksFail

/-! # Lock requests while answers of the database are lost

In `Model/LocksFail` a statement that fails has no effect. Here a statement may also be carried out without the server learning of it: the connection to the database breaks before the answer, or, for an UPDATE statement, the SELECT
statement fails by which sea-orm reads the row back (`ActiveModelTrait::update` on MySQL, which has no `RETURNING`). And SELECT statements may fail. -/

namespace Gust

/-- What the database does during one request: as in `LockFault`; whether SELECT statements are answered; whether the answer to the INSERT, UPDATE or DELETE statement is lost. -/
structure LockTrouble extends LockFault where
  reads : Bool
  lost : Bool

/-- `lfs_create_lock`, `/repo/src/git/lfs/http.rs` 158-246: the results of the SELECT statements are unwrapped (`/repo/src/gust/driver/database/mysql/storage.rs` 259-262 and 335-338), before anything is written;
an INSERT or UPDATE statement whose answer is lost is answered with status 500 (storage.rs 362-366 and 381-385, http.rs 224-233). -/
def createLockLost (D : DbExt) (f : LockTrouble) (t : LockTable) (r p i n : Bytes) : Reply Lock × LockTable :=
  if f.reads = false then (.panic, t)
  else
    let x := createLock (D.under f.toLockFault) t r p i n
    match x.1, f.lost with
    | .ok _, true => (.status 500, x.2)
    | _, _ => x

/-- `lfs_delete_lock`, http.rs 248-332: the SELECT statement and the DELETE statement are unwrapped (storage.rs 406-409, 457-460), the result of the UPDATE statement is looked at (storage.rs 470-474). -/
def deleteLockLost (D : DbExt) (f : LockTrouble) (t : LockTable) (r i : Bytes) (g : Option Bool) : Reply Lock × LockTable :=
  if i ≠ [] ∧ f.reads = false then (.panic, t)
  else
    let x := deleteLockUnder D f.toLockFault t r i g
    match x.1, f.lost with
    | .ok _, true => (if removesRow D t r i (g.getD false) then .panic else .status 500, x.2)
    | _, _ => x

/-- One request: the reply of the requests that change locks, and the table. -/
def LockReq.lost (D : DbExt) (f : LockTrouble) (t : LockTable) : LockReq → Option (Reply Lock) × LockTable
  | .create r p i n => let x := createLockLost D f t r p i n; (some x.1, x.2)
  | .delete r i g => let x := deleteLockLost D f t r i g; (some x.1, x.2)
  | .list _ => (none, t)
  | .verify _ _ _ => (none, t)

/-- The table after a history. -/
def runLost (D : DbExt) (t : LockTable) (h : List (LockTrouble × LockReq)) : LockTable := h.foldl (fun t x => (x.2.lost D x.1 t).2) t

end Gust

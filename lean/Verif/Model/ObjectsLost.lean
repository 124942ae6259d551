import Verif.Model.ObjectsFail

/-! # Requests for LFS objects while answers of the database are lost

In `Model/ObjectsFail` a statement that fails has no effect, and SELECT statements do not fail. Here a statement may also be carried out without the server learning of it, and SELECT statements may fail. -/

namespace Gust

/-- What the database does during one request: as in `MetaFault`; for batch requests, after how many objects the request ends because a SELECT statement fails or because the answer to an INSERT statement is lost (`none`: it does
not); for uploads, whether the SELECT statement is answered, and whether the answer to a DELETE statement is lost. -/
structure MetaTrouble extends MetaFault where
  upto : Option Nat
  reads : Bool
  lost : Bool

/-- `lfs_upload_object`, `/repo/src/git/lfs/http.rs` 421-468: the result of the SELECT statement is unwrapped (`/repo/src/gust/driver/database/mysql/storage.rs` 198-201) after the directory of the store has been made (http.rs 439) and before
anything is written; the result of `lfs_delete_meta` is unwrapped too (http.rs 457). -/
def uploadLost (D : DbExt) (E : StoreExt) (f : MetaTrouble) (s : LfsState) (oid body : Bytes) : Reply Unit × LfsState :=
  if f.reads = false then (.panic, { s with disk := (storeNew E s.disk).1 })
  else
    let x := uploadUnder D E f.toMetaFault s oid body
    if x.1 = .status 406 ∧ f.lost = true then (.panic, x.2) else x

/-- The state after a request. `lfs_process_batch`, http.rs 334-419, handles the objects one after the other and unwraps the results of all statements (storage.rs 198-201 and 215-218, http.rs 384); the last object of the
handled ones may be recorded without an answer. -/
def LfsReq.lost (D : DbExt) (E : StoreExt) (f : MetaTrouble) (s : LfsState) : LfsReq → LfsState
  | .batch op vs =>
    match f.upto with
    | none => (processBatch (D.underMeta f.toMetaFault) E s op vs).2
    | some k => (processBatch (D.underMeta f.toMetaFault) E s op (vs.take k)).2
  | .upload oid body => (uploadLost D E f s oid body).2
  | .download oid => (downloadObject D E s oid).2

/-- The state after a history. -/
def lfsLost (D : DbExt) (E : StoreExt) (s : LfsState) (h : List (MetaTrouble × LfsReq)) : LfsState := h.foldl (fun s x => x.2.lost D E x.1 s) s

end Gust

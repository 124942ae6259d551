import Verif.Model.Headers

/-! # The bodies of error replies -/

namespace Gust

/-- The text of the refusals of `lfs_create_lock`, `/repo/src/git/lfs/http.rs` 197-206 and 226-234: a lock in the way, a failed listing, or a failed write. -/
def createLockText (D : DbExt) (t : LockTable) (refName path : Bytes) : Bytes :=
  match lfsGetFilteredLocks D t refName path [] (ascii "1") with
  | .ok (locks, _) => if locks.length > 0 then ascii "Lock already exist" else ascii "Failed when adding locks!"
  | _ => ascii "Failed when filtering locks!"

/-- The text of the refusals of `lfs_delete_lock`, http.rs 271-280, 307-321. -/
def deleteLockText (D : DbExt) (t : LockTable) (id body : Bytes) (refName : Bytes) (force : Option Bool) : Bytes :=
  if id = [] then ascii "Invalid lock id!"
  else if body = [] then ascii "Deserialize operation failed!"
  else match lfsDeleteLock D t refName id (force.getD false) with
    | none => ascii "Delete operation failed!"
    | some _ => ascii "Unable to find lock!"

/-- The body of the error reply to a request in a state: the text of the `Err((StatusCode, String))` of the handler, http.rs 66-69 (list), 136-139 (verify), 457-461 (upload),
`/repo/src/gateway/api/lib.rs` 110-113 and 145-148 (GET), 186-189 (POST), 211-214 (PUT). The other handlers have no error of their own, and the 404 and 405 of axum have no body. -/
def errorBody (P : ServerExt) (s : ServerState) (r : HttpReq) : Bytes :=
  match route r.method r.path r.service with
  | .listLocks | .verifyLocks => ascii "Lookup operation failed!"
  | .createLock =>
    match P.J.lock r.body with
    | some (refName, path) => createLockText P.D s.locks refName path
    | none => []
  | .deleteLock id =>
    match P.J.unlock r.body with
    | some (refName, force) => deleteLockText P.D s.locks id r.body refName force
    | none => deleteLockText P.D s.locks id [] [] none
  | .upload _ => ascii "Header not acceptable!"
  | .forbidden => if r.method = .get then ascii "Operation not supported\n" else ascii "Operation not supported"
  | _ => []

/-- The body of a reply that is an error. -/
def errorText (P : ServerExt) (m : Moment) (s : ServerState) (r : HttpReq) : Option Bytes :=
  match (serve P m s r).1 with
  | .reply (.status _) => some (errorBody P s r)
  | _ => none

end Gust

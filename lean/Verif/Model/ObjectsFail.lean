import Verif.Model.LfsStore

/-! # Requests for LFS objects while the database fails

In `Model/LfsStore` the table `meta` refuses rows only because of their contents, always the same ones. Here statements may fail at any time. -/

namespace Gust

/-- What the database does during one request: which rows the INSERT statements on table `meta` may write (besides the limits of the table), and whether a DELETE statement is carried out. -/
structure MetaFault where
  fits : Bytes → Int → Bool
  deletes : Bool

/-- The database during the request. -/
def DbExt.underMeta (D : DbExt) (f : MetaFault) : DbExt := { D with metaFits := fun o n => D.metaFits o n && f.fits o n }

/-- `lfs_upload_object`, `/repo/src/git/lfs/http.rs` 421-468: when the content is not accepted, the row is deleted (lines 455-461), and the result of the DELETE statement is unwrapped. -/
def uploadUnder (D : DbExt) (E : StoreExt) (f : MetaFault) (s : LfsState) (oid body : Bytes) : Reply Unit × LfsState :=
  let x := uploadObject (D.underMeta f) E s oid body
  if x.1 = .status 406 ∧ f.deletes = false then (.panic, { x.2 with metas := s.metas }) else x

/-- The state after a request. In a batch (http.rs 384) the result of storing a row is unwrapped, as in `batchOne`. -/
def LfsReq.under (D : DbExt) (E : StoreExt) (f : MetaFault) (s : LfsState) : LfsReq → LfsState
  | .batch op vs => (processBatch (D.underMeta f) E s op vs).2
  | .upload oid body => (uploadUnder D E f s oid body).2
  | .download oid => (downloadObject D E s oid).2

/-- The state after a history. -/
def lfsUnder (D : DbExt) (E : StoreExt) (s : LfsState) (h : List (MetaFault × LfsReq)) : LfsState := h.foldl (fun s x => x.2.under D E x.1 s) s

end Gust

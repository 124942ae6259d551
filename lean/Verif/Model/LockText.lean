import Verif.Model.Json

/-! # The table of locks as it is stored: the lock functions of `/repo/src/gust/driver/database/mysql/storage.rs` with the texts of the column `data`

`Model/LfsLock.lean` keeps the lists of locks themselves. Here the column holds the text, and every function reads and writes it as the code does. Everything else is that of `Model/LfsLock.lean`. -/

namespace Gust

/-- The table `locks`: for each primary key (canonical form) the column `data`. -/
abbrev TextTable := Bytes → Option Bytes

/-- What the database refuses, told from the text. -/
abbrev TextFit := Bytes → Bytes → Bool

/-- `lfs_get_locks`, storage.rs 258-272: `none` is `Err`; a text that is no list of locks panics. -/
def textGetLocks (D : DbExt) (t : TextTable) (refspec : Bytes) : Res (Option (List Lock)) :=
  match t (D.fold refspec) with
  | none => .ok none
  | some data =>
    match readLocks data with
    | some ls => .ok (some ls)
    | none => .panic

/-- `lfs_get_filtered_locks`, storage.rs 274-332. -/
def textFilteredLocks (D : DbExt) (t : TextTable) (refspec path cursor limit : Bytes) : Res (List Lock × Bytes) := do
  let locks ← textGetLocks D t refspec
  let locks ← fromCursor (locks.getD []) cursor
  cutPage (onlyPath locks path) limit

/-- The row that `lfs_add_lock` and `lfs_delete_lock` have read, storage.rs 343-349 and 414-420: the empty text stands for no locks. -/
def textRow (data : Bytes) : Option (List Lock) := if data = [] then some [] else readLocks data

/-- `UPDATE locks SET data = …`. -/
def textUpdate (D : DbExt) (F : TextFit) (t : TextTable) (repo data : Bytes) : Option TextTable :=
  if (t (D.fold repo)).isSome && F repo data then some (setAt t (D.fold repo) (some data)) else none

/-- `INSERT INTO locks …`. -/
def textInsert (D : DbExt) (F : TextFit) (t : TextTable) (repo data : Bytes) : Option TextTable :=
  if (t (D.fold repo)).isNone && F repo data then some (setAt t (D.fold repo) (some data)) else none

/-- `lfs_add_lock`, storage.rs 334-388: `none` is `Err`. -/
def textAddLock (D : DbExt) (F : TextFit) (t : TextTable) (repo : Bytes) (locks : List Lock) : Res (Option TextTable) :=
  match t (D.fold repo) with
  | some data =>
    match textRow data with
    | some old => .ok (textUpdate D F t repo (jsonLocks (sortLocks (old ++ locks))))
    | none => .panic
  | none => .ok (textInsert D F t repo (jsonLocks (sortLocks locks)))

/-- `lfs_delete_lock`, storage.rs 390-479: `none` is `Err`. -/
def textDeleteLock (D : DbExt) (F : TextFit) (t : TextTable) (repo id : Bytes) (force : Bool) : Res (Option (Lock × TextTable)) :=
  match t (D.fold repo) with
  | none => .ok none
  | some data =>
    match textRow data with
    | none => .panic
    | some old =>
      match deleteScan id force old (emptyLock D, []) with
      | none => .ok none
      | some (del, new) =>
        if del.id = [] then .ok none
        else if new = [] then .ok (some (del, setAt t (D.fold repo) none))
        else match textUpdate D F t repo (jsonLocks new) with
          | some t' => .ok (some (del, t'))
          | none => .ok none

/-- `lfs_retrieve_lock`, http.rs 23-80. -/
def textRetrieve (D : DbExt) (t : TextTable) (q : LockListQuery) : Reply (List Lock × Bytes) :=
  let repo := q.refspec.getD []
  let path := q.path.getD []
  match textFilteredLocks D t repo path path path with
  | .ok r => .ok r
  | .err _ => .status 500
  | _ => .panic

/-- `lfs_verify_lock`, http.rs 82-156. -/
def textVerify (D : DbExt) (t : TextTable) (refName : Bytes) (cursor : Option Bytes) (limit : Option Int) : Reply VerifiableLockList :=
  let limit := limit.getD 0
  let limit := if limit = 0 then 100 else limit
  match textFilteredLocks D t refName [] (cursor.getD []) (i64Str limit) with
  | .ok (locks, next) => .ok { ours := locks.filter (fun l => l.owner.isNone), theirs := locks.filter (fun l => l.owner.isSome), next := next }
  | .err _ => .status 500
  | _ => .panic

/-- `lfs_create_lock`, http.rs 158-246. -/
def textCreate (D : DbExt) (F : TextFit) (t : TextTable) (refName path id now : Bytes) : Reply Lock × TextTable :=
  match textFilteredLocks D t refName path [] (ascii "1") with
  | .ok (locks, _) =>
    if locks.length > 0 then (.status 409, t)
    else match textAddLock D F t refName [newLock path id now] with
      | .ok (some t') => (.ok (newLock path id now), t')
      | .ok none => (.status 500, t)
      | _ => (.panic, t)
  | .err _ => (.status 500, t)
  | _ => (.panic, t)

/-- `lfs_delete_lock`, http.rs 248-332. -/
def textDelete (D : DbExt) (F : TextFit) (t : TextTable) (refName id : Bytes) (force : Option Bool) : Reply Lock × TextTable :=
  if id = [] then (.status 400, t)
  else match textDeleteLock D F t refName id (force.getD false) with
    | .ok (some (l, t')) => (deleteReply D l, t')
    | .ok none => (.status 500, t)
    | _ => (.panic, t)

/-- The table after one request. -/
def LockReq.runText (D : DbExt) (F : TextFit) (t : TextTable) : LockReq → TextTable
  | .create r p i n => (textCreate D F t r p i n).2
  | .delete r i f => (textDelete D F t r i f).2
  | .list _ => t
  | .verify _ _ _ => t

/-- The table after a history. -/
def runText (D : DbExt) (F : TextFit) (h : List LockReq) : TextTable := h.foldl (LockReq.runText D F) (fun _ => none)

end Gust

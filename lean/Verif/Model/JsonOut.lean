import Verif.Model.Json

/-! # The bodies of the replies of the LFS API: `serde_json::to_string` of the structs of `/repo/src/git/lfs/structs.rs` -/

namespace Gust

/-- A struct: the fields in their order, no white space. -/
def jsonObj (ms : List (Bytes × Bytes)) : Bytes :=
  ascii "{" ++ (ascii ",").intercalate (ms.map (fun m => jsonText m.1 ++ ascii ":" ++ m.2)) ++ ascii "}"

/-- A `Vec`. -/
def jsonArr (ts : List Bytes) : Bytes := ascii "[" ++ (ascii ",").intercalate ts ++ ascii "]"

/-- An `i64`. -/
def jsonInt (n : Int) : Bytes := i64Str n

/-- `Link`, structs.rs 76-81, as `represent` fills it, http.rs 519-573: `authorization` is always empty (http.rs 357-359), so there is one header. `expires` is the time in a day. -/
def jsonLink (expires href : Bytes) : Bytes :=
  jsonObj [(ascii "href", jsonText href), (ascii "header", jsonObj [(ascii "Accept", jsonText (ascii "application/vnd.git-lfs"))]), (ascii "expires_at", jsonText expires)]

/-- `Representation`, structs.rs 89-99: fields that are `None` are left out. -/
def jsonRep (expires : Bytes) (r : Rep) : Bytes :=
  jsonObj ([(ascii "oid", jsonText r.oid), (ascii "size", jsonInt r.size)] ++
    match r.offer with
    | .download href => [(ascii "authenticated", ascii "true"), (ascii "actions", jsonObj [(ascii "download", jsonLink expires href)])]
    | .upload href => [(ascii "authenticated", ascii "true"), (ascii "actions", jsonObj [(ascii "upload", jsonLink expires href)])]
    | .error code => [(ascii "error", jsonObj [(ascii "code", jsonInt code), (ascii "message", jsonText (ascii "Not found"))])])

/-- The body of a successful reply: `LockResponse` and `UnlockResponse` (structs.rs 126-130, 139-143; http.rs 238-242, 323-328), `LockList` (145-149; http.rs 60-75), `VerifiableLockList` (159-164;
http.rs 132-151), `BatchResponse` (69-74; http.rs 401-407). -/
def replyText (expires : Bytes) : Payload → Bytes
  | .bytes b => b
  | .lock l => jsonObj [(ascii "lock", jsonLock l), (ascii "message", jsonText [])]
  | .locks ls next => jsonObj [(ascii "locks", jsonLocks ls), (ascii "next_cursor", jsonText next)]
  | .verified v => jsonObj [(ascii "ours", jsonLocks v.ours), (ascii "theirs", jsonLocks v.theirs), (ascii "next_cursor", jsonText v.next)]
  | .objects rs => jsonObj [(ascii "transfer", jsonText (ascii "basic")), (ascii "objects", jsonArr (rs.map (jsonRep expires))), (ascii "hash_algo", jsonText (ascii "sha256"))]

end Gust

import Verif.Model.LfsStore

/-! # Which handler a request reaches, and which repository path it gets

`/repo/src/gateway/api/lib.rs` (HTTP) and `SshServer::handle_git_command` of `/repo/src/git/protocol/ssh.rs` (SSH). -/

namespace Gust

/-- `str::replace(pat, "")` for a non-empty pattern: the leftmost occurrence is removed and the search goes on behind it.
The number counts the bytes of the last occurrence still to be skipped. -/
def removeGo (pat : Bytes) : Nat → Bytes → Bytes
  | _, [] => []
  | k + 1, _ :: s => removeGo pat k s
  | 0, c :: s => if pat.isPrefixOf (c :: s) then removeGo pat (pat.length - 1) s else c :: removeGo pat 0 s

/-- `str::replace(pat, "")`. -/
def removeAll (pat s : Bytes) : Bytes := removeGo pat 0 s

/-- `remove_git_suffix`, lib.rs 44-46; the argument is `uri.path()`, the path of the request line as sent (percent-encoded,
without query). -/
def removeGitSuffix (path suffix : Bytes) : Bytes := removeAll suffix (removeAll (ascii ".git") path)

/-- `Regex::new(r"…$").is_match(path)` for a literal. -/
def endsWith (path lit : Bytes) : Bool := lit.isSuffixOf path

/-- The class `[a-z0-9]` of the pattern in lib.rs 88 and 201. -/
def isOidByte (b : UInt8) : Bool := (0x61 ≤ b && b ≤ 0x7a) || (0x30 ≤ b && b ≤ 0x39)

/-- `Regex::new(r"/objects/[a-z0-9]+$").is_match(path)`, lib.rs 88 and 201: since `/` is not in the class, what the class
matches is the whole run of such bytes at the end. -/
def matchObjects (path : Bytes) : Bool :=
  let run := path.reverse.takeWhile isOidByte
  let rest := (path.reverse.dropWhile isOidByte).reverse
  run ≠ [] && endsWith rest (ascii "/objects/")

/-- Where a request goes: the handlers called in lib.rs 79-216, with the parameters taken from the path. -/
inductive Route
  /-- `lfs_download_object`, 96 -/
  | download (oid : Bytes)
  /-- `lfs_retrieve_lock`, 106 -/
  | listLocks
  /-- `git_info_refs` of a repository path, 116-143 -/
  | infoRefs (repo : Bytes) (service : ServiceType)
  /-- `lfs_verify_lock`, 162 -/
  | verifyLocks
  /-- `lfs_create_lock`, 164 -/
  | createLock
  /-- `lfs_delete_lock`, 170 -/
  | deleteLock (id : Bytes)
  /-- `lfs_process_batch`, 172 -/
  | batch
  /-- `git_upload_pack` of a repository path, 179 -/
  | uploadPack (repo : Bytes)
  /-- `git_receive_pack` of a repository path, 184 -/
  | receivePack (repo : Bytes)
  /-- `lfs_upload_object`, 209 -/
  | upload (oid : Bytes)
  /-- status 403 -/
  | forbidden
  /-- status 404, given by axum -/
  | notFound
  /-- status 405, given by axum -/
  | methodNotAllowed
  /-- the handler panics -/
  | crash
  deriving DecidableEq, Repr

/-- `tokens[tokens.len() - 1 - k]` for the pieces of the path between slashes, lib.rs 94-96, 168-170, 207-209; the index is in
range for `k ≤ 1` because the path contains a slash there. -/
def token (path : Bytes) (k : Nat) : Route ⊕ Bytes :=
  match (splitOn 0x2f path).reverse[k]? with
  | some t => .inr t
  | none => .inl .crash

/-- The handler called with a token of the path. -/
def withToken (path : Bytes) (k : Nat) (f : Bytes → Route) : Route :=
  match token path k with
  | .inr t => f t
  | .inl r => r

/-- `get_method_router`, lib.rs 79-150; `service` is the query parameter (`unwrap` panics without it). The other query
parameters only go into the list of locks. -/
def getRoute (path : Bytes) (service : Option Bytes) : Route :=
  if matchObjects path then withToken path 0 .download
  else if endsWith path (ascii "/locks") then .listLocks
  else if !endsWith path (ascii "/info/refs") then .forbidden
  else
    match service with
    | none => .crash
    | some s =>
      match ServiceType.fromStr s with
      | some t => .infoRefs (removeGitSuffix path (ascii "/info/refs")) t
      | none => .forbidden

/-- `post_method_router`, lib.rs 152-191. -/
def postRoute (path : Bytes) : Route :=
  if endsWith path (ascii "/locks/verify") then .verifyLocks
  else if endsWith path (ascii "/locks") then .createLock
  else if endsWith path (ascii "/unlock") then withToken path 1 .deleteLock
  else if endsWith path (ascii "/objects/batch") then .batch
  else if endsWith path (ascii "/git-upload-pack") then .uploadPack (removeGitSuffix path (ascii "/git-upload-pack"))
  else if endsWith path (ascii "/git-receive-pack") then .receivePack (removeGitSuffix path (ascii "/git-receive-pack"))
  else .forbidden

/-- `put_method_router`, lib.rs 193-216. -/
def putRoute (path : Bytes) : Route :=
  if matchObjects path then withToken path 0 .upload else .forbidden

/-- Request methods that the router of lib.rs 63-69 tells apart (axum answers `HEAD` like `GET` without the body). -/
inductive Method
  | get
  | post
  | put
  | other
  deriving DecidableEq, Repr

/-- `Router::new().route("/*path", get(…).post(…).put(…))`, lib.rs 63-69. The pattern matches every path except `/` alone
(axum: a wildcard does not match an empty segment). -/
def route (m : Method) (path : Bytes) (service : Option Bytes) : Route :=
  if path = ascii "/" then .notFound
  else
    match m with
    | .get => getRoute path service
    | .post => postRoute path
    | .put => putRoute path
    | .other => .methodNotAllowed

/-- `&s[a..b]`: panics when the ends are out of order, outside, or inside a character. -/
def strSlice (s : Bytes) (a b : Nat) : Res Bytes :=
  if a ≤ b ∧ b ≤ s.length ∧ isBoundary s a ∧ isBoundary s b then .ok ((s.take b).drop a) else .panic

/-- `handle_git_command`, ssh.rs 141-157, up to the call of `git_info_refs`, which panics when the service is unknown
(pack.rs 47): the repository path and the service. The argument is the command line already trimmed (ssh.rs 65).
`path.len() - 5` panics on short paths (overflow check; without it the slice panics). -/
def sshCommand (command : Bytes) : Res (Bytes × ServiceType) := do
  let words := splitOn 0x20 command
  let path ← Res.unwrapOpt words[1]?
  if path.length < (ascii ".git'").length then .panic
  else do
    let repo ← strSlice path 2 (path.length - (ascii ".git'").length)
    let name ← Res.unwrapOpt words[0]?
    let service ← Res.unwrapOpt (ServiceType.fromStr name)
    pure (repo, service)

end Gust

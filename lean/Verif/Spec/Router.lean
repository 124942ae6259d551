import Verif.Model.Router
import Verif.Spec.LfsStore

/-! # What C56 and C57 ask for -/

namespace Gust

/-- The documented endpoints, for every repository prefix: smart HTTP of git (`info/refs`, `git-upload-pack`,
`git-receive-pack`) and the LFS API (`objects/batch`, `objects/{oid}`, `locks`, `locks/verify`, `locks/{id}/unlock`), with the
query parameter `service`, and what the handler must be given. Which repository the git endpoints mean is left to C56. -/
inductive Spec.Endpoint : Method → Bytes → Option Bytes → (Route → Prop) → Prop
  | download (pre oid : Bytes) (s : Option Bytes) (h : Spec.RouteOid oid) :
    Endpoint .get (pre ++ ascii "/objects/" ++ oid) s (· = .download oid)
  | listLocks (pre : Bytes) (s : Option Bytes) : Endpoint .get (pre ++ ascii "/locks") s (· = .listLocks)
  | infoRefs (pre : Bytes) (t : ServiceType) :
    Endpoint .get (pre ++ ascii "/info/refs") (some t.display) (fun r => ∃ repo, r = .infoRefs repo t)
  | verifyLocks (pre : Bytes) (s : Option Bytes) : Endpoint .post (pre ++ ascii "/locks/verify") s (· = .verifyLocks)
  | createLock (pre : Bytes) (s : Option Bytes) : Endpoint .post (pre ++ ascii "/locks") s (· = .createLock)
  | deleteLock (pre id : Bytes) (s : Option Bytes) (h : (0x2f : UInt8) ∉ id) :
    Endpoint .post (pre ++ ascii "/locks/" ++ id ++ ascii "/unlock") s (· = .deleteLock id)
  | batch (pre : Bytes) (s : Option Bytes) : Endpoint .post (pre ++ ascii "/objects/batch") s (· = .batch)
  | uploadPack (pre : Bytes) (s : Option Bytes) :
    Endpoint .post (pre ++ ascii "/git-upload-pack") s (fun r => ∃ repo, r = .uploadPack repo)
  | receivePack (pre : Bytes) (s : Option Bytes) :
    Endpoint .post (pre ++ ascii "/git-receive-pack") s (fun r => ∃ repo, r = .receivePack repo)
  | upload (pre oid : Bytes) (s : Option Bytes) (h : Spec.RouteOid oid) :
    Endpoint .put (pre ++ ascii "/objects/" ++ oid) s (· = .upload oid)

/-- A repository URL (path part) in which none of the texts the server cuts out occurs. -/
structure Spec.CleanUrl (u : Bytes) : Prop where
  git : ¬ ascii ".git" <:+: u
  refs : ¬ ascii "/info/refs" <:+: u
  upload : ¬ ascii "/git-upload-pack" <:+: u
  receive : ¬ ascii "/git-receive-pack" <:+: u

/-- The repository path the server uses for a request, if the request is for a repository. -/
def Spec.RepoOf : Route → Option Bytes
  | .infoRefs r _ => some r
  | .uploadPack r => some r
  | .receivePack r => some r
  | _ => none

/-- The requests a git client makes for the repository with URL path `u`. -/
inductive Spec.GitRequest (u : Bytes) : Method → Bytes → Option Bytes → Prop
  | discover (t : ServiceType) : GitRequest u .get (u ++ ascii "/info/refs") (some t.display)
  | fetch (s : Option Bytes) : GitRequest u .post (u ++ ascii "/git-upload-pack") s
  | push (s : Option Bytes) : GitRequest u .post (u ++ ascii "/git-receive-pack") s

/-- The command line a git client sends over SSH for the repository path `/q` (no quotes inside). -/
def Spec.sshLine (t : ServiceType) (path : Bytes) : Bytes := t.display ++ ascii " '" ++ path ++ ascii "'"

end Gust

import Verif.Model.Ssh

/-! # The HTTP server and the SSH server on one database

`gust` is started as HTTP server (`/repo/src/gateway/api/lib.rs` 48-76) or as SSH server (`/repo/src/gateway/ssh_server.rs` 22-50); each opens its own connection to
the database that the environment names (`mysql::init()`, lib.rs 50, ssh_server.rs 36; `/repo/src/gust/driver/database/mysql/mod.rs`), and the repositories are kept nowhere else.
Here both are running; the handling of one request or message does not overlap with that of another. -/

namespace Gust

/-- A request to the HTTP server, or a message on connection `i` of the SSH server. -/
inductive Visit
  | http (r : HttpReq)
  | ssh (i : Nat) (e : SshEvent)

/-- The state of both servers: the database is in `web`. -/
structure Both where
  web : ServerState
  link : Nat → SshLink

/-- What the SSH server sees. -/
def Both.ssh (s : Both) : SshState := { db := s.web.db, link := s.link }

/-- One request or message. -/
def bothStep (P : ServerExt) (m : Moment) (s : Both) : Visit → Both
  | .http r => { s with web := (serve P m s.web r).2 }
  | .ssh i e => { web := { s.web with db := (sshStep P.X m s.ssh i e).2.db }, link := (sshStep P.X m s.ssh i e).2.link }

/-- A history of requests and messages. -/
abbrev BothHist := List (Moment × Visit)

/-- The state after a history. -/
def runBoth (P : ServerExt) (s : Both) (h : BothHist) : Both := h.foldl (fun s p => bothStep P p.1 s p.2) s

/-- An empty database, nobody connected. -/
def Both.empty : Both := { web := .empty, link := fun _ => .fresh }

end Gust

import Verif.Model.Both

/-! # Restarts

The servers are two processes (`/repo/src/main.rs` 83-90) that share the database and the directory of large files. What a process keeps
in memory is lost when it is restarted. A restart comes between requests here; a server that is stopped while it works on one is the
subject of C141 and C142. The database and the disk are not restarted. -/

namespace Gust

/-- What may happen: a request or message, or the restart of a server. -/
inductive Happening
  | visit (v : Visit)
  | restartHttp
  | restartSsh

/-- One step. The HTTP server keeps nothing but its configuration and the connection to the database (`AppState`,
`/repo/src/gateway/api/lib.rs` 28-32 and 48-52), so that a restart changes nothing. The SSH server is made anew with no connections and without a
`pack_protocol` (`/repo/src/gateway/ssh_server.rs` 30-36). -/
def happen (P : ServerExt) (m : Moment) (s : Both) : Happening → Both
  | .visit v => bothStep P m s v
  | .restartHttp => s
  | .restartSsh => { s with link := fun _ => .fresh }

/-- A history with restarts. Connections are numbered. The counter of the server begins again at 0 after a restart (ssh_server.rs 34), which nobody can
see; here it is a matter of the history whether numbers occur again (`Spec.NotTaken`). -/
abbrev Happenings := List (Moment × Happening)

/-- The state after it. -/
def runAll (P : ServerExt) (s : Both) (h : Happenings) : Both := h.foldl (fun s p => happen P p.1 s p.2) s

/-- What the client gets: the outcome of a request, or what is sent on the connection of a message. -/
inductive Received
  | http (o : Outcome)
  | ssh (out : SshOut)

/-- The reply to a request or message. -/
def replyTo (P : ServerExt) (m : Moment) (s : Both) : Visit → Received
  | .http r => .http (serve P m s.web r).1
  | .ssh i e => .ssh (sshStep P.X m s.ssh i e).1

end Gust

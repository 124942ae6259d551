import Verif.Model.Workers
import Verif.Model.Both

/-! # The two processes that run the servers

`main` is started once with `http` and once with `ssh` (/repo/src/main.rs 83-90): two processes on one database, each a `#[tokio::main]` with its own worker threads (`Model/Workers`).
The messages of an SSH connection are handled in a task of its own (russh, `server::run`, called at /repo/src/gateway/ssh_server.rs 49), so that a handler that does not end keeps a worker of the SSH process.
A message on a connection whose handler is still at work waits. (External: tokio and russh.) -/

namespace Gust

/-- What a message does to the SSH process. -/
inductive SshFate
  /-- the handler ends; the worker is free again -/
  | handled
  /-- an earlier message of the connection is still being handled -/
  | waits
  /-- the worker never comes back -/
  | busy
  /-- the stack overflows; the process is aborted -/
  | overflow
  deriving DecidableEq, Repr

/-- As `fate`: the loop over the lines of a fetch, /repo/src/git/protocol/pack.rs 81-108, called from `handle_upload_pack` (ssh.rs 159-166), keeps its worker; everything else that does not end is recursion. -/
def sshFate (X : Ext) (m : Moment) (s : SshState) (i : Nat) (e : SshEvent) : SshFate :=
  match (sshStep X m s i e).2.link i with
  | .hung =>
    match s.link i, e with
    | .hung, _ => .waits
    | .ready (some p), .data _ bytes =>
      match p.service with
      | .uploadPack =>
        match fetchLoop (bytes.length + 1) { want := [], have_ := [], caps := p.caps, firstLine := true } bytes with
        | .spin => .busy
        | _ => .overflow
      | .receivePack => .overflow
    | _, _ => .overflow
  | _ => .handled

/-- How many workers of a process are taken for ever, and whether it was aborted. -/
structure Worn where
  taken : Nat := 0
  aborted : Bool := false

/-- A process with `W` workers that handles nothing any more. -/
def Worn.stopped (w : Worn) (W : Nat) : Prop := w.aborted = true ∨ W ≤ w.taken

instance (w : Worn) (W : Nat) : Decidable (w.stopped W) := inferInstanceAs (Decidable (_ ∨ _))

/-- Both processes and what they keep. -/
structure Duo where
  state : Both
  web : Worn := {}
  shell : Worn := {}

/-- What a client gets. -/
inductive Reaction
  | http (r : Reply Payload)
  | ssh (out : SshOut)

/-- A request or message to processes with `W` and `V` workers; `none`: nothing is sent, and the connection stays open for ever or is reset. -/
def Duo.handle (W V : Nat) (P : ServerExt) (m : Moment) (d : Duo) : Visit → Option Reaction × Duo
  | .http r =>
    if d.web.stopped W then (none, d)
    else
      let s := bothStep P m d.state (.http r)
      match fate P m d.state.web r with
      | .answered x => (some (.http x), { d with state := s })
      | .busy => (none, { d with state := s, web := { d.web with taken := d.web.taken + 1 } })
      | .overflow => (none, { d with state := s, web := { d.web with aborted := true } })
  | .ssh i e =>
    if d.shell.stopped V then (none, d)
    else
      let s := bothStep P m d.state (.ssh i e)
      match sshFate P.X m d.state.ssh i e with
      | .handled => (some (.ssh (sshStep P.X m d.state.ssh i e).1), { d with state := s })
      | .waits => (none, { d with state := s })
      | .busy => (none, { d with state := s, shell := { d.shell with taken := d.shell.taken + 1 } })
      | .overflow => (none, { d with state := s, shell := { d.shell with aborted := true } })

/-- The processes after a history. -/
def Duo.run (W V : Nat) (P : ServerExt) (d : Duo) (h : BothHist) : Duo :=
  h.foldl (fun d x => (d.handle W V P x.1 x.2).2) d

end Gust

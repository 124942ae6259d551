import Verif.Model.Server

/-! # The SSH server: `/repo/src/git/protocol/ssh.rs` behind `/repo/src/gateway/ssh_server.rs`

A connection is a clone of `SshServer` (`new_client`, ssh.rs 35-39); of its fields only `pack_protocol` ever changes, and on the
value that is cloned it is `None` (ssh_server.rs 36). Messages of one connection are handled one after the other (russh gives the
handler away and gets it back); here the handling of messages of different connections does not overlap in time either.

What russh does is assumed: a handler is called only on an authenticated connection; a handler that panics takes its own
connection down and no other. A handler that never ends leaves its connection without answers (it also keeps a worker thread of the
runtime busy for ever, which `Model/WorkersBoth` adds). -/

namespace Gust

/-- `PackProtocol`, `/repo/src/git/protocol/mod.rs` 19-30, as a connection keeps it between messages (the storage is shared). -/
structure SshProto where
  service : ServiceType
  path : Bytes
  caps : List Capability
  commands : List RefCommand
  deriving DecidableEq, Repr

/-- A connection: not yet authenticated; authenticated, with its `pack_protocol` field (ssh.rs 30); stuck in a handler; gone. -/
inductive SshLink
  | fresh
  | ready (proto : Option SshProto)
  | hung
  | closed
  deriving DecidableEq, Repr

/-- What a client does on a connection. Channels are numbered. The command of an exec request is given after
`String::from_utf8_lossy` and `trim` (ssh.rs 65). -/
inductive SshEvent
  | auth (user secret : Bytes)
  | exec (channel : Nat) (command : Bytes)
  | data (channel : Nat) (bytes : Bytes)
  deriving DecidableEq, Repr

/-- Everything the server keeps: the database and the connections by number (`self.id`, ssh.rs 29). -/
structure SshState where
  db : Db
  link : Nat → SshLink

/-- Bytes sent, with the channel. -/
abbrev SshOut := List (Nat × Bytes)

/-- `auth_publickey` and `auth_password`, ssh.rs 72-85: the answer to the given credentials. -/
def sshAccept (_user _secret : Bytes) : Bool := true

/-- `handle_upload_pack`, ssh.rs 159-185: everything sent and the capabilities kept. `git_upload_pack` (pack.rs 73-167) adds the
capabilities of the request to those that are already there. -/
def sshUploadPack (St : FetchStore) (ord : List Bytes → List Bytes) (cut : Bytes → List Bytes) (caps : List Capability) (data : Bytes) :
    Res (Bytes × List Capability) := do
  let (s, _) ← fetchLoop (data.length + 1) { want := [], have_ := [], caps := caps, firstLine := true } data
  let (pack, buf) ← fetchAnswer St s.caps (ord s.want) (ord s.have_)
  if utf8Valid buf then pure (buf ++ sendPack s.caps (cut pack), s.caps) else .panic

/-- The connection after a handler ended with `r`. -/
def Res.link {α : Type} (f : α → SshProto) : Res α → SshLink
  | .ok a => .ready (some (f a))
  | .spin => .hung
  | _ => .closed

/-- What is sent on a channel when a handler ended with `r`; nothing when there are no bytes (ssh.rs 199). -/
def Res.sent {α : Type} (channel : Nat) (f : α → Bytes) : Res α → SshOut
  | .ok a => if f a = [] then [] else [(channel, f a)]
  | _ => []

/-- `exec_request`, ssh.rs 59-70, with `handle_git_command`, ssh.rs 141-157. -/
def sshExec (X : Ext) (m : Moment) (db : Db) (channel : Nat) (command : Bytes) : SshOut × SshLink × Db :=
  match sshCommand command with
  | .ok (path, service) =>
    let (reply, db) := advertise X m.sql .ssh service db path
    let reply := reply >>= fun b => if utf8Valid b then .ok b else .panic
    (reply.sent channel id, reply.link (fun _ => { service := service, path := path, caps := [], commands := [] }), db)
  | .spin => ([], .hung, db)
  | _ => ([], .closed, db)

/-- `data`, ssh.rs 87-110, with `handle_upload_pack` and `handle_receive_pack`, ssh.rs 159-202. -/
def sshData (X : Ext) (m : Moment) (db : Db) (proto : Option SshProto) (channel : Nat) (bytes : Bytes) : SshOut × SshLink × Db :=
  match proto with
  | none => ([], .closed, db)
  | some p =>
    match p.service with
    | .uploadPack =>
      let r := sshUploadPack (mysqlFetch X m.sql m.fuel db p.path) m.ord m.cut p.caps bytes
      (r.sent channel Prod.fst, r.link (fun a => { p with caps := a.2 }), db)
    | .receivePack =>
      let st : PushState Db := { caps := p.caps, commands := p.commands, path := p.path, db := db }
      let r := sshReceivePack (mysqlPush X m.sql m.fuel) st bytes
      (r.sent channel Prod.fst, r.link (fun a => { p with caps := a.2.caps, commands := a.2.commands }),
        gitReceiveDb (mysqlPush X m.sql m.fuel) st bytes)

/-- One message of a connection. -/
def sshLinkStep (X : Ext) (m : Moment) (db : Db) : SshLink → SshEvent → SshOut × SshLink × Db
  | .fresh, .auth user secret => ([], if sshAccept user secret then .ready none else .fresh, db)
  | .fresh, _ => ([], .closed, db)
  | .ready p, .auth _ _ => ([], .ready p, db)
  | .ready _, .exec channel command => sshExec X m db channel command
  | .ready p, .data channel bytes => sshData X m db p channel bytes
  | .hung, _ => ([], .hung, db)
  | .closed, _ => ([], .closed, db)

/-- One message of connection `i`: what is sent to `i`, and the state afterwards. -/
def sshStep (X : Ext) (m : Moment) (s : SshState) (i : Nat) (e : SshEvent) : SshOut × SshState :=
  let (out, l, db) := sshLinkStep X m s.db (s.link i) e
  (out, { db := db, link := fun j => if j = i then l else s.link j })

/-- A history: messages with their connections and moments. -/
abbrev SshHist := List (Moment × Nat × SshEvent)

/-- The state after a history. -/
def sshRun (X : Ext) (s : SshState) (h : SshHist) : SshState :=
  h.foldl (fun s p => (sshStep X p.1 s p.2.1 p.2.2).2) s

/-- Everything sent to connection `i` during a history. -/
def sshSent (X : Ext) (i : Nat) : SshState → SshHist → SshOut
  | _, [] => []
  | s, p :: h =>
    let (out, s') := sshStep X p.1 s p.2.1 p.2.2
    (if p.2.1 = i then out else []) ++ sshSent X i s' h

/-- A server nobody has connected to yet (`fresh` also stands for connections still to come). -/
def SshState.start (db : Db) : SshState := { db := db, link := fun _ => .fresh }

end Gust

import Verif.Model.TempFile

/-! # The host key of the SSH server: `server` and `load_key`, `/repo/src/gateway/ssh_server.rs` 20-72 -/

namespace Gust

/-- Ed25519 key pairs (`ed25519_dalek::Keypair`): 64 bytes, read back as written; other lengths are refused. -/
structure KeyExt where
  Key : Type
  toBytes : Key → Bytes
  fromBytes : Bytes → Option Key
  toBytes_length : ∀ k, (toBytes k).length = 64
  from_to : ∀ k, fromBytes (toBytes k) = some k
  from_length : ∀ b k, fromBytes b = some k → b.length = 64

/-- Where a server process is. -/
inductive KeyPhase (K : Type)
  /-- not started -/
  | absent
  /-- found no key file (55) and generated a key (57) -/
  | create (k : K)
  /-- found a key file (55) -/
  | load
  /-- has its key; is it in the file, and does the server accept connections? -/
  | own (k : K) (onDisk serving : Bool)
  /-- the key could not be read: `load_key().await.unwrap()`, 21, panics -/
  | failed
  /-- ended or killed -/
  | stopped
  deriving DecidableEq

/-- The file `$SSH_ROOT/id_rsa` and the processes started so far. That `SSH_ROOT` is set and the directory can be written is assumed. -/
structure KeySys (K : Type) where
  file : Option Bytes
  phase : Nat → KeyPhase K

/-- What process `i` does next. -/
inductive KeyEv (K : Type)
  /-- start: `key_path.exists()`, 55; `k` is what the random number generator gives -/
  | begin (i : Nat) (k : K)
  /-- `tokio::fs::File::create`, 58: an existing file is emptied -/
  | create (i : Nat)
  /-- the write of `write_all`, 62. Tokio hands it to another thread and `write_all` returns without waiting for it, so it may come after `accept`.
  Simplification: the 64 bytes are written at once. -/
  | write (i : Nat)
  /-- `load_key` returns and `russh::server::run` starts with this key, 21-46 -/
  | accept (i : Nat)
  /-- `tokio::fs::read` and `Keypair::from_bytes`, 67-68 -/
  | load (i : Nat)
  /-- the process ends; a write that was not done yet is lost -/
  | stop (i : Nat)

/-- One event; `none` when process `i` is not there. -/
def keyStep (X : KeyExt) (s : KeySys X.Key) : KeyEv X.Key → Option (KeySys X.Key)
  | .begin i k =>
    match s.phase i with
    | .absent => some { s with phase := setAt s.phase i (if s.file.isSome then .load else .create k) }
    | _ => none
  | .create i =>
    match s.phase i with
    | .create k => some { file := some [], phase := setAt s.phase i (.own k false false) }
    | _ => none
  | .write i =>
    match s.phase i with
    | .own k false b => some { file := some (writeAt (s.file.getD []) 0 (X.toBytes k)), phase := setAt s.phase i (.own k true b) }
    | _ => none
  | .accept i =>
    match s.phase i with
    | .own k d false => some { s with phase := setAt s.phase i (.own k d true) }
    | _ => none
  | .load i =>
    match s.phase i with
    | .load =>
      match s.file.bind X.fromBytes with
      | some k => some { s with phase := setAt s.phase i (.own k true false) }
      | none => some { s with phase := setAt s.phase i .failed }
    | _ => none
  | .stop i => some { s with phase := setAt s.phase i .stopped }

/-- A sequence of events. -/
def keyRun (X : KeyExt) : KeySys X.Key → List (KeyEv X.Key) → Option (KeySys X.Key)
  | s, [] => some s
  | s, e :: es => (keyStep X s e).bind (fun s => keyRun X s es)

/-- A machine on which the server was never started. -/
def KeySys.new (K : Type) : KeySys K := { file := none, phase := fun _ => .absent }

end Gust

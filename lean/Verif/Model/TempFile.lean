import Verif.Base.Map
import Verif.Base.Res

/-! # The temporary file of a push: `git_receive_pack`, `/repo/src/git/protocol/pack.rs` 174-199

Each push writes the pack it received to `./temp-{seconds}.pack`, opens that file again and unpacks it, stores the result and
removes the file. The server runs pushes concurrently; their file operations may be interleaved in any way. -/

namespace Gust

/-- Where a push is. -/
inductive PushPhase
  | start
  /-- has the file open for writing and has written so many bytes -/
  | writing (ino off : Nat)
  /-- has the file open for reading and unpacks it -/
  | reading (ino : Nat)
  /-- has removed the file -/
  | done
  /-- panicked because unpacking failed (`.unwrap()`, line 191); the file stays -/
  | failed
  /-- panicked because a file operation failed (`.unwrap()`, lines 182, 187, 199) -/
  | crashed
  deriving DecidableEq

/-- The directory (which file has the name `temp-{t}.pack`), the contents of the files, the pushes, and what they read:
position, length asked for, bytes. Removing a name leaves the contents to those who have the file open. -/
structure PushSys where
  dir : Int → Option Nat
  next : Nat
  data : Nat → Bytes
  phase : Nat → PushPhase
  log : Nat → List (Nat × Nat × Bytes)

/-- `write` at a position: what is behind the written bytes stays. -/
def writeAt (old : Bytes) (off : Nat) (chunk : Bytes) : Bytes :=
  (old ++ List.replicate (off - old.length) 0).take off ++ chunk ++ old.drop (off + chunk.length)

/-- File operations of push `i`. -/
inductive PushEv
  /-- `OpenOptions::new().write(true).create(true).open(..)`, 178-182: no truncation -/
  | openWrite (i : Nat)
  /-- one `write` call of `write_all`, 183, that takes `k` bytes -/
  | write (i k : Nat)
  /-- `File::open`, 187, after everything is written -/
  | openRead (i : Nat)
  /-- a read of `Pack::decode`, 185-191 -/
  | read (i pos n : Nat)
  /-- unpacking fails -/
  | fail (i : Nat)
  /-- `fs::remove_file`, 199 -/
  | remove (i : Nat)
  deriving DecidableEq

/-- One operation; `none` when push `i` is not there. `pack i` is the pack push `i` received, `sec i` the time in seconds it
saw (`Utc::now().timestamp()`, 176). -/
def pushEvent (pack : Nat → Bytes) (sec : Nat → Int) (s : PushSys) : PushEv → Option PushSys
  | .openWrite i =>
    match s.phase i with
    | .start =>
      match s.dir (sec i) with
      | none =>
        some { s with
          dir := setAt s.dir (sec i) (some s.next)
          next := s.next + 1
          data := setAt s.data s.next []
          phase := setAt s.phase i (.writing s.next 0) }
      | some ino => some { s with phase := setAt s.phase i (.writing ino 0) }
    | _ => none
  | .write i k =>
    match s.phase i with
    | .writing ino off =>
      if 0 < k ∧ off + k ≤ (pack i).length then
        some { s with
          data := setAt s.data ino (writeAt (s.data ino) off (((pack i).drop off).take k))
          phase := setAt s.phase i (.writing ino (off + k)) }
      else none
    | _ => none
  | .openRead i =>
    match s.phase i with
    | .writing _ off =>
      if off = (pack i).length then
        match s.dir (sec i) with
        | none => some { s with phase := setAt s.phase i .crashed }
        | some ino => some { s with phase := setAt s.phase i (.reading ino) }
      else none
    | _ => none
  | .read i pos n =>
    match s.phase i with
    | .reading ino => some { s with log := setAt s.log i (s.log i ++ [(pos, n, ((s.data ino).drop pos).take n)]) }
    | _ => none
  | .fail i =>
    match s.phase i with
    | .reading _ => some { s with phase := setAt s.phase i .failed }
    | _ => none
  | .remove i =>
    match s.phase i with
    | .reading _ =>
      match s.dir (sec i) with
      | none => some { s with phase := setAt s.phase i .crashed }
      | some _ => some { s with dir := setAt s.dir (sec i) none, phase := setAt s.phase i .done }
    | _ => none

/-- An interleaving. -/
def pushEvents (pack : Nat → Bytes) (sec : Nat → Int) : PushSys → List PushEv → Option PushSys
  | s, [] => some s
  | s, e :: es => (pushEvent pack sec s e).bind (fun s => pushEvents pack sec s es)

end Gust

import Verif.Model.Ssh
import Verif.Spec.Server

/-! # What a user of the SSH server relies on -/

namespace Gust

/-- A client on channel `channel` is told over SSH what a client is told over HTTP: the same bytes; or nothing, because the server is stuck;
or nothing, because the connection is gone. -/
def Spec.SameAnswer (channel : Nat) (o : Outcome) (out : SshOut) (l : SshLink) : Prop :=
  match o with
  | .reply (.ok (.bytes b)) => out = (if b = [] then [] else [(channel, b)]) ∧ ∃ p, l = .ready p
  | .hang => out = [] ∧ l = .hung
  | .reply .panic => out = [] ∧ l = .closed
  | _ => False

/-- The messages of connection `i` in a history. -/
def Spec.ofConn (i : Nat) (h : SshHist) : SshHist := h.filter (fun p => decide (p.2.1 = i))

/-- Two messages that differ at most in credentials. -/
def Spec.SameButSecrets : SshEvent → SshEvent → Prop
  | .auth _ _, .auth _ _ => True
  | e, e' => e = e'

/-- Two histories that differ at most in credentials. -/
inductive Spec.SameHistory : SshHist → SshHist → Prop
  | nil : SameHistory [] []
  | cons {m : Moment} {i : Nat} {e e' : SshEvent} {h h' : SshHist} (he : Spec.SameButSecrets e e') (hh : SameHistory h h') :
      SameHistory ((m, i, e) :: h) ((m, i, e') :: h')

end Gust

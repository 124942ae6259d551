import Verif.Model.Both
import Verif.Spec.Ssh

/-! # What users of both servers rely on -/

namespace Gust

/-- The repository a request or message names, if it names one. -/
def Visit.repo : Visit → Option Bytes
  | .http r => r.repo
  | .ssh _ (.exec _ command) =>
    match sshCommand command with
    | .ok (path, _) => some path
    | _ => none
  | .ssh _ _ => none

/-- No repository named in the history is a directory above one that the database takes for `path`. -/
def Spec.NoneAboveAny (fold : Bytes → Bytes) (path : Bytes) (h : BothHist) : Prop :=
  ∀ p ∈ h, ∀ q ∈ h, ∀ a b, p.2.repo = some a → q.2.repo = some b → fold b = fold path → pathStartsWith b a = true → a = b

/-- All use a database with the same comparison of strings. -/
def Spec.SameFoldAny (fold : Bytes → Bytes) (h : BothHist) : Prop := ∀ p ∈ h, p.1.sql.fold = fold

/-- Nothing happens on connection `i`. -/
def Spec.NotOn (i : Nat) (h : BothHist) : Prop := ∀ p ∈ h, ∀ e, p.2 ≠ .ssh i e

/-- How an SSH client names the repository `q`. -/
def Spec.sshAsk (t : ServiceType) (q : Bytes) : Bytes := Spec.sshLine t (0x2f :: (q ++ ascii ".git"))

/-- After the history `h`, at the moment `m`, the push of `pack` with the command `c` to the repository `u` is answered with `rep`; then the history is `h'`.
Over HTTP, with or without `.git` in the URL; or over SSH, where the client has named the repository and sent the command section before, with whatever others do
in between, and now sends the pack. -/
inductive Spec.PushedAny (P : ServerExt) (u : Bytes) (c : Spec.PushCmd) (caps pack rep : Bytes) (m : Moment) : BothHist → BothHist → Prop
  | http (h : BothHist) (g : Bytes) (hu : Spec.CleanUrl u) (hg : g = [] ∨ g = ascii ".git")
      (ha : (serve P m (runBoth P .empty h).web (Spec.pushReq (u ++ g) (Spec.pushBody c [] caps pack))).1 = .reply (.ok (.bytes rep))) :
      PushedAny P u c caps pack rep m h (h ++ [(m, .http (Spec.pushReq (u ++ g) (Spec.pushBody c [] caps pack)))])
  | ssh (h0 h1 h2 h : BothHist) (m0 m1 : Moment) (i ch0 ch1 ch : Nat) (hs : (0x20 : UInt8) ∉ u) (hb : isBoundary u 0 = true)
      (hn1 : Spec.NotOn i h1) (hn2 : Spec.NotOn i h2)
      (hh : h = h0 ++ (m0, .ssh i (.exec ch0 (Spec.sshAsk .receivePack u))) :: (h1 ++ (m1, .ssh i (.data ch1 (Spec.pushBody c [] caps []))) :: h2))
      (ha : (sshStep P.X m (runBoth P .empty h).ssh i (.data ch pack)).1 = [(ch, rep)]) :
      PushedAny P u c caps pack rep m h (h ++ [(m, .ssh i (.data ch pack))])

/-- Connection `i` has been opened for fetching from the repository `u`, and the client has not sent anything since. -/
def Spec.Opened (P : ServerExt) (u : Bytes) (i : Nat) (h : BothHist) : Prop :=
  ∃ (h0 h1 : BothHist) (m0 : Moment) (ch0 : Nat), Spec.NotOn i h1 ∧ (0x20 : UInt8) ∉ u ∧ isBoundary u 0 = true ∧
    h = h0 ++ (m0, .ssh i (.exec ch0 (Spec.sshAsk .uploadPack u))) :: h1 ∧ ∃ p, (runBoth P .empty h).link i = .ready p

/-- After the history `h`, at the moment `m`, the request `body` to the repository `u` is answered with `out`: over HTTP, or over SSH, where the client has named the
repository before. -/
inductive Spec.FetchedAny (P : ServerExt) (u body out : Bytes) (m : Moment) (h : BothHist) : Prop
  | http (g : Bytes) (hu : Spec.CleanUrl u) (hg : g = [] ∨ g = ascii ".git")
      (ha : (serve P m (runBoth P .empty h).web (Spec.fetchReq (u ++ g) body)).1 = .reply (.ok (.bytes out)))
  | ssh (i ch : Nat) (ho : Spec.Opened P u i h) (ha : (sshStep P.X m (runBoth P .empty h).ssh i (.data ch body)).1 = [(ch, out)])

end Gust

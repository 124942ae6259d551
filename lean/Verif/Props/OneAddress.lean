import Verif.Props.NoMaster
import Verif.Props.RefsBoth
import Verif.Props.BothExamples
import Verif.Base.Tactics

/-! # C157: one address for HTTP and SSH -/

namespace Gust

/-- The path begins with a slash. -/
def Spec.Rooted (a : Bytes) : Prop := a.head? = some 0x2f

/-- Nobody has used the repository `u`, or one that the database takes for it, or a directory above it. -/
def Spec.Unused (fold : Bytes → Bytes) (u : Bytes) (h : BothHist) : Prop :=
  ∀ x ∈ h, ∀ a, x.2.repo = some a → fold a ≠ fold u ∧ ¬ Spec.DirAbove a u

/-! ## Lemmas -/

theorem unused_empty {P : ServerExt} {u : Bytes} {h : BothHist} (hf : Spec.SameFoldAny P.D.fold h) (hu : Spec.Unused P.D.fold u h) :
    Spec.NoMasterAbove P.D.fold (runBoth P .empty h).web.db.refs u ∧ Spec.refsAt P.D.fold (runBoth P .empty h).web.db.refs u = [] := by
  have key := (runBoth_inv P u h hf (fun p _ q hq a b _ hb e _ => absurd e (hu q hq b hb).1)).1
  constructor
  · intro r hr _ ha
    obtain ⟨x, hx, e⟩ := key r hr
    exact (hu x hx _ e).2 ha
  · refine List.eq_nil_iff_forall_not_mem.2 fun r hr => ?_
    obtain ⟨h1, h2⟩ := refsAt_mem.1 hr
    obtain ⟨x, hx, e⟩ := key r h1
    exact (hu x hx _ e).1 h2

/-- Whoever asks for such a repository over SSH reads that it has no refs. -/
theorem unused_ssh {P : ServerExt} {u : Bytes} (hs : (0x20 : UInt8) ∉ u) (hb : isBoundary u 0 = true) {h : BothHist} (hf : Spec.SameFoldAny P.D.fold h)
    (hu : Spec.Unused P.D.fold u h) {m : Moment} (hm : m.sql.fold = P.D.fold) (t : ServiceType) {i : Nat} (ch : Nat) {p : Option SshProto}
    (hl : (runBoth P .empty h).link i = .ready p) :
    ∃ out, (sshStep P.X m (runBoth P .empty h).ssh i (.exec ch (Spec.sshAsk t u))).1 = [(ch, out)] ∧ Spec.clientSsh out = some [] := by
  obtain ⟨hn, he⟩ := unused_empty hf hu
  rw [← hm] at hn he
  have hz := getHead_noMaster (X := P.X) hn
  have hnil : getRefObjectId m.sql (runBoth P .empty h).web.db u = [] := getRefObjectId_nil.2 he
  have hr := client_ssh (t := t) hz (by rw [he]; intro r hr; cases hr)
  rw [if_pos rfl, if_pos he, hnil] at hr
  have hs := ssh_noMaster (X := P.X) (m := m) (s := (runBoth P .empty h).ssh) (ch := ch) (t := t) hs hb hl hz
  rw [show getRefObjectId m.sql (runBoth P .empty h).ssh.db u = [] from hnil] at hs
  refine ⟨gitInfoRefs .ssh t zeroId [], ?_, hr⟩
  rw [hs, if_pos (by cases t <;> decide +kernel)]
  simp only [Res.sent, id, if_neg (show gitInfoRefs .ssh t zeroId [] ≠ [] by cases t <;> decide +kernel)]

/-! ## C157 -/

/-- **C157 is false**: whatever has been pushed over HTTP, to `/q` or to any other path, whoever asks for `/q.git` over SSH is answered that the repository has no refs, so that a
clone is empty, unless the repository has been used over SSH. (The paths of URLs begin with a slash; and the database does not take a path with a slash in front for one
without.) -/
theorem C157_ssh_false (P : ServerExt) (q : Bytes) (hq : ¬ Spec.Rooted q) (hs : (0x20 : UInt8) ∉ q) (hb : isBoundary q 0 = true) (hslash : ∀ a, Spec.Rooted a → P.D.fold a ≠ P.D.fold q)
    (h : BothHist) (hf : Spec.SameFoldAny P.D.fold h) (hweb : ∀ x ∈ h, ∀ r a, x.2 = .http r → r.repo = some a → Spec.Rooted a)
    (hssh : ∀ x ∈ h, ∀ i e a, x.2 = .ssh i e → x.2.repo = some a → Spec.Rooted a ∨ (P.D.fold a ≠ P.D.fold q ∧ ¬ Spec.DirAbove a q))
    (m : Moment) (hm : m.sql.fold = P.D.fold) (t : ServiceType) (i ch : Nat) (p : Option SshProto) (hl : (runBoth P .empty h).link i = .ready p) :
    ∃ out, (sshStep P.X m (runBoth P .empty h).ssh i (.exec ch (Spec.sshAsk t q))).1 = [(ch, out)] ∧ Spec.clientSsh out = some [] := by
  have hroot : ∀ a, Spec.Rooted a → P.D.fold a ≠ P.D.fold q ∧ ¬ Spec.DirAbove a q := by
    refine fun a ha => ⟨hslash a ha, ?_⟩
    rintro (⟨h1, _⟩ | ⟨h1, _⟩)
    · exact h1 ha
    · exact hq (h1.1 ha)
  refine unused_ssh hs hb hf (fun x hx a ha => ?_) hm t ch hl
  cases hv : x.2 with
  | http r =>
    rw [hv] at ha
    exact hroot a (hweb x hx r a hv ha)
  | ssh j e => exact (hssh x hx j e a hv ha).elim (hroot a) _root_.id

/-- **C157 is false** the other way round as well: whatever has been pushed over SSH to `/q.git`, or to any other path with a single slash in front, whoever asks for `/q` or
`/q.git` over HTTP is answered that the repository has no refs, unless it has been used over HTTP. (The database takes none of the paths
named over SSH for `/q`, and none of them is the empty path.) -/
theorem C157_http_false (P : ServerExt) (q g : Bytes) (hu : Spec.CleanUrl (0x2f :: q)) (hb : (0x5c : UInt8) ∉ (0x2f : UInt8) :: q) (hg : g = [] ∨ g = ascii ".git")
    (h : BothHist) (hf : Spec.SameFoldAny P.D.fold h)
    (hssh : ∀ x ∈ h, ∀ i e a, x.2 = .ssh i e → x.2.repo = some a → ¬ Spec.Rooted a ∧ Spec.parts a ≠ [] ∧ P.D.fold a ≠ P.D.fold (0x2f :: q))
    (hweb : ∀ x ∈ h, ∀ r a, x.2 = .http r → r.repo = some a → P.D.fold a ≠ P.D.fold (0x2f :: q) ∧ ¬ Spec.DirAbove a (0x2f :: q))
    (m : Moment) (hm : m.sql.fold = P.D.fold) (t : ServiceType) :
    ∃ out, (serve P m (runBoth P .empty h).web (Spec.refsReq (0x2f :: q ++ g) t)).1 = .reply (.ok (.bytes out)) ∧ Spec.clientHttp t out = some [] := by
  obtain ⟨hn, he⟩ := unused_empty (P := P) (u := 0x2f :: q) hf (fun x hx a ha => by
    cases hv : x.2 with
    | http r =>
      rw [hv] at ha
      exact hweb x hx r a hv ha
    | ssh j e =>
      obtain ⟨h1, h2, h3⟩ := hssh x hx j e a hv ha
      refine ⟨h3, ?_⟩
      rintro (⟨_, h3⟩ | ⟨h3, _⟩)
      · exact h2 h3
      · exact h1 (h3.2 rfl))
  obtain ⟨out, h1, h2⟩ := (C122_readable_partial P (0x2f :: q) g hu hb hg (runBoth P .empty h).web m hm t).2 hn he
  exact ⟨out, congrArg Prod.fst h1, h2⟩

/-- **C157 (partial)** Over SSH the repository at the URL `/q.git` of HTTP is found under the path `//q.git`: there both servers tell of the same HEAD and the same refs in the same
order, after every history. (Missing from the full claim: the path `/q.git`, see `C157_ssh_false`. The repository has a branch master, see C122.) -/
theorem C157_slash_partial (P : ServerExt) (q g : Bytes) (hu : Spec.CleanUrl (0x2f :: q)) (hs : (0x20 : UInt8) ∉ q) (hb : (0x5c : UInt8) ∉ q) (hg : g = [] ∨ g = ascii ".git")
    (h : BothHist) (m : Moment) (hm : m.sql.fold = P.D.fold) (hmas : Spec.HasMaster P.D.fold (runBoth P .empty h).web.db (0x2f :: q))
    (ht : ∀ r ∈ Spec.refsAt P.D.fold (runBoth P .empty h).web.db.refs (0x2f :: q), Spec.RefText r ∧ utf8Valid r.refName = true ∧ r.refGitId ≠ zeroId)
    (t : ServiceType) (i ch : Nat) (p : Option SshProto) (hl : (runBoth P .empty h).link i = .ready p) :
    ∃ out out' head refs, (serve P m (runBoth P .empty h).web (Spec.refsReq (0x2f :: q ++ g) t)).1 = .reply (.ok (.bytes out)) ∧
      (sshStep P.X m (runBoth P .empty h).ssh i (.exec ch (Spec.sshLine t (ascii "//" ++ q ++ ascii ".git")))).1 = [(ch, out')] ∧
      Spec.clientHttp t out = some ((head, ascii "HEAD") :: refs) ∧ Spec.clientSsh out' = some ((head, ascii "HEAD") :: refs) := by
  obtain ⟨r, _, _, _, k1, k2⟩ := told_any (u := 0x2f :: q) (by simp [hb]) t m hm h hmas ht
  obtain ⟨out, a1, a2⟩ := k1 g hu hg
  obtain ⟨out', b1, b2⟩ := k2 i ch p (by simp [hs]) (by simp [isBoundary]) hl
  exact ⟨out, out', _, _, a1, b1, a2, b2⟩

end Gust

import Verif.Props.RefOnce
import Verif.Props.AskedBoth

/-! # C106 over both servers: a branch has one value -/

namespace Gust

/-- In the pushes of this history, made on the two servers in state `s`, nobody creates a branch that is there already. Over HTTP as in `Spec.CreatesNew`; over SSH, when a pack arrives on a
connection that pushes to `p.path`, the last command sent on it is not a creation or names a branch the repository does not have at that time. Paths have no backslash. -/
def Spec.CreatesNewAny (P : ServerExt) : Both → BothHist → Prop
  | _, [] => True
  | s, (m, v) :: h => m.sql.fold = P.D.fold ∧ (∀ u, v.repo = some u → (0x5c : UInt8) ∉ u) ∧
    (match v with
    | .http r => ∀ u, route r.method r.path r.service = .receivePack u → ∃ (c : Spec.PushCmd) (caps pack : Bytes), c.Ok ∧ caps.length ≤ 4000 ∧ (∀ x ∈ caps, x.toNat < 128) ∧
        r.body = Spec.pushBody c [] caps pack ∧ (c.old = zeroId → ∀ row ∈ s.web.db.refs, row.repoPath = u → P.D.fold row.refName ≠ P.D.fold (c.name ++ [0]))
    | .ssh i (.data _ pack) => (ascii "PACK").isPrefixOf pack = true → ∀ p c, s.link i = .ready (some p) → p.service = .receivePack → p.commands.getLast? = some c →
        c.commandType = .create → ∀ row ∈ s.web.db.refs, row.repoPath = p.path → P.D.fold row.refName ≠ P.D.fold c.refName
    | .ssh _ _ => True) ∧ Spec.CreatesNewAny P (bothStep P m s v) h

/-! ## Lemmas -/

theorem receiveDb_once {X : Ext} {E : SqlExt} {fuel : Nat} {st : PushState Db} {data : Bytes} (h : Spec.NamesOnce E.fold st.db.refs)
    (hnew : (ascii "PACK").isPrefixOf data = true → ∀ c, st.commands.getLast? = some c → c.commandType = .create →
      ∀ row ∈ st.db.refs, row.repoPath = st.path → E.fold row.refName ≠ E.fold c.refName) :
    Spec.NamesOnce E.fold (gitReceiveDb (mysqlPush X E fuel) st data).refs := by
  unfold gitReceiveDb
  split
  · rename_i hpk
    unfold receiveDataDb
    split
    · exact h
    · rename_i cmd hcmd
      simp only [mysqlPush]
      split
      · rename_i p hp
        have e := savePackfile_refs E fuel p st.path st.db
        split
        · rename_i db1 he
          rw [he] at e
          simp only at e
          refine handleRefs_once (by rw [e]; exact h) ?_
          intro ht
          rw [e]
          exact hnew hpk cmd hcmd ht
        · rename_i db1 _ he
          rw [he] at e
          simp only at e
          rw [e]
          exact h
      · exact h
  · exact h

theorem bothStep_once {P : ServerExt} {m : Moment} {s : Both} {v : Visit} {h : BothHist} (hc : Spec.CreatesNewAny P s ((m, v) :: h))
    (h1 : Spec.NamesOnce P.D.fold s.web.db.refs) : Spec.NamesOnce P.D.fold (bothStep P m s v).web.db.refs := by
  obtain ⟨hf, hb, hk, _⟩ := hc
  cases v with
  | http r =>
    refine serve_once (h := []) ⟨hf, ?_, hk, trivial⟩ h1
    intro u t hr
    refine hb u ?_
    show r.repo = _
    unfold HttpReq.repo
    rw [hr]
    rfl
  | ssh i e =>
    show Spec.NamesOnce P.D.fold (sshLinkStep P.X m s.web.db (s.link i) e).2.2.refs
    cases hl : s.link i with
    | fresh => cases e <;> exact h1
    | hung => exact h1
    | closed => exact h1
    | ready p =>
      cases e with
      | auth u s => exact h1
      | exec ch command =>
        simp only [sshLinkStep, sshExec]
        cases hc : sshCommand command with
        | ok r =>
          obtain ⟨path, t⟩ := r
          simp only [advertise_db]
          rw [← hf] at h1 ⊢
          refine getHead_once (hb path ?_) h1
          simp only [Visit.repo, hc]
        | _ => exact h1
      | data ch bytes =>
        cases p with
        | none => exact h1
        | some p =>
          simp only [sshLinkStep, sshData]
          cases hs : p.service with
          | uploadPack => exact h1
          | receivePack =>
            rw [← hf] at h1 hk ⊢
            exact receiveDb_once h1 (fun hpk c hcmd ht => hk hpk p c hl hs hcmd ht)

theorem runBoth_once {P : ServerExt} : ∀ {h : BothHist} {s : Both}, Spec.CreatesNewAny P s h → Spec.NamesOnce P.D.fold s.web.db.refs →
    Spec.NamesOnce P.D.fold (runBoth P s h).web.db.refs
  | [], _, _, h1 => h1
  | (m, v) :: h, s, hc, h1 => by
    rw [runBoth_cons]
    exact runBoth_once hc.2.2.2 (bothStep_once hc h1)

/-! ## The theorem -/

/-- **C106 (partial)** The same over both servers. After anything done on them in which no client, over HTTP or SSH, creates a branch that the repository has already: no branch is stored twice,
and whoever asks for the refs of a repository with a master, over HTTP or on any SSH connection that is ready, is answered and shown no name twice. (The stored ids are hexadecimal and not zero,
the names fit in a line, and the repository's path is not stored in another spelling. Missing: clients that create at the same time, `C106_create_again_false`.) -/
theorem C106_both_partial {P : ServerExt} {u : Bytes} (hb : (0x5c : UInt8) ∉ u) (h : BothHist) (hc : Spec.CreatesNewAny P .empty h) (t : ServiceType) (m : Moment) (hf : m.sql.fold = P.D.fold)
    (hm : Spec.HasMaster P.D.fold (runBoth P .empty h).web.db u)
    (hpath : ∀ r ∈ (runBoth P .empty h).web.db.refs, P.D.fold r.repoPath = P.D.fold u → r.repoPath = u)
    (ht : ∀ r ∈ (runBoth P .empty h).web.db.refs, r.repoPath = u → r.refGitId.length = 40 ∧ (∀ x ∈ r.refGitId, Spec.IsHexDigit x) ∧ r.refName.length ≤ 65000 ∧ r.refGitId ≠ zeroId) :
    Spec.NamesOnce P.D.fold (runBoth P .empty h).web.db.refs ∧
      ∃ head refs, Spec.ToldBoth P u t m h head refs ∧ (refs.map (fun p => P.D.fold p.2)).Nodup := by
  have h1 : Spec.NamesOnce P.D.fold (runBoth P .empty h).web.db.refs := runBoth_once hc List.Pairwise.nil
  refine ⟨h1, ?_⟩
  have htext := (runBoth_text P h _ empty_text).refs
  obtain ⟨r, _, _, _, k⟩ := told_any hb t m hf h hm (by
    intro r hr
    obtain ⟨a, b⟩ := refsAt_mem.1 hr
    obtain ⟨c1, c2, c3, c4⟩ := ht r a (hpath r a b)
    obtain ⟨d1, d2, d3⟩ := htext r a
    exact ⟨⟨c1, c2, c3, d3⟩, d1, c4⟩)
  refine ⟨_, _, k, ?_⟩
  rw [← hf] at h1 hpath ⊢
  exact getRefObjectId_once h1 hpath

end Gust

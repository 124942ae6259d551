import Verif.Props.Signed
import Verif.Props.SubCloneBothExamples

/-! # C139 for the two servers together -/

namespace Gust

/-- **C139 (partial)** over HTTP and SSH, as in `C110_both_partial`: the commit that the server has made for the directory is, byte for byte, the one of the repository with another directory and without
parents, so it has no signature if the commit of the repository has none. (Missing from the full claim: commits with a signature, see `C139_signature_both_false`; otherwise as for C110.) -/
theorem C139_unsigned_both_partial (P : ServerExt) (hfold : ∀ a b : Hash, P.D.fold (Hash.toPlainStr a) = P.D.fold (Hash.toPlainStr b) → a = b)
    (base below : List Bytes) (name u sub : Bytes) (hu : u = Spec.pathText true base) (hsub : sub = Spec.pathText true (base ++ below ++ [name]))
    (hok : ∀ d ∈ base ++ below ++ [name], Spec.NameOk d) (hdd : name ≠ [0x2e, 0x2e]) (hname : P.D.fold name ≠ P.D.fold []) (hb : (0x5c : UInt8) ∉ u)
    (h h2 : BothHist) (mA m1 mB : Moment) (v : Visit) (hask : Spec.AsksFor P h sub v)
    (hfl : Spec.SameFoldAny P.D.fold (h ++ [(m1, v)] ++ h2)) (hmA : mA.sql.fold = P.D.fold) (hmB : mB.sql.fold = P.D.fold)
    (hab : Spec.NoneAboveAny P.D.fold u (h ++ [(m1, v)] ++ h2))
    (habove : ∀ p ∈ h, ∀ a, p.2.repo = some a → pathStartsWith sub a = true → a = u)
    (hother : ∀ p ∈ h ++ h2, ∀ a, p.2.repo = some a → P.D.fold a ≠ P.D.fold sub)
    (hmaster : Spec.HasMaster P.D.fold (runBoth P .empty h).web.db u) (H : Hash)
    (hid : ∀ r ∈ (runBoth P .empty h).web.db.refs, r.repoPath = u → Spec.isMaster P.D.fold r → r.refGitId = Hash.toPlainStr H ∧ Spec.RefText r ∧ utf8Valid r.refName = true)
    (hac : ∀ n rows, m1.sql.acceptCommits n rows = true)
    (hun : UniqueIds P.X (runBoth P .empty (h ++ [(m1, v)] ++ h2)).web.db) (hfit : FitsPack P.X (runBoth P .empty (h ++ [(m1, v)] ++ h2)).web.db)
    (hfuel : (runBoth P .empty (h ++ [(m1, v)] ++ h2)).web.db.nodes.length ≤ mB.fuel)
    (hordA : ∀ l x, x ∈ mA.ord l ↔ x ∈ l) (hcutA : Spec.CutOk mA.cut) (lsA : List Spec.ReqLine) (tA restA : Bytes) (hrA : Spec.CloneReq lsA tA)
    (outA fileA : Bytes) (hA : Spec.FetchedAny P u (doneBody lsA tA restA) outA mA h)
    (hreadA : Spec.readClone outA = some fileA) (StA : ObjectSource) (fA : Nat) (qA : Pack) (hqA : decodePack P.X StA (fA + 1) fileA = .ok qA)
    (oA : MetaData) (hoA : qA.result.hashObject H = some oA) (htA : oA.t = .commit) (cA : Commit) (hcA : Commit.decode oA.data = .ok cA)
    (d : Hash) (hd : Spec.DirAt qA.result.hashObject cA.treeId (below ++ [name]) d) (hd1 : ∀ x, Spec.DirAt qA.result.hashObject cA.treeId (below ++ [name]) x → x = d)
    (honly : Spec.OnlyCalledAny P h name d) (hz : Hash.toPlainStr (idOf P.X (.commit, Commit.encode { cA with treeId := d, parents := [] })) ≠ zeroId)
    (hordB : ∀ l x, x ∈ mB.ord l ↔ x ∈ l) (hcutB : Spec.CutOk mB.cut) (lsB : List Spec.ReqLine) (tB restB : Bytes) (hrB : Spec.CloneReq lsB tB)
    (c : Spec.CommitData) (hok2 : c.Ok) (htext : oA.data = c.text) :
    ∃ (id : Hash) (refs : List (Bytes × Bytes)) (outB fileB : Bytes), Spec.Reads P m1 h (Hash.toPlainStr id) refs v ∧
      (∀ g, Spec.CleanUrl sub → (g = [] ∨ g = ascii ".git") →
        (serve P mB (runBoth P .empty (h ++ [(m1, v)] ++ h2)).web (Spec.fetchReq (sub ++ g) (doneBody lsB tB restB))).1 = .reply (.ok (.bytes outB))) ∧
      (∀ i ch, Spec.Opened P sub i (h ++ [(m1, v)] ++ h2) →
        (sshStep P.X mB (runBoth P .empty (h ++ [(m1, v)] ++ h2)).ssh i (.data ch (doneBody lsB tB restB))).1 = [(ch, outB)]) ∧
      Spec.readClone outB = some fileB ∧
      ∀ St fuel, ∃ qB oB, decodePack P.X St (fuel + 1) fileB = .ok qB ∧ qB.result.hashObject id = some oB ∧ oB.t = .commit ∧
        oB.data = ({ c with tree := d, parents := [] } : Spec.CommitData).text ∧
        ((∀ sig p, ¬ Spec.SignedText oA.data sig p) → ∀ sig p, ¬ Spec.SignedText oB.data sig p) := by
  obtain ⟨id, refs, outB, fileB, w1, w2, w3, w4, w5⟩ := C110_both_partial P hfold base below name u sub hu hsub hok hdd hname hb h h2 mA m1 mB v hask hfl hmA hmB hab habove hother hmaster H hid hac hun hfit
    hfuel hordA hcutA lsA tA restA hrA outA fileA hA hreadA StA fA qA hqA oA hoA htA cA hcA d hd hd1 honly hz hordB hcutB lsB tB restB hrB
  refine ⟨id, refs, outB, fileB, w1, w2, w3, w4, fun St fuel => ?_⟩
  obtain ⟨qB, q1, ⟨oB, cB, z1, z2, z3, z4, z5, z6, z7, z8⟩, q2⟩ := w5 St fuel
  rw [htext] at hcA ⊢
  obtain ⟨k1, k2, k3, k4, k5⟩ := commitData_plain hok2 hcA
  refine ⟨qB, oB, q1, z1, z2, ?_, fun hno sig p hs => ?_⟩
  · rw [z7]
    simp only [k2, k3, k4, commitData_encode k1 d]
  · rw [z7] at hs
    obtain ⟨p, hp⟩ := signed_back hok2 hcA hs
    exact hno _ _ hp

/-- C139 over SSH: the example repository is pushed to `/app` and `/app/src` is cloned; the commit of the clone is the pushed one with another directory, and neither is signed. -/
example : ∃ (pack : Bytes) (m : Moment) (out file : Bytes) (q : Pack) (id : Hash) (oB : MetaData),
    (sshStep polyExt m (runBoth demoServer .empty (bothBefore ++ [(demoMoment, .ssh 0 (.data 0 pack))] ++ [(demoMoment, .ssh 1 (askFor .uploadPack 0 (ascii "/app/src")))])).ssh 1
      (.data 0 (doneBody cloneLines (ascii "\n") []))).1 = [(0, out)] ∧
    Spec.readClone out = some file ∧ decodePack polyExt (fun _ => none) 1 file = .ok q ∧ q.result.hashObject id = some oB ∧
    oB.data = ({ appData with tree := idOf polyExt (.tree, encodeTree srcA) } : Spec.CommitData).text ∧ ∀ sig p, ¬ Spec.SignedText oB.data sig p := by
  obtain ⟨pack, m, id, refs, out, file, q, h, rfl, h2, h3, h4, h5, h6, oB, h7, h8⟩ := both_sub_run
  have e : oB.data = ({ appData with tree := idOf polyExt (.tree, encodeTree srcA) } : Spec.CommitData).text := by
    rw [h8]
    decide +kernel
  exact ⟨pack, m, out, file, q, id, oB, h3, h4, h5, h7, e, e ▸ app_unsigned⟩

/-- **C139 is false** for signed commits over HTTP and SSH: the commit that the server has made for the directory has the signature of another text. -/
theorem C139_signature_both_false (P : ServerExt) (hfold : ∀ a b : Hash, P.D.fold (Hash.toPlainStr a) = P.D.fold (Hash.toPlainStr b) → a = b)
    (base below : List Bytes) (name u sub : Bytes) (hu : u = Spec.pathText true base) (hsub : sub = Spec.pathText true (base ++ below ++ [name]))
    (hok : ∀ d ∈ base ++ below ++ [name], Spec.NameOk d) (hdd : name ≠ [0x2e, 0x2e]) (hname : P.D.fold name ≠ P.D.fold []) (hb : (0x5c : UInt8) ∉ u)
    (h h2 : BothHist) (mA m1 mB : Moment) (v : Visit) (hask : Spec.AsksFor P h sub v)
    (hfl : Spec.SameFoldAny P.D.fold (h ++ [(m1, v)] ++ h2)) (hmA : mA.sql.fold = P.D.fold) (hmB : mB.sql.fold = P.D.fold)
    (hab : Spec.NoneAboveAny P.D.fold u (h ++ [(m1, v)] ++ h2))
    (habove : ∀ p ∈ h, ∀ a, p.2.repo = some a → pathStartsWith sub a = true → a = u)
    (hother : ∀ p ∈ h ++ h2, ∀ a, p.2.repo = some a → P.D.fold a ≠ P.D.fold sub)
    (hmaster : Spec.HasMaster P.D.fold (runBoth P .empty h).web.db u) (H : Hash)
    (hid : ∀ r ∈ (runBoth P .empty h).web.db.refs, r.repoPath = u → Spec.isMaster P.D.fold r → r.refGitId = Hash.toPlainStr H ∧ Spec.RefText r ∧ utf8Valid r.refName = true)
    (hac : ∀ n rows, m1.sql.acceptCommits n rows = true)
    (hun : UniqueIds P.X (runBoth P .empty (h ++ [(m1, v)] ++ h2)).web.db) (hfit : FitsPack P.X (runBoth P .empty (h ++ [(m1, v)] ++ h2)).web.db)
    (hfuel : (runBoth P .empty (h ++ [(m1, v)] ++ h2)).web.db.nodes.length ≤ mB.fuel)
    (hordA : ∀ l x, x ∈ mA.ord l ↔ x ∈ l) (hcutA : Spec.CutOk mA.cut) (lsA : List Spec.ReqLine) (tA restA : Bytes) (hrA : Spec.CloneReq lsA tA)
    (outA fileA : Bytes) (hA : Spec.FetchedAny P u (doneBody lsA tA restA) outA mA h)
    (hreadA : Spec.readClone outA = some fileA) (StA : ObjectSource) (fA : Nat) (qA : Pack) (hqA : decodePack P.X StA (fA + 1) fileA = .ok qA)
    (oA : MetaData) (hoA : qA.result.hashObject H = some oA) (htA : oA.t = .commit) (cA : Commit) (hcA : Commit.decode oA.data = .ok cA)
    (d : Hash) (hd : Spec.DirAt qA.result.hashObject cA.treeId (below ++ [name]) d) (hd1 : ∀ x, Spec.DirAt qA.result.hashObject cA.treeId (below ++ [name]) x → x = d)
    (honly : Spec.OnlyCalledAny P h name d) (hz : Hash.toPlainStr (idOf P.X (.commit, Commit.encode { cA with treeId := d, parents := [] })) ≠ zeroId)
    (hordB : ∀ l x, x ∈ mB.ord l ↔ x ∈ l) (hcutB : Spec.CutOk mB.cut) (lsB : List Spec.ReqLine) (tB restB : Bytes) (hrB : Spec.CloneReq lsB tB)
    (sig : List Bytes) (p : Bytes) (hsig : Spec.SignedText oA.data sig p) :
    ∃ (id : Hash) (refs : List (Bytes × Bytes)) (outB fileB : Bytes), Spec.Reads P m1 h (Hash.toPlainStr id) refs v ∧
      (∀ g, Spec.CleanUrl sub → (g = [] ∨ g = ascii ".git") →
        (serve P mB (runBoth P .empty (h ++ [(m1, v)] ++ h2)).web (Spec.fetchReq (sub ++ g) (doneBody lsB tB restB))).1 = .reply (.ok (.bytes outB))) ∧
      (∀ i ch, Spec.Opened P sub i (h ++ [(m1, v)] ++ h2) →
        (sshStep P.X mB (runBoth P .empty (h ++ [(m1, v)] ++ h2)).ssh i (.data ch (doneBody lsB tB restB))).1 = [(ch, outB)]) ∧
      Spec.readClone outB = some fileB ∧
      ∀ St fuel, ∃ qB oB p', decodePack P.X St (fuel + 1) fileB = .ok qB ∧ qB.result.hashObject id = some oB ∧ oB.t = .commit ∧ Spec.SignedText oB.data sig p' ∧ p' ≠ p ∧
        ∀ valid : List Bytes → Bytes → Prop, (∀ s a b, valid s a → valid s b → a = b) → valid sig p → ¬ valid sig p' := by
  obtain ⟨id, refs, outB, fileB, w1, w2, w3, w4, w5⟩ := C110_both_partial P hfold base below name u sub hu hsub hok hdd hname hb h h2 mA m1 mB v hask hfl hmA hmB hab habove hother hmaster H hid hac hun hfit
    hfuel hordA hcutA lsA tA restA hrA outA fileA hA hreadA StA fA qA hqA oA hoA htA cA hcA d hd hd1 honly hz hordB hcutB lsB tB restB hrB
  refine ⟨id, refs, outB, fileB, w1, w2, w3, w4, fun St fuel => ?_⟩
  obtain ⟨qB, q1, ⟨oB, cB, z1, z2, z3, z4, z5, z6, z7, z8⟩, q2⟩ := w5 St fuel
  obtain ⟨p', e1, e2⟩ := signed_copy hcA z8 hsig
  exact ⟨qB, oB, p', q1, z1, z2, by rw [z7]; exact e1, e2, fun valid hone hv hv' => e2 (hone _ _ _ hv' hv)⟩

end Gust

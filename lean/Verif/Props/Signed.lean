import Verif.Props.AnyText
import Verif.Props.SubCloneExamples

/-! # C139: whose signature is on a commit

For a directory of a repository the server makes a commit of its own (C61, C110). It copies the headers of the commit it is made from; one of these can be a signature. -/

namespace Gust

/-! ## Spec -/

/-- The header of a signature: its lines, all but the first behind a space. -/
def Spec.sigHeader : List Bytes → Bytes
  | [] => ascii "gpgsig \n"
  | l :: ls => ascii "gpgsig " ++ l ++ ascii "\n" ++ ls.flatMap (fun l => ascii " " ++ l ++ ascii "\n")

/-- A commit with a signature, as git reads it: the signature is one of `payload`, which is the text without the header. -/
inductive Spec.SignedText : Bytes → List Bytes → Bytes → Prop
  | mk (c : Spec.CommitData) (sig : List Bytes) (tail : Bytes) : c.Ok → c.rest = Spec.sigHeader sig ++ tail → Spec.SignedText c.text sig ({ c with rest := tail } : Spec.CommitData).text

/-! ## The text of a generated commit -/

theorem commitData_encode {c : Spec.CommitData} (hp : c.Plain) (t : Hash) :
    Commit.encode { treeId := t, parents := [], author := c.author.sign (ascii "author"), committer := c.committer.sign (ascii "committer"), message := c.rest } =
      ({ c with tree := t, parents := [] } : Spec.CommitData).text := by
  simp [Commit.encode, Spec.CommitData.text, person_text _ hp.1.2.2.1, person_text _ hp.2.1.2.2.1, show ascii "tree " = ascii "tree" ++ [0x20] from by decide,
    show ascii "author " = ascii "author" ++ [0x20] from by decide, show ascii "committer " = ascii "committer" ++ [0x20] from by decide, show ascii "\n" = [0x0a] from by decide]

/-- What a commit in git's format says can be read from its text in one way only. -/
theorem commitData_text_inj {a b : Spec.CommitData} (ha : a.Ok) (hb : b.Ok) (hp : a.Plain) (e : a.text = b.text) : a.tree = b.tree ∧ a.rest = b.rest ∧ b.Plain := by
  have h1 := commitData_decode a ha
  have h2 := commitData_decode b hb
  rw [if_pos hp, e] at h1
  by_cases k : b.Plain
  · rw [if_pos k, h1, Res.ok.injEq] at h2
    exact ⟨congrArg Commit.treeId h2, congrArg Commit.message h2, k⟩
  · rw [if_neg k, h1] at h2
    cases h2

theorem commitData_plain {c : Spec.CommitData} (h : c.Ok) {x : Commit} (hd : Commit.decode c.text = .ok x) : c.Plain ∧ x.author = c.author.sign (ascii "author") ∧
    x.committer = c.committer.sign (ascii "committer") ∧ x.message = c.rest ∧ x.treeId = c.tree := by
  have h1 := commitData_decode c h
  by_cases k : c.Plain
  · rw [if_pos k, hd, Res.ok.injEq] at h1
    subst h1
    exact ⟨k, rfl, rfl, rfl, rfl⟩
  · rw [if_neg k, hd] at h1
    cases h1

/-- The generated commit has the signature of the original on another text. -/
theorem signed_copy {a : Bytes} {x : Commit} (hd : Commit.decode a = .ok x) {t : Hash} (hne : t ≠ x.treeId) {sig : List Bytes} {p : Bytes} (h : Spec.SignedText a sig p) :
    ∃ p', Spec.SignedText (Commit.encode { x with treeId := t, parents := [] }) sig p' ∧ p' ≠ p := by
  cases h with
  | mk c _ tail hc hr =>
    obtain ⟨k1, k2, k3, k4, k5⟩ := commitData_plain hc hd
    refine ⟨({ c with tree := t, parents := [], rest := tail } : Spec.CommitData).text, ?_, ?_⟩
    · have := commitData_encode k1 t
      simp only [k2, k3, k4, this]
      exact .mk { c with tree := t, parents := [] } sig tail ⟨hc.author, hc.committer⟩ hr
    · intro e
      simp only [Spec.CommitData.text, List.append_assoc] at e
      have := (List.append_inj (List.append_cancel_left e) (by rw [Hash.toPlainStr_length, Hash.toPlainStr_length])).1
      exact hne (by rw [k5]; exact Hash.toPlainStr_injective this)

/-- And only then. -/
theorem signed_back {c : Spec.CommitData} (hc : c.Ok) {x : Commit} (hd : Commit.decode c.text = .ok x) {t : Hash} {sig : List Bytes} {p' : Bytes}
    (h : Spec.SignedText (Commit.encode { x with treeId := t, parents := [] }) sig p') : ∃ p, Spec.SignedText c.text sig p := by
  obtain ⟨k1, k2, k3, k4, k5⟩ := commitData_plain hc hd
  have e := commitData_encode k1 t
  simp only [k2, k3, k4, e] at h
  generalize hb : ({ c with tree := t, parents := [] } : Spec.CommitData).text = b at h
  cases h with
  | mk c' _ tail hc' hr =>
    obtain ⟨_, e2, _⟩ := commitData_text_inj (a := { c with tree := t, parents := [] }) ⟨hc.author, hc.committer⟩ hc' ⟨k1.1, k1.2.1, k1.2.2⟩ hb
    exact ⟨_, .mk c sig tail hc ((e2 : c.rest = c'.rest).trans hr)⟩

/-! ## The claims -/

/-- **C139 (partial)** Someone has cloned a repository, and somebody else clones a directory of it, as in C110. The commit that the server has made for the directory is, byte for byte, the one of the repository with another directory and
without parents: all other headers (the encoding for example) and the message are there as they were. So it has no signature if the commit of the repository has none. (Missing from the full claim: commits with a signature, see
`C139_signature_false`; otherwise as for C110.) -/
theorem C139_unsigned_partial (P : ServerExt) (hfold : ∀ a b : Hash, P.D.fold (Hash.toPlainStr a) = P.D.fold (Hash.toPlainStr b) → a = b)
    (base below : List Bytes) (name u sub : Bytes) (hu : u = Spec.pathText true base) (hsub : sub = Spec.pathText true (base ++ below ++ [name]))
    (hok : ∀ d ∈ base ++ below ++ [name], Spec.NameOk d) (hdd : name ≠ [0x2e, 0x2e]) (hname : P.D.fold name ≠ P.D.fold [])
    (hcu : Spec.CleanUrl u) (hcs : Spec.CleanUrl sub) (hb : (0x5c : UInt8) ∉ u)
    (g g1 g2 : Bytes) (hg : g = [] ∨ g = ascii ".git") (hg1 : g1 = [] ∨ g1 = ascii ".git") (hg2 : g2 = [] ∨ g2 = ascii ".git")
    (h h2 : List (Moment × HttpReq)) (mA m1 mB : Moment) (ty : ServiceType)
    (hfl : Spec.SameFold P.D.fold (h ++ [(m1, Spec.refsReq (sub ++ g1) ty)] ++ h2)) (hmA : mA.sql.fold = P.D.fold) (hmB : mB.sql.fold = P.D.fold)
    (hab : Spec.NoneAbove P.D.fold u (h ++ [(m1, Spec.refsReq (sub ++ g1) ty)] ++ h2))
    (habove : ∀ p ∈ h, ∀ a, p.2.repo = some a → pathStartsWith sub a = true → a = u)
    (hother : ∀ p ∈ h ++ h2, ∀ a, p.2.repo = some a → P.D.fold a ≠ P.D.fold sub)
    (hmaster : Spec.HasMaster P.D.fold (runServer P .empty h).db u) (H : Hash)
    (hid : ∀ r ∈ (runServer P .empty h).db.refs, r.repoPath = u → Spec.isMaster P.D.fold r → r.refGitId = Hash.toPlainStr H ∧ Spec.RefText r)
    (hac : ∀ n rows, m1.sql.acceptCommits n rows = true)
    (hun : UniqueIds P.X (runServer P .empty (h ++ [(m1, Spec.refsReq (sub ++ g1) ty)] ++ h2)).db)
    (hfit : FitsPack P.X (runServer P .empty (h ++ [(m1, Spec.refsReq (sub ++ g1) ty)] ++ h2)).db)
    (hfuel : (runServer P .empty (h ++ [(m1, Spec.refsReq (sub ++ g1) ty)] ++ h2)).db.nodes.length ≤ mB.fuel)
    (hordA : ∀ l x, x ∈ mA.ord l ↔ x ∈ l) (hcutA : Spec.CutOk mA.cut) (lsA : List Spec.ReqLine) (tA restA : Bytes) (hrA : Spec.CloneReq lsA tA)
    (outA fileA : Bytes) (hA : (serve P mA (runServer P .empty h) (Spec.fetchReq (u ++ g) (doneBody lsA tA restA))).1 = .reply (.ok (.bytes outA)))
    (hreadA : Spec.readClone outA = some fileA) (StA : ObjectSource) (fA : Nat) (qA : Pack) (hqA : decodePack P.X StA (fA + 1) fileA = .ok qA)
    (oA : MetaData) (hoA : qA.result.hashObject H = some oA) (htA : oA.t = .commit) (cA : Commit) (hcA : Commit.decode oA.data = .ok cA)
    (d : Hash) (hd : Spec.DirAt qA.result.hashObject cA.treeId (below ++ [name]) d) (hd1 : ∀ x, Spec.DirAt qA.result.hashObject cA.treeId (below ++ [name]) x → x = d)
    (honly : Spec.OnlyCalled P h name d)
    (hordB : ∀ l x, x ∈ mB.ord l ↔ x ∈ l) (hcutB : Spec.CutOk mB.cut) (lsB : List Spec.ReqLine) (tB restB : Bytes) (hrB : Spec.CloneReq lsB tB)
    (c : Spec.CommitData) (hok2 : c.Ok) (htext : oA.data = c.text) :
    ∃ (outD : Bytes) (id : Hash) (refs : List (Bytes × Bytes)) (outB fileB : Bytes),
      (serve P m1 (runServer P .empty h) (Spec.refsReq (sub ++ g1) ty)).1 = .reply (.ok (.bytes outD)) ∧ Spec.Shows ty outD (Hash.toPlainStr id) refs ∧
      (serve P mB (runServer P .empty (h ++ [(m1, Spec.refsReq (sub ++ g1) ty)] ++ h2)) (Spec.fetchReq (sub ++ g2) (doneBody lsB tB restB))).1 = .reply (.ok (.bytes outB)) ∧
      Spec.readClone outB = some fileB ∧
      ∀ St fuel, ∃ qB oB, decodePack P.X St (fuel + 1) fileB = .ok qB ∧ qB.result.hashObject id = some oB ∧ oB.t = .commit ∧
        oB.data = ({ c with tree := d, parents := [] } : Spec.CommitData).text ∧
        ((∀ sig p, ¬ Spec.SignedText oA.data sig p) → ∀ sig p, ¬ Spec.SignedText oB.data sig p) := by
  obtain ⟨outD, id, refs, outB, fileB, w1, w2, w3, w4, w5⟩ := sub_clone P hfold base below name u sub hu hsub hok hdd hname hcu hcs hb g g1 g2 hg hg1 hg2 h h2 mA m1 mB ty hfl hmA hmB hab habove hother hmaster H hid hac hun hfit hfuel
    hordA hcutA lsA tA restA hrA outA fileA hA hreadA StA fA qA hqA oA hoA htA cA hcA d hd hd1 honly hordB hcutB lsB tB restB hrB
  refine ⟨outD, id, refs, outB, fileB, w1, w2, w3, w4, fun St fuel => ?_⟩
  obtain ⟨qB, q1, ⟨oB, cB, z1, z2, z3, z4, z5, z6, z7, z8⟩, q2⟩ := w5 St fuel
  rw [htext] at hcA ⊢
  obtain ⟨k1, k2, k3, k4, k5⟩ := commitData_plain hok2 hcA
  refine ⟨qB, oB, q1, z1, z2, ?_, fun hno sig p hs => ?_⟩
  · rw [z7]
    simp only [k2, k3, k4, commitData_encode k1 d]
  · rw [z7] at hs
    obtain ⟨p, hp⟩ := signed_back hok2 hcA hs
    exact hno _ _ hp

/-- **C139 is false** for signed commits: if the commit of the repository has a signature, the commit that the server has made for the directory has the same signature, although its text is another one than the one that was signed. So
for every way to check signatures by which a signature is one of a single text, the signature of the commit is wrong. -/
theorem C139_signature_false (P : ServerExt) (hfold : ∀ a b : Hash, P.D.fold (Hash.toPlainStr a) = P.D.fold (Hash.toPlainStr b) → a = b)
    (base below : List Bytes) (name u sub : Bytes) (hu : u = Spec.pathText true base) (hsub : sub = Spec.pathText true (base ++ below ++ [name]))
    (hok : ∀ d ∈ base ++ below ++ [name], Spec.NameOk d) (hdd : name ≠ [0x2e, 0x2e]) (hname : P.D.fold name ≠ P.D.fold [])
    (hcu : Spec.CleanUrl u) (hcs : Spec.CleanUrl sub) (hb : (0x5c : UInt8) ∉ u)
    (g g1 g2 : Bytes) (hg : g = [] ∨ g = ascii ".git") (hg1 : g1 = [] ∨ g1 = ascii ".git") (hg2 : g2 = [] ∨ g2 = ascii ".git")
    (h h2 : List (Moment × HttpReq)) (mA m1 mB : Moment) (ty : ServiceType)
    (hfl : Spec.SameFold P.D.fold (h ++ [(m1, Spec.refsReq (sub ++ g1) ty)] ++ h2)) (hmA : mA.sql.fold = P.D.fold) (hmB : mB.sql.fold = P.D.fold)
    (hab : Spec.NoneAbove P.D.fold u (h ++ [(m1, Spec.refsReq (sub ++ g1) ty)] ++ h2))
    (habove : ∀ p ∈ h, ∀ a, p.2.repo = some a → pathStartsWith sub a = true → a = u)
    (hother : ∀ p ∈ h ++ h2, ∀ a, p.2.repo = some a → P.D.fold a ≠ P.D.fold sub)
    (hmaster : Spec.HasMaster P.D.fold (runServer P .empty h).db u) (H : Hash)
    (hid : ∀ r ∈ (runServer P .empty h).db.refs, r.repoPath = u → Spec.isMaster P.D.fold r → r.refGitId = Hash.toPlainStr H ∧ Spec.RefText r)
    (hac : ∀ n rows, m1.sql.acceptCommits n rows = true)
    (hun : UniqueIds P.X (runServer P .empty (h ++ [(m1, Spec.refsReq (sub ++ g1) ty)] ++ h2)).db)
    (hfit : FitsPack P.X (runServer P .empty (h ++ [(m1, Spec.refsReq (sub ++ g1) ty)] ++ h2)).db)
    (hfuel : (runServer P .empty (h ++ [(m1, Spec.refsReq (sub ++ g1) ty)] ++ h2)).db.nodes.length ≤ mB.fuel)
    (hordA : ∀ l x, x ∈ mA.ord l ↔ x ∈ l) (hcutA : Spec.CutOk mA.cut) (lsA : List Spec.ReqLine) (tA restA : Bytes) (hrA : Spec.CloneReq lsA tA)
    (outA fileA : Bytes) (hA : (serve P mA (runServer P .empty h) (Spec.fetchReq (u ++ g) (doneBody lsA tA restA))).1 = .reply (.ok (.bytes outA)))
    (hreadA : Spec.readClone outA = some fileA) (StA : ObjectSource) (fA : Nat) (qA : Pack) (hqA : decodePack P.X StA (fA + 1) fileA = .ok qA)
    (oA : MetaData) (hoA : qA.result.hashObject H = some oA) (htA : oA.t = .commit) (cA : Commit) (hcA : Commit.decode oA.data = .ok cA)
    (d : Hash) (hd : Spec.DirAt qA.result.hashObject cA.treeId (below ++ [name]) d) (hd1 : ∀ x, Spec.DirAt qA.result.hashObject cA.treeId (below ++ [name]) x → x = d)
    (honly : Spec.OnlyCalled P h name d)
    (hordB : ∀ l x, x ∈ mB.ord l ↔ x ∈ l) (hcutB : Spec.CutOk mB.cut) (lsB : List Spec.ReqLine) (tB restB : Bytes) (hrB : Spec.CloneReq lsB tB)
    (sig : List Bytes) (p : Bytes) (hsig : Spec.SignedText oA.data sig p) :
    ∃ (outD : Bytes) (id : Hash) (refs : List (Bytes × Bytes)) (outB fileB : Bytes),
      (serve P m1 (runServer P .empty h) (Spec.refsReq (sub ++ g1) ty)).1 = .reply (.ok (.bytes outD)) ∧ Spec.Shows ty outD (Hash.toPlainStr id) refs ∧
      (serve P mB (runServer P .empty (h ++ [(m1, Spec.refsReq (sub ++ g1) ty)] ++ h2)) (Spec.fetchReq (sub ++ g2) (doneBody lsB tB restB))).1 = .reply (.ok (.bytes outB)) ∧
      Spec.readClone outB = some fileB ∧
      ∀ St fuel, ∃ qB oB p', decodePack P.X St (fuel + 1) fileB = .ok qB ∧ qB.result.hashObject id = some oB ∧ oB.t = .commit ∧ Spec.SignedText oB.data sig p' ∧ p' ≠ p ∧
        ∀ valid : List Bytes → Bytes → Prop, (∀ s a b, valid s a → valid s b → a = b) → valid sig p → ¬ valid sig p' := by
  obtain ⟨outD, id, refs, outB, fileB, w1, w2, w3, w4, w5⟩ := sub_clone P hfold base below name u sub hu hsub hok hdd hname hcu hcs hb g g1 g2 hg hg1 hg2 h h2 mA m1 mB ty hfl hmA hmB hab habove hother hmaster H hid hac hun hfit hfuel
    hordA hcutA lsA tA restA hrA outA fileA hA hreadA StA fA qA hqA oA hoA htA cA hcA d hd hd1 honly hordB hcutB lsB tB restB hrB
  refine ⟨outD, id, refs, outB, fileB, w1, w2, w3, w4, fun St fuel => ?_⟩
  obtain ⟨qB, q1, ⟨oB, cB, z1, z2, z3, z4, z5, z6, z7, z8⟩, q2⟩ := w5 St fuel
  obtain ⟨p', e1, e2⟩ := signed_copy hcA z8 hsig
  exact ⟨qB, oB, p', q1, z1, z2, by rw [z7]; exact e1, e2, fun valid hone hv hv' => e2 (hone _ _ _ hv' hv)⟩

/-! ## On concrete commits -/

/-- The commit for the directory of the example repository is not signed. -/
theorem app_unsigned (sig : List Bytes) (p : Bytes) : ¬ Spec.SignedText ({ appData with tree := idOf polyExt (.tree, encodeTree srcA) } : Spec.CommitData).text sig p := by
  intro hs
  generalize hb : ({ appData with tree := idOf polyExt (.tree, encodeTree srcA) } : Spec.CommitData).text = b at hs
  cases hs with
  | mk c' _ tail hc' hr =>
    have plain : appPerson.Plain := ⟨by decide +kernel, by decide +kernel, rfl, by decide⟩
    obtain ⟨_, e2, _⟩ := commitData_text_inj (a := { appData with tree := idOf polyExt (.tree, encodeTree srcA) }) ⟨appPerson_ok, appPerson_ok⟩ hc'
      ⟨plain, plain, by decide +kernel⟩ hb
    have e2 : ascii "\nparent author fix\n" = c'.rest := e2
    rw [hr] at e2
    have e3 := congrArg List.head? e2
    cases sig with
    | nil => exact absurd e3 (by
      simp only [Spec.sigHeader, List.head?_append, show (ascii "gpgsig \n").head? = some 0x67 from by decide, show (ascii "gpgsig ").head? = some 0x67 from by decide,
        show (ascii "\nparent author fix\n").head? = some 0x0a from by decide, Option.some_or]
      decide)
    | cons l ls => exact absurd e3 (by
      simp only [Spec.sigHeader, List.head?_append, show (ascii "gpgsig \n").head? = some 0x67 from by decide, show (ascii "gpgsig ").head? = some 0x67 from by decide,
        show (ascii "\nparent author fix\n").head? = some 0x0a from by decide, Option.some_or]
      decide)

/-- C139: the example repository is pushed to `/app` and `/app/src` is cloned; the commit of the clone is the pushed one with another directory, and neither is signed. -/
example : ∃ (pack : Bytes) (m : Moment) (outB fileB : Bytes) (qB : Pack) (id : Hash) (oB : MetaData),
    (serve demoServer m (runServer demoServer .empty ([(demoMoment, appPush pack)] ++ [(demoMoment, Spec.refsReq (ascii "/app/src" ++ []) .uploadPack)] ++ []))
      (Spec.fetchReq (ascii "/app/src" ++ []) (doneBody cloneLines (ascii "\n") []))).1 = .reply (.ok (.bytes outB)) ∧
    Spec.readClone outB = some fileB ∧ decodePack polyExt (fun _ => none) 1 fileB = .ok qB ∧ qB.result.hashObject id = some oB ∧
    oB.data = ({ appData with tree := idOf polyExt (.tree, encodeTree srcA) } : Spec.CommitData).text ∧ ∀ sig p, ¬ Spec.SignedText oB.data sig p := by
  obtain ⟨pack, m, outD, id, refs, outB, fileB, qB, h1, h2, h3, h4, h5, h6, oB, h7, h8⟩ := app_sub_run
  have e : oB.data = ({ appData with tree := idOf polyExt (.tree, encodeTree srcA) } : Spec.CommitData).text := by
    rw [h8]
    decide +kernel
  exact ⟨pack, m, outB, fileB, qB, id, oB, h3, h4, h5, h7, e, e ▸ app_unsigned⟩

/-- C139 fails: the merge commit of the examples, with its signature; the commit that the server makes for a directory of it has the same signature on another text. -/
example : ∃ (child : CommitObj) (sig : List Bytes) (p p' : Bytes),
    buildFromModel demoExt { gitId := [], tree := [], data := (textCommit signedRest).text, repoPath := ascii "/r" }
      { gitId := Hash.toPlainStr ⟨List.replicate 20 9, by simp⟩, nodeType := ascii "tree", name := ascii "src", mode := ascii "40000", data := [] } = .ok child ∧
    Spec.SignedText (textCommit signedRest).text sig p ∧ Spec.SignedText child.base.data sig p' ∧ p' ≠ p := by
  have hd := commitData_decode (textCommit signedRest) (textCommit_ok _)
  rw [if_pos (show (textCommit signedRest).Plain from ⟨textPerson_plain, textPerson_plain, by decide +kernel⟩)] at hd
  obtain ⟨child, k1, _, _, k4⟩ := C61_every demoExt { gitId := [], tree := [], data := (textCommit signedRest).text, repoPath := ascii "/r" }
    { gitId := Hash.toPlainStr ⟨List.replicate 20 9, by simp⟩, nodeType := ascii "tree", name := ascii "src", mode := ascii "40000", data := [] } _ _ hd rfl
  have hs : Spec.SignedText (textCommit signedRest).text [ascii "-----BEGIN PGP SIGNATURE-----", [], ascii "iQIz", ascii "-----END PGP SIGNATURE-----"] _ :=
    .mk _ _ (ascii "\nMerge\n") (textCommit_ok _) (by decide +kernel)
  obtain ⟨p', e1, e2⟩ := signed_copy (t := ⟨List.replicate 20 9, by simp⟩) hd (by decide +kernel) hs
  exact ⟨child, _, _, p', k1, hs, by rw [k4]; exact e1, e2⟩

end Gust

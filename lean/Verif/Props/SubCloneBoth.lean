import Verif.Props.NestingBoth
import Verif.Props.RefsBoth
import Verif.Props.FetchBoth
import Verif.Props.SubClone

/-! # C110 for the two servers together

A directory of a repository, asked for and cloned by its own path, over HTTP or SSH, whichever way the repository came. -/

namespace Gust

open Spec (nodeObj StoreReach commitsAt InRepo)

/-- After the history `h` somebody asks for the refs of `q` in order to fetch: over HTTP, or with a command on an SSH connection. -/
inductive Spec.AsksFor (P : ServerExt) (h : BothHist) (q : Bytes) : Visit → Prop
  | http (g : Bytes) (hq : Spec.CleanUrl q) (hg : g = [] ∨ g = ascii ".git") : AsksFor P h q (.http (Spec.refsReq (q ++ g) .uploadPack))
  | ssh (i ch : Nat) (p : Option SshProto) (hs : (0x20 : UInt8) ∉ q) (hb : isBoundary q 0 = true) (hl : (runBoth P .empty h).link i = .ready p) :
      AsksFor P h q (.ssh i (.exec ch (Spec.sshAsk .uploadPack q)))

/-- The answer to such a request: a client reads HEAD at `head`, then `refs`. -/
def Spec.Reads (P : ServerExt) (m : Moment) (h : BothHist) (head : Bytes) (refs : List (Bytes × Bytes)) : Visit → Prop
  | .http r => ∃ out, (serve P m (runBoth P .empty h).web r).1 = .reply (.ok (.bytes out)) ∧ Spec.clientHttp .uploadPack out = some ((head, ascii "HEAD") :: refs)
  | .ssh i e => ∃ ch out, (sshStep P.X m (runBoth P .empty h).ssh i e).1 = [(ch, out)] ∧ Spec.clientSsh out = some ((head, ascii "HEAD") :: refs)

/-- In all that was ever sent, to whatever path, the entries of directories with this name (as the database compares names) are those with this id, and no
commit has this id as its root directory. -/
def Spec.OnlyCalledAny (P : ServerExt) (h : BothHist) (name : Bytes) (d : Hash) : Prop :=
  ∀ a p, Spec.SentPack P a h p →
    (∀ o items i, p.result.hashObject o.id = some o → o.t = .tree → decodeTree o.data = .ok items → i ∈ items → (P.D.fold i.filename = P.D.fold name ↔ i.id = d)) ∧
    ∀ o c, p.result.hashObject o.id = some o → o.t = .commit → Commit.decode o.data = .ok c → c.treeId ≠ d

/-- Every row got its name in a pack that was sent. -/
theorem rows_named_both (P : ServerExt) (h : BothHist) : ∀ r ∈ (runBoth P .empty h).web.db.nodes, ∃ a p, Spec.SentPack P a h p ∧ NamedIn p r := by
  induction hn : h.length generalizing h with
  | zero =>
    have : h = [] := List.length_eq_zero_iff.1 hn
    subst this
    intro r hr
    cases hr
  | succ n ih =>
    have hne : h ≠ [] := by rintro rfl; cases hn
    obtain ⟨h', ⟨m, v⟩, rfl⟩ : ∃ h' q, h = h' ++ [q] := ⟨h.dropLast, h.getLast hne, (List.dropLast_append_getLast hne).symm⟩
    have old : ∀ r ∈ (runBoth P .empty h').web.db.nodes, ∃ a p, Spec.SentPack P a (h' ++ [(m, v)]) p ∧ NamedIn p r := by
      intro r hr
      obtain ⟨a, p, h1, rest⟩ := ih h' (by simpa using hn) r hr
      exact ⟨a, p, h1.more _, rest⟩
    rw [runBoth_concat]
    rcases both_effect P m (runBoth P .empty h') v with e | ⟨a, _, he⟩
    · rw [e]
      exact old
    · have key : ∀ file p, Sends (runBoth P .empty h') a file v → decodePack P.X (getHashObject P.X m.sql (runBoth P .empty h').web.db) m.fuel file = .ok p →
          ∀ r ∈ (savePackfile m.sql m.fuel p a (runBoth P .empty h').web.db).2.nodes, ∃ a p, Spec.SentPack P a (h' ++ [(m, v)]) p ∧ NamedIn p r := by
        intro file p hs hd r hr
        rcases push_named hd m.sql m.fuel a (runBoth P .empty h').web.db r hr with g | g
        · exact old r g
        · exact ⟨a, p, ⟨h', m, v, [], a, file, rfl, sends_carries hs, rfl, hd⟩, g⟩
      generalize (bothStep P m (runBoth P .empty h') v).web.db = db' at he
      cases he with
      | same => exact old
      | head =>
        rw [(getHead_only P.X m.sql a (runBoth P .empty h').web.db).1]
        exact old
      | push file p hs hd => exact key file p hs hd
      | pushRef file p cmd hs hd =>
        rw [(handleRefs_only m.sql cmd a (savePackfile m.sql m.fuel p a (runBoth P .empty h').web.db).2).1]
        exact key file p hs hd

/-! ## Commits of paths nobody names -/

theorem savePackfile_commits_at (E : SqlExt) (fuel : Nat) (p : Pack) (a : Bytes) (db : Db) : ∀ c ∈ (savePackfile E fuel p a db).2.commits, c ∈ db.commits ∨ c.repoPath = a := by
  unfold savePackfile
  split
  · rename_i D _
    split
    · rename_i nodes _
      obtain ⟨_, _, _, _, _, _, b5, _, _⟩ := C51_batches_partial E nodes db
      rcases hs : saveNodes E nodes db with ⟨r, db1⟩
      rw [hs] at b5
      have b5 : db1.commits = db.commits := b5
      cases r with
      | ok u =>
        intro c hc
        rcases (saveCommits_mem E D.commits a db1).2 c hc with h | h
        · exact .inl (by rw [← b5]; exact h)
        · obtain ⟨co, _, rfl⟩ := List.mem_map.1 h
          exact .inr rfl
      | _ => exact fun c hc => .inl (by rw [← b5]; exact hc)
    all_goals exact fun c hc => .inl hc
  all_goals exact fun c hc => .inl hc

/-- What a connection is open for was asked for. -/
theorem openFor_asked : ∀ {i : Nat} {h : BothHist} {a : Bytes} {t : ServiceType}, Spec.openFor i h = some (a, t) →
    ∃ p ∈ h, ∃ ch command, p.2 = .ssh i (.exec ch command) ∧ sshCommand command = .ok (a, t) := by
  intro i h
  induction hn : h.length generalizing h with
  | zero =>
    have : h = [] := List.length_eq_zero_iff.1 hn
    subst this
    intro a t e
    cases e
  | succ n ih =>
    have hne : h ≠ [] := by rintro rfl; cases hn
    obtain ⟨h', ⟨m, v⟩, rfl⟩ : ∃ h' q, h = h' ++ [q] := ⟨h.dropLast, h.getLast hne, (List.dropLast_append_getLast hne).symm⟩
    intro a t e
    have old : Spec.openFor i h' = some (a, t) → ∃ p ∈ h' ++ [(m, v)], ∃ ch command, p.2 = .ssh i (.exec ch command) ∧ sshCommand command = .ok (a, t) := by
      intro e
      obtain ⟨p, hp, rest⟩ := ih (by simpa using hn) e
      exact ⟨p, by simp [hp], rest⟩
    unfold Spec.openFor at e
    rw [List.foldl_append] at e
    simp only [List.foldl_cons, List.foldl_nil] at e
    cases v with
    | http r => exact old e
    | ssh j ev =>
      simp only at e
      split at e
      · rename_i hij
        subst hij
        cases ev with
        | exec ch command =>
          simp only [Spec.reopen] at e
          split at e
          · rename_i r hr
            cases e
            exact ⟨(m, .ssh i (.exec ch command)), by simp, ch, command, rfl, hr⟩
          · exact old e
        | auth u s => exact old e
        | data ch b => exact old e
      · exact old e

/-- While nobody names `path`, and no connection has been opened for pushing to it, no commit is stored there. -/
theorem both_commits_other {P : ServerExt} {path : Bytes} {h0 : BothHist}
    (h0ne : ∀ p ∈ h0, ∀ i ch command a, p.2 = .ssh i (.exec ch command) → sshCommand command = .ok (a, .receivePack) → P.D.fold a ≠ P.D.fold path) (h : BothHist)
    (hne : ∀ p ∈ h, ∀ a, p.2.repo = some a → P.D.fold a ≠ P.D.fold path) :
    ∀ c ∈ commitsAt P.D.fold (runBoth P .empty (h0 ++ h)).web.db.commits path, c ∈ (runBoth P .empty h0).web.db.commits := by
  induction hn : h.length generalizing h with
  | zero =>
    have : h = [] := List.length_eq_zero_iff.1 hn
    subst this
    rw [List.append_nil]
    exact fun c hc => (commitsAt_mem.1 hc).1
  | succ n ih =>
    have hnil : h ≠ [] := by rintro rfl; cases hn
    obtain ⟨h', ⟨m, v⟩, rfl⟩ : ∃ h' q, h = h' ++ [q] := ⟨h.dropLast, h.getLast hnil, (List.dropLast_append_getLast hnil).symm⟩
    have ih := ih h' (fun p hp => hne p (by simp [hp])) (by simpa using hn)
    rw [← List.append_assoc, runBoth_concat]
    intro c hc
    obtain ⟨hc1, hc2⟩ := commitsAt_mem.1 hc
    have sent : ∀ a file, Sends (runBoth P .empty (h0 ++ h')) a file v → P.D.fold a ≠ P.D.fold path := by
      intro a file hs
      cases v with
      | http r => exact hne (m, .http r) (by simp) a (by simp only [Visit.repo, HttpReq.repo, hs.1, Spec.RepoOf])
      | ssh i e =>
        cases e with
        | data ch bytes =>
          obtain ⟨_, p, hp, rfl, hsv⟩ := hs
          have ho := openFor_link P _ i p hp
          rw [hsv] at ho
          obtain ⟨q, hq, ch, command, e1, e2⟩ := openFor_asked ho
          rcases List.mem_append.1 hq with hq | hq
          · exact h0ne q hq i ch command _ e1 e2
          · exact hne q (by simp [hq]) _ (by rw [e1]; simp only [Visit.repo, e2])
        | _ => exact hs.elim
    have back : c ∈ (runBoth P .empty (h0 ++ h')).web.db.commits := by
      rcases both_change P m (runBoth P .empty (h0 ++ h')) v with e | ⟨a, ha, e⟩ | ⟨a, file, p, hs, e | ⟨cmd, e⟩⟩ <;> rw [e] at hc1
      · exact hc1
      · rcases (getHead_only P.X m.sql a _).2.2 c hc1 with z | z
        · exact z
        · rw [z] at hc2
          exact absurd hc2 (hne (m, v) (by simp) a ha)
      · rcases savePackfile_commits_at _ _ _ _ _ c hc1 with z | z
        · exact z
        · rw [z] at hc2
          exact absurd hc2 (sent a file hs)
      · rw [(handleRefs_only m.sql cmd a _).2] at hc1
        rcases savePackfile_commits_at _ _ _ _ _ c hc1 with z | z
        · exact z
        · rw [z] at hc2
          exact absurd hc2 (sent a file hs)
    exact ih c (commitsAt_mem.2 ⟨back, hc2⟩)

/-- What such a request does to the database. -/
theorem asksFor_db {P : ServerExt} {h : BothHist} {q : Bytes} {v : Visit} (ha : Spec.AsksFor P h q v) (m : Moment) :
    (runBoth P .empty (h ++ [(m, v)])).web.db = (getHeadObjectId P.X m.sql (runBoth P .empty h).web.db q).2 := by
  rw [runBoth_concat]
  cases ha with
  | http g hq hg =>
    have hroute : route .get (q ++ g ++ ascii "/info/refs") (some ServiceType.uploadPack.display) = .infoRefs q .uploadPack := route_discover hq hg .uploadPack
    show (serve P m _ _).2.db = _
    rw [serve_db]
    simp only [Spec.refsReq, hroute]
  | ssh i ch p hs hb hl =>
    have hc : sshCommand (Spec.sshAsk .uploadPack q) = .ok (q, .uploadPack) := C56_ssh_partial .uploadPack q hs hb
    show (sshLinkStep P.X m (runBoth P .empty h).web.db ((runBoth P .empty h).link i) _).2.2 = _
    simp only [hl, sshLinkStep, sshExec, hc, advertise_db]

/-- What the client reads. -/
theorem asksFor_reads {P : ServerExt} {h : BothHist} {q : Bytes} {v : Visit} (ha : Spec.AsksFor P h q v) (m : Moment) {head : Bytes} {db' : Db}
    (hg : getHeadObjectId P.X m.sql (runBoth P .empty h).web.db q = (.ok head, db')) (hz : head ≠ zeroId) (hx : ∀ x ∈ head, Spec.IsHexDigit x)
    (ht : ∀ r ∈ Spec.refsAt m.sql.fold db'.refs q, Spec.RefText r ∧ utf8Valid r.refName = true) : Spec.Reads P m h head (getRefObjectId m.sql db' q) v := by
  cases ha with
  | http g hq hg' =>
    have hroute : route .get (q ++ g ++ ascii "/info/refs") (some ServiceType.uploadPack.display) = .infoRefs q .uploadPack := route_discover hq hg' .uploadPack
    refine ⟨gitInfoRefs .http .uploadPack head (getRefObjectId m.sql db' q), ?_, ?_⟩
    · unfold serve
      simp only [Spec.refsReq, hroute, advertise, hg]
      rfl
    · rw [client_http hg (fun x hx => (ht x hx).1), if_neg hz]
  | ssh i ch p hs hb hl =>
    have hc : sshCommand (Spec.sshAsk .uploadPack q) = .ok (q, .uploadPack) := C56_ssh_partial .uploadPack q hs hb
    refine ⟨ch, gitInfoRefs .ssh .uploadPack head (getRefObjectId m.sql db' q), ?_, ?_⟩
    · have hv : utf8Valid (gitInfoRefs .ssh .uploadPack head (getRefObjectId m.sql db' q)) = true := by
        refine gitInfoRefs_text hx ?_
        intro p hp
        obtain ⟨x, hx, e1, e2⟩ := getRefObjectId_from p hp
        rw [← e1, ← e2]
        exact ⟨(ht x hx).1.2.1, (ht x hx).2⟩
      show (sshLinkStep P.X m (runBoth P .empty h).web.db ((runBoth P .empty h).link i) (.exec ch (Spec.sshAsk .uploadPack q))).1 = _
      simp only [hl, sshLinkStep, sshExec, hc, advertise, hg, Res.bind_ok, hv, if_true, Res.sent, id, gitInfoRefs_ne_nil, if_false]
    · rw [client_ssh hg (fun x hx => (ht x hx).1), if_neg hz]

theorem asksFor_repo {P : ServerExt} {h : BothHist} {q : Bytes} {v : Visit} (ha : Spec.AsksFor P h q v) : v.repo = some q ∧
    ∀ i ch command a, v = .ssh i (.exec ch command) → sshCommand command ≠ .ok (a, .receivePack) := by
  cases ha with
  | http g hq hg =>
    have hroute : route .get (q ++ g ++ ascii "/info/refs") (some ServiceType.uploadPack.display) = .infoRefs q .uploadPack := route_discover hq hg .uploadPack
    exact ⟨by simp only [Visit.repo, HttpReq.repo, Spec.refsReq, hroute, Spec.RepoOf], fun _ _ _ _ e => nomatch e⟩
  | ssh i ch p hs hb hl =>
    have hc : sshCommand (Spec.sshAsk .uploadPack q) = .ok (q, .uploadPack) := C56_ssh_partial .uploadPack q hs hb
    refine ⟨by simp only [Visit.repo, hc], fun _ _ _ _ e => ?_⟩
    cases e
    rw [hc]
    exact fun h => nomatch h

/-- A client that has been answered on its SSH connection can now clone on it. -/
theorem reads_opened {P : ServerExt} {h : BothHist} {q head : Bytes} {i : Nat} {e : SshEvent} {m : Moment} {refs : List (Bytes × Bytes)} (ha : Spec.AsksFor P h q (.ssh i e))
    (hr : Spec.Reads P m h head refs (.ssh i e)) : Spec.Opened P q i (h ++ [(m, .ssh i e)]) := by
  cases ha with
  | ssh _ ch p hs hb hl =>
    have hc : sshCommand (Spec.sshAsk .uploadPack q) = .ok (q, .uploadPack) := C56_ssh_partial .uploadPack q hs hb
    refine ⟨h, [], m, ch, (fun _ h => nomatch h), hs, hb, rfl, ?_⟩
    obtain ⟨ch', out, h1, _⟩ := hr
    have h1 : (sshLinkStep P.X m (runBoth P .empty h).web.db ((runBoth P .empty h).link i) (.exec ch (Spec.sshAsk .uploadPack q))).1 = [(ch', out)] := h1
    rw [runBoth_concat, bothStep_link]
    simp only [hl, sshLinkStep, sshExec, hc] at h1 ⊢
    cases hq : ((advertise P.X m.sql .ssh .uploadPack (runBoth P .empty h).web.db q).1 >>= fun b => if utf8Valid b then Res.ok b else .panic) with
    | ok b => exact ⟨some { service := .uploadPack, path := q, caps := [], commands := [] }, by simp only [hq, Res.link]⟩
    | _ => simp only [hq, Res.sent] at h1; cases h1

/-- **C110 (partial)** The same over HTTP and SSH. Someone has cloned the repository at `u`, over HTTP or SSH; its master is the commit `H`. Then somebody asks for the refs of a directory of this
repository by its path, over HTTP or SSH, and clones this, over HTTP at its URL or on whatever SSH connection opened for it, with whatever requests and messages for other paths being handled
before and in between. Both are answered; the id read as HEAD is a commit of the clone with the author, committer and message of `H`; and checking it out gives exactly the files that the first
clone has in this directory at `H`, with their modes and contents. `hz`: the SHA-1 of the commit is not zero. (Missing from the full claim: as for `C110_subdirectory_partial`.) -/
theorem C110_both_partial (P : ServerExt) (hfold : ∀ a b : Hash, P.D.fold (Hash.toPlainStr a) = P.D.fold (Hash.toPlainStr b) → a = b)
    (base below : List Bytes) (name u sub : Bytes) (hu : u = Spec.pathText true base) (hsub : sub = Spec.pathText true (base ++ below ++ [name]))
    (hok : ∀ d ∈ base ++ below ++ [name], Spec.NameOk d) (hdd : name ≠ [0x2e, 0x2e]) (hname : P.D.fold name ≠ P.D.fold []) (hb : (0x5c : UInt8) ∉ u)
    (h h2 : BothHist) (mA m1 mB : Moment) (v : Visit) (hask : Spec.AsksFor P h sub v)
    (hfl : Spec.SameFoldAny P.D.fold (h ++ [(m1, v)] ++ h2)) (hmA : mA.sql.fold = P.D.fold) (hmB : mB.sql.fold = P.D.fold)
    (hab : Spec.NoneAboveAny P.D.fold u (h ++ [(m1, v)] ++ h2))
    (habove : ∀ p ∈ h, ∀ a, p.2.repo = some a → pathStartsWith sub a = true → a = u)
    (hother : ∀ p ∈ h ++ h2, ∀ a, p.2.repo = some a → P.D.fold a ≠ P.D.fold sub)
    (hmaster : Spec.HasMaster P.D.fold (runBoth P .empty h).web.db u) (H : Hash)
    (hid : ∀ r ∈ (runBoth P .empty h).web.db.refs, r.repoPath = u → Spec.isMaster P.D.fold r → r.refGitId = Hash.toPlainStr H ∧ Spec.RefText r ∧ utf8Valid r.refName = true)
    (hac : ∀ n rows, m1.sql.acceptCommits n rows = true)
    (hun : UniqueIds P.X (runBoth P .empty (h ++ [(m1, v)] ++ h2)).web.db) (hfit : FitsPack P.X (runBoth P .empty (h ++ [(m1, v)] ++ h2)).web.db)
    (hfuel : (runBoth P .empty (h ++ [(m1, v)] ++ h2)).web.db.nodes.length ≤ mB.fuel)
    (hordA : ∀ l x, x ∈ mA.ord l ↔ x ∈ l) (hcutA : Spec.CutOk mA.cut) (lsA : List Spec.ReqLine) (tA restA : Bytes) (hrA : Spec.CloneReq lsA tA)
    (outA fileA : Bytes) (hA : Spec.FetchedAny P u (doneBody lsA tA restA) outA mA h)
    (hreadA : Spec.readClone outA = some fileA) (StA : ObjectSource) (fA : Nat) (qA : Pack) (hqA : decodePack P.X StA (fA + 1) fileA = .ok qA)
    (oA : MetaData) (hoA : qA.result.hashObject H = some oA) (htA : oA.t = .commit) (cA : Commit) (hcA : Commit.decode oA.data = .ok cA)
    (d : Hash) (hd : Spec.DirAt qA.result.hashObject cA.treeId (below ++ [name]) d) (hd1 : ∀ x, Spec.DirAt qA.result.hashObject cA.treeId (below ++ [name]) x → x = d)
    (honly : Spec.OnlyCalledAny P h name d) (hz : Hash.toPlainStr (idOf P.X (.commit, Commit.encode { cA with treeId := d, parents := [] })) ≠ zeroId)
    (hordB : ∀ l x, x ∈ mB.ord l ↔ x ∈ l) (hcutB : Spec.CutOk mB.cut) (lsB : List Spec.ReqLine) (tB restB : Bytes) (hrB : Spec.CloneReq lsB tB) :
    ∃ (id : Hash) (refs : List (Bytes × Bytes)) (outB fileB : Bytes), Spec.Reads P m1 h (Hash.toPlainStr id) refs v ∧
      (∀ g, Spec.CleanUrl sub → (g = [] ∨ g = ascii ".git") →
        (serve P mB (runBoth P .empty (h ++ [(m1, v)] ++ h2)).web (Spec.fetchReq (sub ++ g) (doneBody lsB tB restB))).1 = .reply (.ok (.bytes outB))) ∧
      (∀ i ch, Spec.Opened P sub i (h ++ [(m1, v)] ++ h2) →
        (sshStep P.X mB (runBoth P .empty (h ++ [(m1, v)] ++ h2)).ssh i (.data ch (doneBody lsB tB restB))).1 = [(ch, outB)]) ∧
      Spec.readClone outB = some fileB ∧
      ∀ St fuel, ∃ qB, decodePack P.X St (fuel + 1) fileB = .ok qB ∧
        (∃ oB cB, qB.result.hashObject id = some oB ∧ oB.t = .commit ∧ Commit.decode oB.data = .ok cB ∧ cB.author = cA.author ∧ cB.committer = cA.committer ∧
          cB.message = cA.message ∧ oB.data = Commit.encode { cA with treeId := d, parents := [] } ∧ d ≠ cA.treeId) ∧
        ∀ c path mode data, Spec.CheckedOut qB.result.hashObject id (c :: path) mode data ↔
          Spec.CheckedOut qA.result.hashObject H (below ++ name :: c :: path) mode data := by
  obtain ⟨_, _, hend⟩ := runBoth_inv P u _ hfl hab
  obtain ⟨paths, _, hrunA⟩ := runBoth_inv P u h (fun p hp => hfl p (by simp [hp])) (fun p hp q hq => hab p (by simp [hp]) q (by simp [hq]))
  obtain ⟨_, hnv⟩ := asksFor_repo hask
  have hm1 : m1.sql.fold = P.D.fold := hfl (m1, v) (by simp)
  have none0 := both_commits_other (P := P) (path := sub) (h0 := []) (fun p hp => nomatch hp) h (fun p hp => hother p (by simp [hp]))
  have none2 := both_commits_other (P := P) (path := sub) (h0 := h ++ [(m1, v)]) (fun p hp i ch command a e1 e2 => by
    rcases List.mem_append.1 hp with hp | hp
    · exact hother p (by simp [hp]) a (by rw [e1]; simp only [Visit.repo, e2])
    · cases List.mem_singleton.1 hp
      exact absurd e2 (hnv i ch command a e1)) h2 (fun p hp => hother p (by simp [hp]))
  have ext1 := runBoth_extends P [(m1, v)] (runBoth P .empty h)
  have ext2 := runBoth_extends P h2 (runBoth P .empty (h ++ [(m1, v)]))
  rw [← runBoth_append] at ext1 ext2
  rw [asksFor_db hask] at none2 ext1 ext2
  obtain ⟨file', hfull, hread⟩ := httpUploadPack_clone hordA hcutA hrA (fetchedAny_http (fun l x => (hordA l x).1) hA)
  rw [hreadA] at hread
  cases hread
  obtain ⟨id, ref, db', fileB, r1, r2, r3, k1, hrefs, hnodup, eid, b1, rest⟩ := sub_clone_db P.X hfold base below name u sub hu hsub hok hdd hname hb mA.sql m1.sql mB.sql hmA hm1 hmB
    _ _ hrunA hend (both_commit_ids P h) (fun p => ∃ a, Spec.SentPack P a h p) (fun r hr => by
      obtain ⟨a, p, g1, g2⟩ := rows_named_both P h r hr
      exact ⟨p, ⟨a, g1⟩, g2⟩)
    (fun r hr hp => by
      obtain ⟨p, hp1, hp2⟩ := paths r hr
      exact habove p hp1 _ hp2 hp)
    (fun r hr => by
      obtain ⟨p, hp1, hp2⟩ := paths r hr
      exact hother p (by simp [hp1]) _ hp2)
    none0 ext1 ext2 none2 hmaster H (fun r hr e hm => (hid r hr e hm).1) hac hun hfit mA.fuel mB.fuel hfuel fileA hfull StA fA qA hqA oA hoA htA cA hcA d hd hd1
    (fun p hp => honly _ p hp.choose_spec)
  obtain ⟨_, rtext, rutf⟩ := hid ref r1 r2 r3
  obtain ⟨outB, hoB⟩ := httpUploadPack_ok (St := mysqlFetch P.X mB.sql mB.fuel (runBoth P .empty (h ++ [(m1, v)] ++ h2)).web.db sub) (cut := mB.cut) (rest := restB) hordB hrB b1
  obtain ⟨file', e1, e2⟩ := httpUploadPack_clone hordB hcutB hrB hoB
  have e1 : getFullPack P.X mB.sql mB.fuel (runBoth P .empty (h ++ [(m1, v)] ++ h2)).web.db sub = .ok file' := e1
  rw [b1, Res.ok.injEq] at e1
  subst e1
  refine ⟨id, _, outB, fileB, asksFor_reads hask m1 k1 (by rw [eid]; exact hz) (toPlainStr_hex _) (fun r hr => ?_), fun g hu hg => ?_, fun i ch hop => ?_, e2, rest⟩
  · rw [hrefs r hr]
    exact ⟨⟨Hash.toPlainStr_length _, toPlainStr_hex _, rtext.2.2.1, rtext.2.2.2⟩, rutf⟩
  · simp only [serve, Spec.fetchReq, route_fetch hu hg, hoB, Res.outcome]
  · rw [opened_sent hop (fun l x => (hordB l x).1), hoB]
    refine if_neg ?_
    intro e
    have e : outB = [] := e
    rw [e] at e2
    cases e2

end Gust

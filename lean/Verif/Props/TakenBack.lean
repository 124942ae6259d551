import Verif.Props.PublishBothExamples
import Verif.Props.AcksExamples
import Verif.Props.NoMaster

/-! # C148: what is taken back

A branch is published, and later set back to an earlier commit by a forced push (`git reset --hard HEAD~1; git push --force`), because what the last commit added was not meant for
everybody. The server accepts this and shows the branch at the earlier commit. It does not remove the later commit, and it sends all commits stored for a repository to every client that
clones it. -/

namespace Gust

/-- **C148 (partial)** A branch can be set back: after any mixed history of both servers, the push that moves a branch to any other commit, with a pack without objects, is answered with `ok`,
whether or not the new value is an ancestor of the old one; the branch then has the new value, and every other branch of every repository keeps its own. No other branch of the repository has
the old value, and the database takes the statement. (Missing from the full claim: that what the branch had is no longer handed out, see `C148_kept_false`.) -/
theorem C148_set_back_partial (P : ServerExt) (u : Bytes) (h h' : BothHist) (m : Moment)
    (c : Spec.PushCmd) (hc : c.Ok) (hold : c.old ≠ zeroId) (hnew : c.new ≠ zeroId) (caps : Bytes) (hcaps : caps.length ≤ 4000) (hascii : ∀ x ∈ caps, x.toNat < 128)
    (pack : Bytes) (trailer : Hash) (hp : Spec.PackFile P.X.inflate pack [] trailer)
    (pre post : List RefRow) (hdb : (runBoth P .empty h).web.db.refs = pre ++ { repoPath := u, refName := c.name ++ [0], refGitId := c.old } :: post)
    (huniq : ∀ x ∈ pre ++ post, m.sql.fold x.repoPath = m.sql.fold u → m.sql.fold x.refGitId ≠ m.sql.fold c.old)
    (hacc : m.sql.acceptUpdate (runBoth P .empty h).web.db.inserts c.new = true) (hsent : Spec.SentAny P u c caps pack m h h') :
    ∃ rep, Spec.PushedAny P u c caps pack rep m h h' ∧
      Spec.reportLines (decide (.sideBand ∈ parseCapabilities caps ∨ .sideBand64k ∈ parseCapabilities caps)) rep =
        some [ascii "unpack ok\n", Spec.statusLine (c.name ++ [0]) none] ∧
      (runBoth P .empty h').web.db.refs = pre ++ { repoPath := u, refName := c.name ++ [0], refGitId := c.new } :: post := by
  obtain ⟨rep, h1, h2, h3⟩ := C126_both_moved_partial P u h h' m c hc hold hnew caps hcaps hascii pack trailer hp pre post hdb huniq hacc hsent
  exact ⟨rep, h1, h3, congrArg Db.refs h2⟩

/-- Over SSH: `dev` has been started and is moved to another commit. -/
example : ∃ rep, Spec.PushedAny demoServer (ascii "/app") onCmd (ascii "report-status") noObjects rep demoMoment devLater (devLater ++ [(demoMoment, .ssh 0 (.data 0 noObjects))]) ∧
    (runBoth demoServer .empty (devLater ++ [(demoMoment, .ssh 0 (.data 0 noObjects))])).web.db.refs =
      [{ repoPath := ascii "/app", refName := ascii "refs/heads/dev" ++ [0], refGitId := onCmd.new }] := by
  obtain ⟨rep, h1, _, h3⟩ := C148_set_back_partial demoServer (ascii "/app") devLater _ demoMoment onCmd onCmd_ok (by decide +kernel) (by decide +kernel) (ascii "report-status") (by decide)
    (by decide) noObjects Hash.zero (noObjects_pack _) [] [] (by decide +kernel) (fun _ h => nomatch h) rfl
    (.ssh (devBefore ++ [(demoMoment, .ssh 0 (.data 0 noObjects))]) [] [] devLater demoMoment demoMoment 0 0 0 0 (by decide) (by decide) (fun _ h => nomatch h) (fun _ h => nomatch h) rfl
      (some { service := .receivePack, path := ascii "/app", caps := parseCapabilities (ascii "report-status"), commands := [RefCommand.new onCmd.old onCmd.new (onCmd.name ++ [0])] })
      (by decide +kernel))
  exact ⟨rep, h1, h3⟩

/-- **C148 is false**: a project is published, over HTTP or SSH, after any mixed history. Then anybody does anything (`h2`); a forced push sets a branch of the repository to any other commit, is
answered with `ok`, and the branch has the new value; anybody does anything again (`h3`). Then every clone of the repository, over HTTP and over SSH, still contains every commit of the
project, with all its files. -/
theorem C148_kept_false (P : ServerExt) (hfold : ∀ a b : Hash, P.D.fold (Hash.toPlainStr a) = P.D.fold (Hash.toPlainStr b) → a = b)
    (u : Bytes) (h h' h2 hb h3 : BothHist) (m1 mb m2 : Moment)
    (c : Spec.PushCmd) (hc : c.Ok) (caps : Bytes) (hcaps : caps.length ≤ 4000) (hascii : ∀ x ∈ caps, x.toNat < 128)
    (happ : Spec.Applies P.D.fold (runBoth P .empty h).web.db u c)
    (os : List (Nat × Spec.Obj)) (pack : Bytes) (hpack : Spec.PackOf P.X P.D.fold (runBoth P .empty h).web.db pack os) (hproj : Spec.Project P.X os)
    (hcommit : ∃ p ∈ os, p.2.1 = .commit) (hsent : Spec.SentAny P u c caps pack m1 h h')
    (hacc : Spec.Accepts m1.sql) (hfuel1 : os.length < m1.fuel)
    (c2 : Spec.PushCmd) (hc2 : c2.Ok) (hold : c2.old ≠ zeroId) (hnew : c2.new ≠ zeroId) (caps2 : Bytes) (hcaps2 : caps2.length ≤ 4000) (hascii2 : ∀ x ∈ caps2, x.toNat < 128)
    (pack2 : Bytes) (trailer : Hash) (hp2 : Spec.PackFile P.X.inflate pack2 [] trailer)
    (pre post : List RefRow) (hdb : (runBoth P .empty (h' ++ h2)).web.db.refs = pre ++ { repoPath := u, refName := c2.name ++ [0], refGitId := c2.old } :: post)
    (huniq : ∀ x ∈ pre ++ post, mb.sql.fold x.repoPath = mb.sql.fold u → mb.sql.fold x.refGitId ≠ mb.sql.fold c2.old)
    (hacc2 : mb.sql.acceptUpdate (runBoth P .empty (h' ++ h2)).web.db.inserts c2.new = true) (hsent2 : Spec.SentAny P u c2 caps2 pack2 mb (h' ++ h2) hb)
    (hfl : Spec.SameFoldAny P.D.fold (hb ++ h3)) (hm2 : m2.sql.fold = P.D.fold) (hab : Spec.NoneAboveAny P.D.fold u (hb ++ h3))
    (hun : UniqueIds P.X (runBoth P .empty (hb ++ h3)).web.db) (hfit : FitsPack P.X (runBoth P .empty (hb ++ h3)).web.db)
    (hfuel2 : (runBoth P .empty (hb ++ h3)).web.db.nodes.length ≤ m2.fuel)
    (hord : ∀ l x, x ∈ m2.ord l ↔ x ∈ l) (hcut : Spec.CutOk m2.cut) (ls : List Spec.ReqLine) (t rest : Bytes) (hr : Spec.CloneReq ls t) :
    ∃ rep rep2 out, Spec.PushedAny P u c caps pack rep m1 h h' ∧
      Spec.PushedAny P u c2 caps2 pack2 rep2 mb (h' ++ h2) hb ∧
      Spec.reportLines (decide (.sideBand ∈ parseCapabilities caps2 ∨ .sideBand64k ∈ parseCapabilities caps2)) rep2 =
        some [ascii "unpack ok\n", Spec.statusLine (c2.name ++ [0]) none] ∧
      (runBoth P .empty hb).web.db.refs = pre ++ { repoPath := u, refName := c2.name ++ [0], refGitId := c2.new } :: post ∧
      (∀ g, Spec.CleanUrl u → (g = [] ∨ g = ascii ".git") →
        (serve P m2 (runBoth P .empty (hb ++ h3)).web (Spec.fetchReq (u ++ g) (doneBody ls t rest))).1 = .reply (.ok (.bytes out))) ∧
      (∀ i ch, Spec.Opened P u i (hb ++ h3) → (sshStep P.X m2 (runBoth P .empty (hb ++ h3)).ssh i (.data ch (doneBody ls t rest))).1 = [(ch, out)]) ∧
      ((∃ g, Spec.CleanUrl u ∧ (g = [] ∨ g = ascii ".git")) ∨ (∃ i, Spec.Opened P u i (hb ++ h3)) → ∃ file, Spec.readClone out = some file ∧
        ∀ St fuel, ∃ q, decodePack P.X St (fuel + 1) file = .ok q ∧ ∀ p ∈ os, p.2.1 = .commit →
          ∀ path mode data, Spec.CheckedOut (Spec.found P.X os) (idOf P.X p.2) path mode data ↔ Spec.CheckedOut q.result.hashObject (idOf P.X p.2) path mode data) := by
  obtain ⟨v, rfl⟩ : ∃ v, hb = h' ++ h2 ++ [(mb, v)] := by
    cases hsent2 <;> exact ⟨_, rfl⟩
  obtain ⟨rep2, b1, b2, b3⟩ := C148_set_back_partial P u _ _ mb c2 hc2 hold hnew caps2 hcaps2 hascii2 pack2 trailer hp2 pre post hdb huniq hacc2 hsent2
  have e : h' ++ h2 ++ [(mb, v)] ++ h3 = h' ++ (h2 ++ [(mb, v)] ++ h3) := by simp
  rw [e] at hfl hab hun hfit hfuel2 ⊢
  obtain ⟨rep, out, r1, _, r3, r4, r5⟩ := C111_both_published_partial P hfold u h h' (h2 ++ [(mb, v)] ++ h3) m1 m2 c hc caps hcaps hascii happ os pack hpack hproj hcommit hsent hacc
    hfuel1 hfl hm2 hab hun hfit hfuel2 hord hcut ls t rest hr
  exact ⟨rep, rep2, out, r1, b1, b2, b3, r3, r4, r5⟩

/-! ## An example -/

theorem libObjects_new : ∀ m ∈ libObjects, MetaData.new polyExt m.t m.data = .ok m := by
  intro m hm
  rcases List.mem_append.1 hm with hm | hm
  · exact appObjects_new m hm
  · rw [List.mem_singleton.1 hm]
    exact new_metaOf polyExt (.commit, _) rfl

/-- The objects of two commits: the one of the example repository, and one that has its directory `src` only. -/
def libEntries : List (Nat × Spec.Obj) := objectsAt polyExt 12 libObjects

theorem libEntries_ids : Spec.NoCollision (idOf polyExt) libEntries :=
  noCollision_objectsAt libObjects_new (fun _ ha _ hb e => List.inj_on_of_nodup_map libObjects_ids ha hb e) 12

theorem lib_found (h : Hash) (m : MetaData) : Spec.found polyExt libEntries h = some m ↔ m ∈ libObjects ∧ m.id = h := by
  rw [found_iff libEntries_ids]
  constructor
  · rintro ⟨p, hp, rfl, e⟩
    obtain ⟨a, m, b, e1, rfl⟩ := mem_objectsAt.1 hp
    have hm : m ∈ libObjects := by rw [e1]; simp
    have e2 := (metaOf_of_new (libObjects_new m hm)).2
    simp only at e ⊢
    rw [e2] at e ⊢
    exact ⟨hm, e⟩
  · rintro ⟨hm, e⟩
    obtain ⟨a, b, hs⟩ := List.append_of_mem hm
    exact ⟨_, mem_objectsAt.2 ⟨a, m, b, hs, rfl⟩, (metaOf_of_new (libObjects_new m hm)).2, e⟩

theorem lib_packOf (fold : Bytes → Bytes) (db : Db) : ∃ pack, Spec.PackOf polyExt fold db pack libEntries := by
  have small : ∀ m ∈ libObjects, m.data.length < 2 ^ 61 := by decide +kernel
  obtain ⟨hd, h1, h2, h3⟩ := packFile_written libObjects_new small (by decide) (by decide) (⟨List.replicate 20 7, rfl⟩ : Hash)
  refine ⟨_, ⟨_, _, fun _ => none, h3, by decide +kernel, (fun _ _ e => by cases e), resolves_written (fun m hm => (new_ok (libObjects_new m hm)).1) 12 []⟩, libEntries_ids, ?_⟩
  intro p hp
  obtain ⟨a, m, b, e, rfl⟩ := mem_objectsAt.1 hp
  have := small m (by rw [e]; simp)
  simp only
  omega

theorem lib_project : Spec.Project polyExt libEntries := by
  have find : ∀ m ∈ libObjects, Spec.found polyExt libEntries m.id = some m := fun m hm => (lib_found _ _).2 ⟨hm, rfl⟩
  have mem : ∀ o, Spec.found polyExt libEntries o.id = some o → (o = metaOf polyExt (.commit, appCommit.encode) ∨ o = metaOf polyExt (.tree, encodeTree appItems) ∨
      o = metaOf polyExt (.tree, encodeTree srcA) ∨ o = libBlob ∨ o = appBlob) ∨ o = metaOf polyExt (.commit, srcCommit.encode) := by
    intro o ho
    have := ((lib_found _ _).1 ho).1
    simpa [libObjects, appObjects, appThin, libBlob, or_assoc] using this
  refine ⟨⟨?_, ?_, ?_, ?_, ?_, ?_⟩, noCycles_of_rank appDepth ?_⟩
  · intro o ho
    rcases mem o ho with (rfl | rfl | rfl | rfl | rfl) | rfl <;> simp [metaOf, appBlob, libBlob]
  · intro o ho ht
    rcases mem o ho with (rfl | rfl | rfl | rfl | rfl) | rfl
    · exact ⟨appCommit, appCommit_decode, _, find (metaOf polyExt (.tree, encodeTree appItems)) (by simp [libObjects, appObjects, appThin]), rfl, rfl⟩
    · cases ht
    · cases ht
    · cases ht
    · cases ht
    · exact ⟨srcCommit, srcCommit_decode, _, find (metaOf polyExt (.tree, encodeTree srcA)) (by simp [libObjects, appObjects, appThin]), rfl, rfl⟩
  · intro o ho ht
    rcases mem o ho with (rfl | rfl | rfl | rfl | rfl) | rfl
    · cases ht
    · exact ⟨_, appItems_decode⟩
    · exact ⟨_, srcA_decode⟩
    all_goals cases ht
  · intro o ho ht
    rcases mem o ho with (rfl | rfl | rfl | rfl | rfl) | rfl <;> cases ht
  · intro o items i _ ho ht hd hi
    rcases mem o ho with (rfl | rfl | rfl | rfl | rfl) | rfl
    · cases ht
    · rw [show decodeTree (metaOf polyExt (.tree, encodeTree appItems)).data = .ok appItems from appItems_decode] at hd
      cases hd
      simp only [appItems, List.mem_cons, List.not_mem_nil, or_false] at hi
      rcases hi with rfl | rfl
      · exact ⟨libBlob, find libBlob (by simp [libObjects, appObjects, appThin, libBlob]), rfl, rfl⟩
      · exact ⟨_, find (metaOf polyExt (.tree, encodeTree srcA)) (by simp [libObjects, appObjects, appThin]), rfl, rfl⟩
    · rw [show decodeTree (metaOf polyExt (.tree, encodeTree srcA)).data = .ok srcA from srcA_decode] at hd
      cases hd
      simp only [srcA, List.mem_cons, List.not_mem_nil, or_false] at hi
      subst hi
      exact ⟨appBlob, find appBlob (by simp [libObjects, appObjects]), rfl, rfl⟩
    all_goals cases ht
  · intro o items _ ho ht hd
    rcases mem o ho with (rfl | rfl | rfl | rfl | rfl) | rfl
    · cases ht
    · rw [show decodeTree (metaOf polyExt (.tree, encodeTree appItems)).data = .ok appItems from appItems_decode] at hd
      cases hd
      decide +kernel
    · rw [show decodeTree (metaOf polyExt (.tree, encodeTree srcA)).data = .ok srcA from srcA_decode] at hd
      cases hd
      decide +kernel
    all_goals cases ht
  · intro o items i ho ht hd hi
    rcases mem o ho with (rfl | rfl | rfl | rfl | rfl) | rfl
    · cases ht
    · rw [show decodeTree (metaOf polyExt (.tree, encodeTree appItems)).data = .ok appItems from appItems_decode] at hd
      cases hd
      simp only [appItems, List.mem_cons, List.not_mem_nil, or_false] at hi
      rcases hi with rfl | rfl <;> decide +kernel
    · rw [show decodeTree (metaOf polyExt (.tree, encodeTree srcA)).data = .ok srcA from srcA_decode] at hd
      cases hd
      simp only [srcA, List.mem_cons, List.not_mem_nil, or_false] at hi
      subst hi
      decide +kernel
    all_goals cases ht

/-- The forced push: `master` goes from the commit with all files to the one with `src` only. -/
def backCmd : Spec.PushCmd := { old := appCmd.new, new := Hash.toPlainStr srcId, name := ascii "refs/heads/master" }

theorem backCmd_ok : backCmd.Ok := by
  refine ⟨by decide +kernel, by decide +kernel, by decide +kernel, by decide +kernel, by decide, by decide, by decide⟩

/-- Room for six objects. -/
def backMoment : Moment := { demoMoment with fuel := 7 }

/-- The requests. -/
def bothCommits (pack : Bytes) : HttpReq := Spec.pushReq (ascii "/app" ++ []) (Spec.pushBody appCmd [] (ascii "report-status") pack)
def setBack : HttpReq := Spec.pushReq (ascii "/app" ++ []) (Spec.pushBody backCmd [] (ascii "report-status") noObjects)

theorem pushed_serve {P : ServerExt} {u : Bytes} {c : Spec.PushCmd} {caps pack rep : Bytes} {m : Moment} {h h' : BothHist} (hp : Spec.PushedAny P u c caps pack rep m h h') {r : HttpReq}
    (e : h' = h ++ [(m, .http r)]) : (serve P m (runBoth P .empty h).web r).1 = .reply (.ok (.bytes rep)) := by
  cases hp with
  | http _ g hu hg ha =>
    cases List.append_cancel_left e
    exact ha
  | ssh h0 h1 h2 _ m0 m1 i ch0 ch1 ch hs hb hn1 hn2 hh ha =>
    cases List.append_cancel_left e

/-- What is stored after the first push. -/
theorem back_stored {pack rep : Bytes} {h' : BothHist} (hpack : Spec.PackOf polyExt demoFold Db.empty pack libEntries)
    (hp : Spec.PushedAny demoServer (ascii "/app") appCmd (ascii "report-status") pack rep backMoment [] h') :
    (∀ o, StoredObj (runBoth demoServer .empty h').web.db o → metaOf polyExt o ∈ libObjects) ∧
    (runBoth demoServer .empty h').web.db.refs = [{ repoPath := ascii "/app", refName := appCmd.name ++ [0], refGitId := appCmd.new }] := by
  have hun : UniqueIds polyExt Db.empty := by
    intro a b ha
    rcases ha with ⟨n, hn, _⟩ | ⟨n, hn, _⟩ <;> cases hn
  obtain ⟨p, d1, d2⟩ := packOf_read demoFold_hash (both_nodes demoServer []) hun (E := demoSql) rfl hpack (fuel := 7) (by decide)
  obtain ⟨st', e1, e2, _⟩ := pushedAny_http appCmd_ok (by decide) (by decide) hp
  rw [e2]
  rw [push_answer _ _ _ appCmd appCmd_ok (ascii "report-status") (by decide) (by decide) pack (decodePack_magic d1)] at e1
  obtain ⟨p', db1, h1, h2, h3, _⟩ := receiveData_ok rfl (Res.unwrap_eq_ok.1 e1)
  have : p' = p := Res.ok.inj (h1.symm.trans d1)
  subst this
  simp only at h2 h3
  have e4 := congrArg Prod.snd h3
  obtain ⟨g1, g2⟩ := handleRefs_only backMoment.sql { RefCommand.new appCmd.old appCmd.new (appCmd.name ++ [0]) with ok := true } (ascii "/app") db1
  rw [h3] at g1 g2
  have h4 : st'.db.refs = db1.refs ++ [{ repoPath := ascii "/app", refName := appCmd.name ++ [0], refGitId := appCmd.new }] := by
    rw [← show _ = st'.db from e4]
    rfl
  have h5 : db1.refs = [] := by
    have := savePackfile_refs backMoment.sql backMoment.fuel p' (ascii "/app") Db.empty
    have e : (savePackfile backMoment.sql backMoment.fuel p' (ascii "/app") Db.empty).2 = db1 := congrArg Prod.snd h2
    rw [e] at this
    exact this
  refine ⟨fun o ho => ?_, by rw [h4, h5]; rfl⟩
  obtain ⟨rows, k1, k2, _, k4⟩ := push_effect h1 backMoment.sql backMoment.fuel (ascii "/app") Db.empty
  have e : (savePackfile backMoment.sql backMoment.fuel p' (ascii "/app") Db.empty).2 = db1 := congrArg Prod.snd h2
  rw [e] at k1 k4
  have hf : ∀ h m, p'.result.hashObject h = some m → m ∈ libObjects := fun h m hm => by
    rw [d2] at hm
    exact ((lib_found _ _).1 hm).1
  rcases ho with ⟨n, hn, rfl⟩ | ⟨r, hr, rfl⟩
  · rw [g1, k1] at hn
    obtain ⟨m, hm, e, _⟩ := k2 n hn
    exact e ▸ hf _ _ hm
  · rw [g2] at hr
    rcases k4 r hr with h | ⟨_, _, m, c, hm, ht, hd, _⟩
    · cases h
    · have hmem := hf _ _ hm
      have := (metaOf_of_new (libObjects_new m hmem)).2
      rw [hd, ← ht, this]
      exact hmem

/-- **C148 is false**, on a concrete run over HTTP: two commits are pushed to `/app`, and `master` is the one with the files `b` and `src/a`. A forced push sets `master` back to the one without
`b`; it is answered with `ok`, and a client that asks is shown this commit for HEAD and `master`, and nothing else. Still the clone contains the other commit and the file `b`. -/
theorem C148_forced_false : ∃ (pack rep rep2 shown out file : Bytes) (m2 : Moment) (q : Pack) (s1 s2 : ServerState),
    serve demoServer backMoment .empty (bothCommits pack) = (.reply (.ok (.bytes rep)), s1) ∧
    serve demoServer backMoment s1 setBack = (.reply (.ok (.bytes rep2)), s2) ∧
    Spec.reportLines false rep2 = some [ascii "unpack ok\n", ascii "ok refs/heads/master" ++ [0]] ∧
    serve demoServer demoMoment s2 (Spec.refsReq (ascii "/app" ++ []) .uploadPack) = (.reply (.ok (.bytes shown)), s2) ∧
    Spec.clientHttp .uploadPack shown = some [(Hash.toPlainStr srcId, ascii "HEAD"), (Hash.toPlainStr srcId, ascii "refs/heads/master" ++ [0])] ∧
    (serve demoServer m2 s2 (Spec.fetchReq (ascii "/app" ++ []) (doneBody cloneLines (ascii "\n") []))).1 = .reply (.ok (.bytes out)) ∧
    Spec.readClone out = some file ∧ decodePack polyExt (fun _ => none) 1 file = .ok q ∧
    Spec.CheckedOut q.result.hashObject (idOf polyExt (.commit, appCommit.encode)) [ascii "b"] (ascii "100644") (ascii "two") := by
  obtain ⟨pack, hpack⟩ := lib_packOf demoFold Db.empty
  have hlen : libEntries.length = 6 := objectsAt_length polyExt 12 libObjects
  have hacc : Spec.Accepts backMoment.sql := ⟨fun _ _ => rfl, fun _ _ => rfl, fun _ _ => rfl, fun _ _ => rfl⟩
  have hun0 : UniqueIds polyExt Db.empty := by
    intro a b ha
    rcases ha with ⟨n, hn, _⟩ | ⟨n, hn, _⟩ <;> cases hn
  have hsent : Spec.SentAny demoServer (ascii "/app") appCmd (ascii "report-status") pack backMoment [] [(backMoment, .http (bothCommits pack))] :=
    .http [] [] app_clean_url (.inl rfl)
  obtain ⟨rep0, hpush, _⟩ := C111_both_partial demoServer demoFold_hash (ascii "/app") [] _ backMoment hun0 rfl hacc appCmd appCmd_ok (ascii "report-status") (by decide)
    (by decide) (.inl rfl) libEntries pack hpack lib_project (by rw [hlen]; decide) hsent
  obtain ⟨objs, hrefs⟩ := back_stored hpack hpush
  have hsent2 : Spec.SentAny demoServer (ascii "/app") backCmd (ascii "report-status") noObjects backMoment ([(backMoment, .http (bothCommits pack))] ++ [])
      ([(backMoment, .http (bothCommits pack)), (backMoment, .http setBack)]) := .http [(backMoment, .http (bothCommits pack))] [] app_clean_url (.inl rfl)
  obtain ⟨_, _, hdb⟩ := C126_both_moved_partial demoServer (ascii "/app") _ _ backMoment backCmd backCmd_ok (by decide +kernel) (by decide +kernel) (ascii "report-status") (by decide) (by decide)
    noObjects Hash.zero (noObjects_pack _) [] [] hrefs (fun _ h => nomatch h) rfl hsent2
  have objs2 : ∀ o, StoredObj (runBoth demoServer .empty ([(backMoment, .http (bothCommits pack)), (backMoment, .http setBack)] ++ [])).web.db o → metaOf polyExt o ∈ libObjects := by
    intro o ho
    rw [List.append_nil, hdb.1] at ho
    rcases ho with ⟨n, hn, e⟩ | ⟨n, hn, e⟩
    · exact objs o (.inl ⟨n, hn, e⟩)
    · exact objs o (.inr ⟨n, hn, e⟩)
  obtain ⟨m2, hm2⟩ : ∃ m2 : Moment, m2 = { demoMoment with
      fuel := (runBoth demoServer .empty ([(backMoment, .http (bothCommits pack)), (backMoment, .http setBack)] ++ [])).web.db.nodes.length } := ⟨_, rfl⟩
  have names : ∀ x ∈ [(backMoment, Visit.http (bothCommits pack)), (backMoment, Visit.http setBack)] ++ [], x.1.sql.fold = demoFold ∧ ∀ a, x.2.repo = some a → a = ascii "/app" := by
    intro x hx
    rw [List.append_nil] at hx
    simp only [List.mem_cons, List.not_mem_nil, or_false] at hx
    rcases hx with rfl | rfl
    · refine ⟨rfl, fun a e => ?_⟩
      simp only [Visit.repo, HttpReq.repo, bothCommits, Spec.pushReq, route_push app_clean_url (.inl rfl)] at e
      exact (Option.some.inj e).symm
    · refine ⟨rfl, fun a e => ?_⟩
      simp only [Visit.repo, HttpReq.repo, setBack, Spec.pushReq, route_push app_clean_url (.inl rfl)] at e
      exact (Option.some.inj e).symm
  have hbig : ∀ m ∈ libObjects, m.data.length < 2 ^ 61 ∧ (MetaData.convertToVec polyExt m).length ≤ 10000 := by decide +kernel
  obtain ⟨rep, rep2, out, r1, r2, r3, r4, r5, _, r7⟩ := C148_kept_false demoServer demoFold_hash (ascii "/app") [] _ [] _ [] backMoment backMoment m2 appCmd appCmd_ok (ascii "report-status")
    (by decide) (by decide) (.inl rfl) libEntries pack hpack lib_project ⟨_, .head _, rfl⟩ hsent hacc (by rw [hlen]; decide) backCmd backCmd_ok (by decide +kernel) (by decide +kernel)
    (ascii "report-status") (by decide) (by decide) noObjects Hash.zero (noObjects_pack _) [] [] hrefs (fun _ h => nomatch h) rfl hsent2 (fun x hx => (names x hx).1) (by rw [hm2]; rfl)
    (fun a ha b hb x y hx hy _ _ => by rw [(names a ha).2 x hx, (names b hb).2 y hy]) (few_unique libObjects_ids objs2) (few_fits (by decide) hbig objs2) (by rw [hm2])
    (by rw [hm2]; exact fun _ _ => .rfl) (by rw [hm2]; exact demoCut_ok) cloneLines (ascii "\n") [] cloneLines_ok
  obtain ⟨file, f1, f2⟩ := r7 (.inl ⟨[], app_clean_url, .inl rfl⟩)
  obtain ⟨q, q1, q2⟩ := f2 (fun _ => none) 0
  rw [show decide (Capability.sideBand ∈ parseCapabilities (ascii "report-status") ∨ Capability.sideBand64k ∈ parseCapabilities (ascii "report-status")) = false by decide +kernel,
    show Spec.statusLine (backCmd.name ++ [0]) none = ascii "ok refs/heads/master" ++ [0] by decide] at r3
  have r5 := r5 [] app_clean_url (.inl rfl)
  rw [List.append_nil] at r5
  have c1 : (serve demoServer backMoment .empty (bothCommits pack)).1 = .reply (.ok (.bytes rep)) := pushed_serve r1 rfl
  have c2 : (serve demoServer backMoment (serve demoServer backMoment .empty (bothCommits pack)).2 setBack).1 = .reply (.ok (.bytes rep2)) := pushed_serve (P := demoServer) (h := [(backMoment, .http (bothCommits pack))]) r2 rfl
  obtain ⟨s2, hs2⟩ : ∃ s2, s2 = (runBoth demoServer .empty [(backMoment, .http (bothCommits pack)), (backMoment, .http setBack)]).web := ⟨_, rfl⟩
  have hs2' : (serve demoServer backMoment (serve demoServer backMoment .empty (bothCommits pack)).2 setBack).2 = s2 := hs2.symm
  rw [← hs2] at r4 r5
  simp only [List.nil_append] at r4
  have hat : Spec.refsAt demoServer.D.fold s2.db.refs (ascii "/app") = [{ repoPath := ascii "/app", refName := backCmd.name ++ [0], refGitId := backCmd.new }] := by
    rw [r4]
    decide +kernel
  obtain ⟨shown, r, refs, k1, k2, k3, _, _, k6⟩ := (C122_readable_partial demoServer (ascii "/app") [] app_clean_url (by decide) (.inl rfl) s2 demoMoment rfl .uploadPack).1
    ⟨{ repoPath := ascii "/app", refName := backCmd.name ++ [0], refGitId := backCmd.new }, by rw [r4]; exact .head _, rfl, (by decide +kernel : demoFold (backCmd.name ++ [0]) = demoFold (ascii "refs/heads/master"))⟩ (by
      intro x hx _
      rw [r4] at hx
      rw [List.mem_singleton.1 hx]
      decide +kernel) (by rw [hat]; simp) (by
      intro x hx
      rw [hat] at hx
      rw [List.mem_singleton.1 hx]
      exact ⟨by decide +kernel, by decide +kernel, by decide +kernel, by decide +kernel⟩)
  rw [r4] at k3
  rw [List.mem_singleton.1 k3] at k2
  rw [hat] at k6
  rw [List.perm_singleton.1 k6] at k2
  refine ⟨pack, rep, rep2, shown, out, file, m2, q, (serve demoServer backMoment .empty (bothCommits pack)).2, s2, Prod.ext c1 rfl, Prod.ext c2 hs2', r3, k1, k2, r5, f1, q1, ?_⟩
  have key := (q2 (12, (.commit, appCommit.encode)) (.head _) rfl [ascii "b"] (ascii "100644") (ascii "two")).1
  refine key ?_
  show Spec.CheckedOut (Spec.found polyExt libEntries) (metaOf polyExt (.commit, appCommit.encode)).id _ _ _
  have find : ∀ m ∈ libObjects, Spec.found polyExt libEntries m.id = some m := fun m hm => (lib_found _ _).2 ⟨hm, rfl⟩
  refine ⟨metaOf polyExt (.commit, appCommit.encode), appCommit, rfl, find _ (by simp [libObjects, appObjects, appThin]), rfl, appCommit_decode, ?_⟩
  exact .file (metaOf polyExt (.tree, encodeTree appItems)) libBlob appItems (fileItem "b" (idOf polyExt (.blob, ascii "two"))) (find _ (by simp [libObjects, appObjects, appThin])) rfl appItems_decode
    (by simp [appItems]) (by decide) rfl (find libBlob (by simp [libObjects, appObjects, appThin, libBlob])) rfl

end Gust

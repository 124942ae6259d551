import Verif.Props.FetchOverlapExamples
import Verif.Props.RefsOverlap
import Verif.Props.Nesting

/-! # Where C78, C81, C82, C104 and C105 do not hold -/

namespace Gust

open Spec (nodeObj StoreReach commitsAt InRepo)

/-! ## C81 -/

/-- **C81 is false** for a path without commits (a repository whose first push has stored directories and files but no commit yet, or one that nobody has pushed to):
the clone dies, whatever happens between its queries. -/
theorem C81_empty_false (X : Ext) (V : Nat → SqlExt × Db) (fuel : Nat) (path : Bytes) (h : commitsAt (V 0).1.fold (V 0).2.commits path = []) :
    getFullPackL X V fuel path = .panic := by
  have h1 : commitsByPath (V 0).1 (V 0).2 path = [] := by
    have hp : (commitsByPath (V 0).1 (V 0).2 path).Perm (commitsAt (V 0).1.fold (V 0).2.commits path) := (V 0).1.order_perm _
    rw [h] at hp
    exact hp.eq_nil
  have h2 : (V 2).1.order (([] : HashMeta).map Prod.snd) = [] := ((V 2).1.order_perm _).eq_nil
  have h3 : (V 1).1.order ((V 1).2.nodes.filter (fun n => ([] : List Bytes).any (fun k => (V 1).1.fold n.gitId == (V 1).1.fold k))) = [] := by
    have hp := (V 1).1.order_perm ((V 1).2.nodes.filter (fun n => ([] : List Bytes).any (fun k => (V 1).1.fold n.gitId == (V 1).1.fold k)))
    rw [show (V 1).2.nodes.filter (fun n => ([] : List Bytes).any (fun k => (V 1).1.fold n.gitId == (V 1).1.fold k)) = [] by simp] at hp ⊢
    exact hp.eq_nil
  have h4 : fullObjectsL X V fuel path = .ok ([], 2) := by
    rw [fullObjectsL, h1]
    show (nodesByIds (V 1).1 (V 1).2 []).bind _ = _
    unfold nodesByIds
    simp only
    rw [h3]
    rfl
  rw [getFullPackL, h4, Res.bind_ok]
  simp only
  rw [packOf, h2]
  rfl

/-! ## C82 -/

/-- The database of the examples, but inserts of commits fail. -/
def noCommitsSql : SqlExt := { demoSql with acceptCommits := fun _ _ => false }

/-- **C82 is false** if the insert of a commit fails: the push has finished, its branch is there, and no commit is in the repository. -/
theorem C82_insert_false : ∃ (p : Pack) (s : Sys), SysRun polyExt (fun E => E.fold = demoFold) AppPaths OwnCommit Sys.empty s ∧
    s.pushed = [(0, ascii "/app", p)] ∧ s.tasks = [some []] ∧ s.db.refs = [{ repoPath := ascii "/app", refName := ascii "refs/heads/master", refGitId := appCmd.new }] ∧
    (∃ m, p.result.hashObject m.id = some m ∧ m.t = .commit) ∧ ∀ o, ¬ InRepo demoFold s.db (ascii "/app") o := by
  obtain ⟨file, p, hdec, hown, hobj, hsave⟩ := app_task
  obtain ⟨db1, s1⟩ := hsave noCommitsSql (fun _ _ => rfl) (ascii "/app") Sys.empty.db
  have r1 : db1.refs = [] := by
    obtain ⟨db', e1, e2⟩ := savePackfile_any (fun _ _ => rfl) s1 Sys.empty.db
    rw [s1] at e1
    rw [(Prod.mk.inj e1).2, e2]
    rfl
  have c1 : db1.commits = [] := by
    obtain ⟨D, rows, db0, p1, p2, p3, rfl⟩ := savePackfile_ok s1
    have e := (saveNodes_ok p3).2.1
    have none : ∀ (bs : List (List CommitRow)) (db : Db), (insertCommits noCommitsSql bs db).commits = db.commits := by
      intro bs
      induction bs with
      | nil => intro db; rfl
      | cons b bs ih => intro db; rw [insertCommits, ih]; rfl
    rw [saveCommits, none, e]
    rfl
  set row : RefRow := { repoPath := ascii "/app", refName := ascii "refs/heads/master", refGitId := appCmd.new } with hrow
  set db2 : Db := { db1 with refs := db1.refs ++ [row], inserts := db1.inserts + 1 } with hdb2
  have p1 := SysStep.push (X := polyExt) (Q := fun E => E.fold = demoFold) (R := AppPaths) (W := OwnCommit) Sys.empty _ _ _ p noCommitsSql 2 (ascii "/app") appCreate hdec (.inl rfl) hown
  have t1 := solo_push polyExt noCommitsSql 2 p (ascii "/app") appCreate Sys.empty.db
  rw [s1] at t1
  have t1 : Solo polyExt noCommitsSql (some (pushActs noCommitsSql.pool 2 p (ascii "/app") appCreate), Sys.empty.db) (some [], db2) := t1
  have u1 := t1.run (Q := fun E => E.fold = demoFold) (R := AppPaths) (W := OwnCommit) rfl [some (pushActs noCommitsSql.pool 2 p (ascii "/app") appCreate)] [(0, ascii "/app", p)] 0 rfl
  refine ⟨p, ⟨db2, [some []], [(0, ascii "/app", p)]⟩, SysRun.trans (.step _ _ _ (.refl _) p1) u1, rfl, rfl, ?_, ?_, ?_⟩
  · show db1.refs ++ [row] = [row]
    rw [r1]
    rfl
  · exact ⟨metaOf polyExt (.commit, appCommit.encode), (hobj _ _).2 ⟨by simp [appObjects, appThin], rfl⟩, rfl⟩
  · intro o ho
    have none : commitsAt demoFold db2.commits (ascii "/app") = [] := by
      show commitsAt demoFold db1.commits (ascii "/app") = []
      rw [c1]
      rfl
    cases ho with
    | commit r hr => rw [none] at hr; cases hr
    | node r c x n hr => rw [none] at hr; cases hr

/-! ## C104, C105 -/

/-- A second branch at the same commit. -/
def devCreate : RefCommand := { refName := ascii "refs/heads/dev", oldId := zeroId, newId := appCmd.new, ok := true, errorMsg := [], commandType := .create }

/-- Two branches at one commit. -/
theorem two_branches : ∃ (p : Pack) (s t : Sys), (∃ St fuel0 file, decodePack polyExt St fuel0 file = .ok p) ∧ Spec.HasMaster demoFold t.db (ascii "/app") ∧ Spec.NobodyWorking s ∧ SysRun polyExt AppSql AppPaths OwnCommit Sys.empty s ∧
    SysRun polyExt AppSql AppPaths OwnCommit { s with tasks := s.tasks ++ [some (pushActs demoSql.pool 2 p (ascii "/app") devCreate)], pushed := (s.tasks.length, ascii "/app", p) :: s.pushed } t ∧
    Spec.NobodyWorking t ∧ (Spec.afterCommand demoFold (ascii "/app") devCreate (Spec.refsAt demoFold s.db.refs (ascii "/app"))).length = 2 ∧
    (Spec.refsAt demoFold t.db.refs (ascii "/app")).length = 2 ∧
    ∃ out head refs, refsAnswer polyExt demoSql demoSql .uploadPack t.db t.db (ascii "/app") = .ok out ∧ Spec.Shows .uploadPack out head refs ∧ refs.length = 1 := by
  obtain ⟨p, a, b, h1, h2, hobj, ha1, ha2, ha3, hb1, hb2, _, objs, St, fuel0, file, hdec, hown, hsave⟩ := app_two
  obtain ⟨db1, s1⟩ := hsave demoSql (fun _ _ => rfl) (ascii "/app") a.db
  have r1 : db1.refs = a.db.refs := by
    obtain ⟨db', e1, e2⟩ := savePackfile_any (fun _ _ => rfl) s1 a.db
    rw [s1] at e1
    rw [(Prod.mk.inj e1).2, e2]
  set row : RefRow := { repoPath := ascii "/app", refName := ascii "refs/heads/dev", refGitId := appCmd.new } with hrow
  set db2 : Db := { db1 with refs := db1.refs ++ [row], inserts := db1.inserts + 1 } with hdb2
  have t1 := solo_push polyExt demoSql 2 p (ascii "/app") devCreate a.db
  rw [s1] at t1
  have t1 : Solo polyExt demoSql (some (pushActs demoSql.pool 2 p (ascii "/app") devCreate), a.db) (some [], db2) := t1
  have u1 := t1.run (Q := AppSql) (R := AppPaths) (W := OwnCommit) ⟨rfl, fun _ _ => rfl⟩ (a.tasks ++ [some (pushActs demoSql.pool 2 p (ascii "/app") devCreate)])
    ((a.tasks.length, ascii "/app", p) :: a.pushed) a.tasks.length (by simp)
  have e2 : db2.refs = [{ repoPath := ascii "/app", refName := ascii "refs/heads/master", refGitId := appCmd.new }, row] := by
    show db1.refs ++ [row] = _
    rw [r1, ha3]
    rfl
  obtain ⟨r, q1, q2, q3, q4⟩ := getHead_master (X := polyExt) (E := demoSql) (u := ascii "/app") (by decide) (db := db2)
    ⟨{ repoPath := ascii "/app", refName := ascii "refs/heads/master", refGitId := appCmd.new }, by rw [e2]; simp, rfl, by unfold Spec.isMaster; decide +kernel⟩
  have hid : r.refGitId = appCmd.new := by
    rw [e2] at q1
    simp only [List.mem_cons, List.not_mem_nil, or_false] at q1
    rcases q1 with rfl | rfl <;> rfl
  have hrefs : getRefObjectId demoSql db2 (ascii "/app") = [(appCmd.new, ascii "refs/heads/dev")] := by
    unfold getRefObjectId
    rw [e2]
    decide +kernel
  obtain ⟨pkts, k1, k2⟩ := C60_advertisement_http .uploadPack r.refGitId (getRefObjectId demoSql db2 (ascii "/app")) (by rw [hid]; exact appCmd_ok.2.2.1) (by rw [hid]; exact appCmd_ok.2.2.2.1) (by
    intro x hx
    rw [hrefs] at hx
    rw [List.mem_singleton.1 hx]
    exact ⟨appCmd_ok.2.2.1, appCmd_ok.2.2.2.1, by decide, by decide⟩)
  refine ⟨p, a, ⟨db2, a.tasks ++ [some []], (a.tasks.length, ascii "/app", p) :: a.pushed⟩, ⟨_, _, _, hdec⟩, ⟨r, q1, q2, q3⟩, ?_, h1, ?_, ?_, ?_, ?_, _, r.refGitId, _, ?_, ⟨pkts, k1, k2⟩, ?_⟩
  · intro as has
    rw [ha2] at has
    simpa using has
  · have : (a.tasks ++ [some (pushActs demoSql.pool 2 p (ascii "/app") devCreate)]).set a.tasks.length (some []) = a.tasks ++ [some []] := by simp
    rw [this] at u1
    exact u1
  · intro as has
    rw [ha2] at has
    simpa using has
  · rw [ha3]
    decide +kernel
  · show (Spec.refsAt demoFold db2.refs (ascii "/app")).length = 2
    rw [e2]
    decide +kernel
  · simp only [refsAnswer, q4]
  · rw [hrefs]
    rfl

/-- **C105 is false** for a branch at a commit that another branch is at: nobody works on anything, the repository has a branch master, a client creates another branch there;
when the push has finished the repository has two refs, and clients are shown one. -/
theorem C105_same_id_false : ∃ (p : Pack) (s t : Sys), Spec.NobodyWorking s ∧ SysRun polyExt AppSql AppPaths OwnCommit Sys.empty s ∧
    SysRun polyExt AppSql AppPaths OwnCommit { s with tasks := s.tasks ++ [some (pushActs demoSql.pool 2 p (ascii "/app") devCreate)], pushed := (s.tasks.length, ascii "/app", p) :: s.pushed } t ∧
    Spec.NobodyWorking t ∧ (Spec.afterCommand demoFold (ascii "/app") devCreate (Spec.refsAt demoFold s.db.refs (ascii "/app"))).length = 2 ∧
    (Spec.refsAt demoFold t.db.refs (ascii "/app")).length = 2 ∧
    ∃ out head refs, refsAnswer polyExt demoSql demoSql .uploadPack t.db t.db (ascii "/app") = .ok out ∧ Spec.Shows .uploadPack out head refs ∧ refs.length = 1 := by
  obtain ⟨p, s, t, _, _, h⟩ := two_branches
  exact ⟨p, s, t, h⟩

/-- **C104 is false** for the same reason: a repository with two branches at one commit, nobody working on anything, and clients are shown one ref. -/
theorem C104_same_id_false : ∃ s : Sys, SysRun polyExt (fun E => E.fold = demoFold) AppPaths (fun _ _ => True) Sys.empty s ∧ Spec.NobodyWorking s ∧
    Spec.HasMaster demoFold s.db (ascii "/app") ∧ (Spec.refsAt demoFold s.db.refs (ascii "/app")).length = 2 ∧
    ∃ out head refs, refsAnswer polyExt demoSql demoSql .uploadPack s.db s.db (ascii "/app") = .ok out ∧ Spec.Shows .uploadPack out head refs ∧ refs.length = 1 := by
  obtain ⟨p, s, t, ⟨St, fuel0, file, hdec⟩, hm, _, h1, h2, h3, _, h5, h6⟩ := two_branches
  exact ⟨t, SysRun.trans (.step _ _ _ (h1.weaken fun E h => h.1).any_push (.push s St fuel0 file p demoSql 2 (ascii "/app") devCreate hdec (.inl rfl) trivial))
    (h2.weaken fun E h => h.1).any_push, h3, hm, h5, h6⟩

/-! ## C78 -/

/-- **C78 is false** for annotated tags: a push of a commit and a tag to an empty server is answered; the clone that follows is answered, and the pack the client reads
has no tag. -/
theorem C78_tags_lost_false : ∃ (pack rep out file : Bytes) (p : Pack) (ms : List MetaData), decodePack polyExt (getHashObject polyExt demoSql Db.empty) 2 pack = .ok p ∧
    p.result.hashObject appTag.id = some appTag ∧ appTag.t = .tag ∧
    (serve demoServer demoMoment .empty (appPush pack)).1 = .reply (.ok (.bytes rep)) ∧
    (serve demoServer demoMoment (runServer demoServer .empty [(demoMoment, appPush pack)]) (Spec.fetchReq (ascii "/app") (doneBody cloneLines (ascii "\n") []))).1 = .reply (.ok (.bytes out)) ∧
    Spec.readClone out = some file ∧ PackHas polyExt file ms ∧ metaOf polyExt (.commit, appCommit.encode) ∈ ms ∧ ∀ m ∈ ms, m.t ≠ .tag := by
  obtain ⟨pack, p, db1, h1, h2, h3, h4, h5, _⟩ := C72_tags_lost_false
  obtain ⟨rep, st', r1, r2, _⟩ := (C70_report_partial (mysqlPush polyExt demoSql 2) (ascii "/app") Db.empty db1 appCmd appCmd_ok (ascii "report-status") (by decide) (by decide) pack
    (decodePack_magic h1) p h1).1 _ h4 rfl
  have hroute : route (appPush pack).method (appPush pack).path (appPush pack).service = .receivePack (ascii "/app") := route_push app_clean_url (.inr rfl)
  have hdb : (runServer demoServer .empty [(demoMoment, appPush pack)]).db = st'.db := by
    show (serve demoServer demoMoment .empty (appPush pack)).2.db = st'.db
    rw [serve_db, hroute]
    exact httpReceiveDb_ok _ _ _ _ _ r1
  have hkind : ∀ o, StoredObj db1 o → metaOf polyExt o ∈ appObjects := by
    obtain ⟨rows, e1, e2, _, e4⟩ := push_effect h1 demoSql 2 (ascii "/app") Db.empty
    rw [h4] at e1 e4
    have keep : ∀ m, p.result.hashObject m.id = some m → m.t ≠ .tag → m ∈ appObjects := by
      intro m hm ht
      rcases List.mem_append.1 ((h2 _ _).1 hm).1 with h | h
      · exact h
      · rw [List.mem_singleton.1 h] at ht
        exact absurd h3 ht
    rintro o (⟨n, hn, rfl⟩ | ⟨r, hr, rfl⟩)
    · rw [e1] at hn
      rcases List.mem_append.1 hn with hn | hn
      · cases hn
      · obtain ⟨m, hm, e, _⟩ := e2 n hn
        rw [← e]
        refine keep m hm ?_
        rw [e]
        show (nodeObj n).1 ≠ .tag
        unfold nodeObj
        split <;> simp
    · rcases e4 r hr with h | ⟨_, _, m, c, hm, ht, hd, _⟩
      · cases h
      · have hmem := keep m hm (by rw [ht]; simp)
        have := (metaOf_of_new (appObjects_new m hmem)).2
        rw [hd, ← ht, this]
        exact hmem
  have objs : ∀ o, StoredObj st'.db o → metaOf polyExt o ∈ appObjects := by
    obtain ⟨e1, e2, _⟩ := saveRefs_eq demoSql (RefCommand.new appCmd.old appCmd.new (appCmd.name ++ [0])) (ascii "/app") db1
    rintro o (⟨n, hn, rfl⟩ | ⟨r, hr, rfl⟩)
    · rw [r2] at hn
      exact hkind _ (.inl ⟨n, e1 ▸ hn, rfl⟩)
    · rw [r2] at hr
      exact hkind _ (.inr ⟨r, e2 ▸ hr, rfl⟩)
  obtain ⟨p', d1, d2, _⟩ := C26_durable_partial polyExt demoSql 2 (ascii "/app") Db.empty appCmd appCmd_ok (ascii "report-status") (by decide) (by decide) pack (decodePack_magic h1)
    (fun _ _ => rfl) (fun _ _ => rfl) rep st' r1
  rw [h1] at d1
  cases d1
  obtain ⟨r, hr, _, e2, e3⟩ := d2 (metaOf polyExt (.commit, appCommit.encode)) ((h2 _ _).2 ⟨by simp [appObjects, appThin], rfl⟩) rfl
  have hrow : r ∈ commitsAt demoFold st'.db.commits (ascii "/app") := commitsAt_mem.2 ⟨hr, by rw [e3]⟩
  have hrep : (serve demoServer demoMoment .empty (appPush pack)).1 = .reply (.ok (.bytes rep)) := by
    unfold serve
    rw [hroute]
    have r3 : httpReceivePack (mysqlPush demoServer.X demoMoment.sql demoMoment.fuel) { caps := [], commands := [], path := ascii "/app", db := ServerState.empty.db }
      (appPush pack).body = .ok (rep, st') := r1
    simp only [r3]
    rfl
  have hfl : Spec.SameFold demoServer.D.fold [(demoMoment, appPush pack)] := by
    intro q hq
    rw [List.mem_singleton.1 hq]
    rfl
  have hab : Spec.NoneAbove demoServer.D.fold (ascii "/app") [(demoMoment, appPush pack)] := by
    intro q hq q' hq' a b ha hb _ _
    rw [List.mem_singleton.1 hq] at ha
    rw [List.mem_singleton.1 hq', ha] at hb
    exact Option.some.inj hb
  have hinv := storeRun_inv (run_store demoServer (ascii "/app") _ _ rfl hfl hab) (by rw [hdb]; exact app_unique objs)
  obtain ⟨out, file, ms, c1, c2, c3, c4⟩ := C78_clone_answered_partial demoServer demoFold_hash (ascii "/app") [] app_clean_url (.inl rfl) [(demoMoment, appPush pack)] demoMoment hfl rfl hab
    (by rw [hdb]; exact app_unique objs) (by rw [hdb]; exact app_fits objs)
    (fun _ _ c _ => by rw [hdb]; exact app_nested objs (by rw [← hdb]; exact hinv.id) c.treeId)
    (by rw [hdb]; exact List.ne_nil_of_mem hrow) (fun _ _ => .rfl) demoCut_ok cloneLines (ascii "\n") [] cloneLines_ok
  refine ⟨pack, rep, out, file, p, ms, h1, (h2 _ _).2 ⟨by simp, rfl⟩, h3, hrep, c1, c2, c3, (c4 _).2 ⟨_, .commit r (by rw [hdb]; exact hrow), ?_⟩, fun m hm => ?_⟩
  · rw [e2]
    rfl
  · obtain ⟨o, ho, rfl⟩ := (c4 m).1 hm
    show o.1 ≠ .tag
    rcases inRepo_kind ho with h | h | h <;> rw [h] <;> simp

end Gust

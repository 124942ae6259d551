import Verif.Props.AnsweredExamples
import Verif.Props.BothConfined
import Verif.Props.CloneExamples
import Verif.Props.ConcurrentExamples
import Verif.Props.Headers
import Verif.Props.IncOverlap
import Verif.Props.Links
import Verif.Props.NestingExamples
import Verif.Props.Order
import Verif.Props.Publish
import Verif.Props.RefsShown
import Verif.Props.ServerExamples
import Verif.Props.SshLater
import Verif.Props.TempFile

/-!
Applications of theorems about the storage and the servers to concrete repositories and histories: the hypotheses are met by a server to which a
commit was pushed.
-/

namespace Gust

open Spec (nodeObj StoreReach commitsAt InRepo NestedWithin)

/-- C53: one of two branches is moved. -/
example : handleRefs demoSql (RefCommand.new exId exId2 (ascii "refs/heads/master")) (ascii "/r")
      { Db.empty with refs := [{ repoPath := ascii "/q", refName := ascii "refs/heads/master", refGitId := exId },
        { repoPath := ascii "/r", refName := ascii "refs/heads/master", refGitId := exId }] } =
    (.ok (), { Db.empty with refs := [{ repoPath := ascii "/q", refName := ascii "refs/heads/master", refGitId := exId },
        { repoPath := ascii "/r", refName := ascii "refs/heads/master", refGitId := exId2 }] }) :=
  C53_update_partial demoSql (RefCommand.new exId exId2 (ascii "refs/heads/master")) (ascii "/r") _ (by decide +kernel)
    [{ repoPath := ascii "/q", refName := ascii "refs/heads/master", refGitId := exId }] []
    { repoPath := ascii "/r", refName := ascii "refs/heads/master", refGitId := exId } rfl rfl rfl (by decide +kernel) rfl

/-- C54: two repositories, one of them asked for, and then one that nobody pushed to. -/
example : getHeadObjectId demoExt demoSql mixedRefs (ascii "/r") = (.ok exId, mixedRefs) ∧
    getHeadObjectId demoExt demoSql mixedRefs (Spec.pathText true [ascii "new", ascii "r"]) = (.ok zeroId, mixedRefs) := by
  refine ⟨C54_exact_partial demoExt demoSql mixedRefs (ascii "/r") exId (by decide) (.head _) ?_,
    C54_no_ancestor demoExt demoSql mixedRefs true [ascii "new", ascii "r"] (by unfold Spec.NameOk; decide +kernel) ?_⟩
  · unfold Spec.isMaster; decide +kernel
  · intro r hr _
    simp only [mixedRefs, List.mem_cons, List.not_mem_nil, or_false] at hr
    rcases hr with rfl | rfl | rfl
    · exact ⟨true, [ascii "r"], by decide +kernel, by unfold Spec.NameOk; decide +kernel, by decide, by decide +kernel⟩
    · exact ⟨true, [ascii "q"], by decide +kernel, by unfold Spec.NameOk; decide +kernel, by decide, by decide +kernel⟩
    · exact ⟨true, [ascii "R"], by decide +kernel, by unfold Spec.NameOk; decide +kernel, by decide, by decide +kernel⟩

/-- C54, C55, C61: the directory `lib` of a repository is asked for, twice; meanwhile the repository itself is deleted. -/
example : ∃ (id : Bytes) (db1 : Db), getHeadObjectId polyExt demoSql dirDb (ascii "/p/lib") = (.ok id, db1) ∧ id ≠ zeroId ∧
    getHeadObjectId polyExt demoSql db1 (ascii "/p/lib") = (.ok id, db1) ∧
    getHeadObjectId polyExt demoSql { db1 with refs := db1.refs.filter (fun r => r.repoPath == ascii "/p/lib") } (ascii "/p/lib") =
      (.ok id, { db1 with refs := db1.refs.filter (fun r => r.repoPath == ascii "/p/lib") }) := by
  have h : (match (getHeadObjectId polyExt demoSql dirDb (ascii "/p/lib")).1 with | .ok id => decide (id ≠ zeroId) | _ => false) = true := by decide +kernel
  rcases e : getHeadObjectId polyExt demoSql dirDb (ascii "/p/lib") with ⟨r, db1⟩
  rw [e] at h
  cases r with
  | ok id =>
    have hid : id ≠ zeroId := of_decide_eq_true h
    refine ⟨id, db1, rfl, hid, ?_, ?_⟩
    · refine C54_stable_partial polyExt demoSql demoSql rfl rfl dirDb db1 (ascii "/p/lib") id (by decide) hid (fun _ _ => rfl) ?_ e
      intro r hr r' _ hp
      have : r = dirRef := by simpa [dirDb] using hr
      subst this
      exact absurd hp (by decide +kernel)
    · refine C55_never_updated polyExt demoSql dirDb db1 _ (ascii "/p/lib") id (by decide) hid (fun _ _ => rfl) ?_ e (by simp)
      intro r hr
      have : r = dirRef := by simpa [dirDb] using hr
      subst this
      decide +kernel
  | err e => cases h
  | panic => cases h
  | spin => cases h

/-- C61: what is recorded when the directory is asked for. -/
example : ∃ id db1 row m, generateChild polyExt demoSql dirRef (ascii "/p/lib") dirDb = (.ok id, db1) ∧ db1.commits = dirDb.commits ++ [row] ∧
    MetaData.new polyExt .commit row.data = .ok m ∧ row.repoPath = ascii "/p/lib" ∧ id = Hash.toPlainStr m.id := by
  have h : (match (generateChild polyExt demoSql dirRef (ascii "/p/lib") dirDb).1 with | .ok id => decide (id ≠ zeroId) | _ => false) = true := by decide +kernel
  rcases e : generateChild polyExt demoSql dirRef (ascii "/p/lib") dirDb with ⟨r, db1⟩
  rw [e] at h
  cases r with
  | ok id =>
    obtain ⟨row, m, h1, h2, h3, h4, h5, -⟩ := C61_recorded polyExt demoSql dirDb db1 dirRef (ascii "/p/lib") id (of_decide_eq_true h) (fun _ _ => rfl) (fun _ _ => rfl) e
    exact ⟨id, db1, row, m, rfl, h1, h2, h4, h5.trans h3⟩
  | err e => cases h
  | panic => cases h
  | spin => cases h

/-- C56: two repositories. -/
example : Spec.RepoOf (route .post (ascii "/app.git/git-receive-pack") none) ≠ Spec.RepoOf (route .get (ascii "/lib/info/refs") (some (ascii "git-upload-pack"))) :=
  C56_http_distinct_partial (u := ascii "/app") (u' := ascii "/lib") (g := ascii ".git") (g' := []) app_clean_url lib_clean_url (.inr rfl) (.inl rfl) (.push none) (.discover .uploadPack)
    (by decide)

/-- C59: two pushes in different seconds. -/
example : ∃ t, pushEvents (fun i => if i = 0 then ascii "PACK0" else ascii "PACK1") (fun i => 1700000000 + i) noFiles
      [.openWrite 0, .openWrite 1, .write 1 3, .write 0 5, .write 1 2, .openRead 0, .openRead 1, .read 1 0 9, .read 0 4 1, .remove 0] = some t ∧
    Spec.ReadsOwn (ascii "PACK0") (t.log 0) ∧ Spec.ReadsOwn (ascii "PACK1") (t.log 1) := by
  obtain ⟨t, h⟩ : ∃ t, pushEvents (fun i => if i = 0 then ascii "PACK0" else ascii "PACK1") (fun i => 1700000000 + i) noFiles
      [.openWrite 0, .openWrite 1, .write 1 3, .write 0 5, .write 1 2, .openRead 0, .openRead 1, .read 1 0 9, .read 0 4 1, .remove 0] = some t := ⟨_, rfl⟩
  exact ⟨t, h, (C59_distinct_seconds_partial noFiles_idle (fun i j h => by simpa using h) (fun _ => rfl) h 0).1,
    (C59_distinct_seconds_partial noFiles_idle (fun i j h => by simpa using h) (fun _ => rfl) h 1).1⟩

/-- C59: the second push in the same second comes after the first one has removed its file. -/
example : ∃ t, pushEvents (fun i => if i = 0 then ascii "PACK0" else ascii "PACK1") (fun _ => 1700000000) noFiles
      [.openWrite 0, .write 0 5, .openRead 0, .read 0 4 1, .remove 0, .openWrite 1, .write 1 5, .openRead 1, .read 1 0 9] = some t ∧
    Spec.ReadsOwn (ascii "PACK1") (t.log 1) := by
  obtain ⟨t, h⟩ : ∃ t, pushEvents (fun i => if i = 0 then ascii "PACK0" else ascii "PACK1") (fun _ => 1700000000) noFiles
      [.openWrite 0, .write 0 5, .openRead 0, .read 0 4 1, .remove 0, .openWrite 1, .write 1 5, .openRead 1, .read 1 0 9] = some t := ⟨_, rfl⟩
  refine ⟨t, h, (C59_own_files_partial noFiles_idle ?_ h 1).1⟩
  intro before i rest m he hm
  match before, he with
  | [], he => cases hm; rfl
  | [_], he => cases he
  | [_, _], he => cases he
  | [_, _, _], he => cases he
  | [_, _, _, _], he => cases he
  | [_, _, _, _, _], he =>
    cases he
    cases hm
    rfl
  | [_, _, _, _, _, _], he => cases he
  | [_, _, _, _, _, _, _], he => cases he
  | [_, _, _, _, _, _, _, _], he => cases he
  | _ :: _ :: _ :: _ :: _ :: _ :: _ :: _ :: _ :: before, he =>
    simp only [List.cons_append, List.cons.injEq] at he
    simp at he

open Classical in
/-- C75: what the requests of the other kinds did does not matter. -/
example : (serve demoServer demoMoment (runServer demoServer .empty (mixedRequests.filter (fun p => Spec.LockUrl p.2))) listReq).1 =
    .reply (.ok (.locks [{ id := ascii "17", path := ascii "big.psd", lockedAt := ascii "2023-05-23", owner := none }] [])) := by
  rw [← C75_locks demoServer .empty mixedRequests demoMoment listReq (.inr (.inr (.inl (by decide +kernel))))]
  decide +kernel

open Classical in
example : (serve demoServer demoMoment (runServer demoServer .empty (mixedRequests.filter (fun p => Spec.ObjectUrl p.2))) (objectReq .get rightOid [])).1 =
    .reply (.ok (.bytes (ascii "right"))) := by
  rw [← C75_objects demoServer .empty mixedRequests demoMoment (objectReq .get rightOid []) (.inl ⟨rightOid, by decide +kernel⟩)]
  decide +kernel

open Classical in
example : (serve demoServer demoMoment (runServer demoServer .empty mixedRequests) (discoverReq (ascii "/app"))).1 =
    (serve demoServer demoMoment (runServer demoServer .empty (mixedRequests.filter (fun p => Spec.GitUrl p.2))) (discoverReq (ascii "/app"))).1 :=
  C75_git demoServer .empty mixedRequests demoMoment (discoverReq (ascii "/app")) (ascii "/app") (by decide +kernel)

/-- C76: a lock that is taken. -/
example : (serve demoServer demoMoment (runServer demoServer .empty mixedRequests) (lockReq (ascii "big.psd"))).2 = runServer demoServer .empty mixedRequests :=
  C76_status_partial demoServer demoMoment _ (lockReq (ascii "big.psd")) 409 (by decide) (by decide +kernel)

/-- C77: the commit that was pushed is complete. -/
example : ∃ (h : List (Moment × HttpReq)), (∃ r ∈ commitsAt demoFold (runServer demoServer .empty h).db.commits (ascii "/app"), r.data = appCommit.encode) ∧
    ∃ n ∈ (runServer demoServer .empty h).db.nodes, n.gitId = Hash.toPlainStr appCommit.treeId ∧ n.nodeType = ascii "tree" := by
  obtain ⟨pack, h1, h2, h3, h4, r, hr, ed⟩ := app_pushed_server
  obtain ⟨c, e1, e2, -⟩ := C77_complete_partial demoServer (ascii "/app") _ h1 h2 h3 r hr
  rw [ed, appCommit_decode] at e1
  cases e1
  exact ⟨_, ⟨r, hr, ed⟩, e2⟩

/-- C98: the list of locks. -/
example : ∃ head, replyHead listReq (serve demoServer demoMoment (runServer demoServer .empty mixedRequests) listReq).1 = some head ∧ head.status = 200 ∧
    Spec.header (ascii "Content-Type") head = some (ascii "application/vnd.git-lfs+json") :=
  C98_lfs (.list listReq (ascii "/org") rfl (by decide +kernel) (by decide +kernel)) (by decide +kernel : _ = Outcome.reply (.ok (.locks [{ id := ascii "17", path := ascii "big.psd", lockedAt := ascii "2023-05-23", owner := none }] [])))

/-- C98: the ref list of a repository nobody knows. -/
example : ∃ rest, (serve demoServer demoMoment .empty (discoverReq (ascii "/app"))).1 =
    .reply (.ok (.bytes (ascii "001e# service=git-upload-pack\n0000" ++ rest))) := by
  have h : replyHead (discoverReq (ascii "/app")) (serve demoServer demoMoment .empty (discoverReq (ascii "/app"))).1 =
      some ⟨200, [(ascii "Content-Type", ascii "application/x-git-upload-pack-advertisement"), (ascii "Cache-Control", ascii "no-cache, max-age=0, must-revalidate")]⟩ := by
    decide +kernel
  exact C98_announced h .uploadPack (by decide +kernel)

/-- C98: which request that was. -/
example : Spec.GitMedia (discoverReq (ascii "/app")) (ascii "application/x-git-upload-pack-advertisement") := by
  have h : replyHead (discoverReq (ascii "/app")) (serve demoServer demoMoment .empty (discoverReq (ascii "/app"))).1 =
      some ⟨200, [(ascii "Content-Type", ascii "application/x-git-upload-pack-advertisement"), (ascii "Cache-Control", ascii "no-cache, max-age=0, must-revalidate")]⟩ := by
    decide +kernel
  exact (C98_only h (by decide +kernel) (by decide)).1

/-- C74: a link without user and repository. -/
example : ∃ path, Spec.urlPath (internalLink (ascii "http://host") { oid := rightOid, size := 5, user := [], repo := [] }) = some path ∧
    route .get path none = .download rightOid :=
  let ⟨path, h1, h2, _⟩ := C74_link_partial (o := ascii "http://host") ⟨ascii "host", rfl, by decide, by decide⟩
    (v := { oid := rightOid, size := 5, user := [], repo := [] }) (by unfold Spec.RouteOid; decide +kernel) rfl rfl none
  ⟨path, h1, h2⟩

/-- C81, C107: a clone and a fetch that overlap with a push to `/other`. -/
example : ∃ (V : Nat → SqlExt × Sys) (fuel : Nat) (file file' : Bytes) (ms ms' : List MetaData), (V 0).2.tasks = [some []] ∧
    (V 1).2.tasks = [some [], some (refActs appCreate (ascii "/other"))] ∧
    getFullPackL polyExt (fun k => ((V k).1, (V k).2.db)) fuel (ascii "/app") = .ok file ∧ PackHas polyExt file ms ∧ metaOf polyExt (.commit, appCommit.encode) ∈ ms ∧
    getIncPackL polyExt (fun k => ((V k).1, (V k).2.db)) fuel (ascii "/app") [appCmd.new] [] = .ok file' ∧ PackHas polyExt file' ms' := by
  obtain ⟨p, a, b, h1, h2, hobj, ha1, ha2, hrefs, hb1, hb2, hcov, objs, hrest⟩ := app_two
  have h1' := h1.weaken (Q' := fun E => E.fold = demoFold) fun E h => h.1
  have h2' := h2.weaken (Q' := fun E => E.fold = demoFold) fun E h => h.1
  have ext := sysRun_extends h2'
  obtain ⟨o, ho, ho'⟩ := (C82_overlapping_pushes_partial polyExt demoFold AppPaths OwnCommit (ascii "/app") (appPaths_above _) a h1' (ext.unique (app_unique objs))).2.2
    (h1.weaken fun E h => h.2) (0, ascii "/app", p) (by rw [ha1]; simp) (by rw [ha2]; rfl) (metaOf polyExt (.commit, appCommit.encode))
    ((hobj _ _).2 ⟨by simp [appObjects, appThin], rfl⟩) (.inl rfl)
  have ex : o = (.commit, appCommit.encode) := Prod.ext (congrArg MetaData.t ho').symm (congrArg MetaData.data ho').symm
  obtain ⟨r, hr, ed⟩ : ∃ r ∈ commitsAt demoFold a.db.commits (ascii "/app"), r.data = appCommit.encode := by
    rw [ex] at ho
    generalize hx : (ObjectType.commit, appCommit.encode) = x at ho
    cases ho with
    | commit r hr => exact ⟨r, hr, (congrArg Prod.snd hx).symm⟩
    | node r c y n hr hd hre hn e =>
      exfalso
      have := congrArg Prod.fst hx
      unfold nodeObj at this
      split at this <;> cases this
  let V : Nat → SqlExt × Sys := fun k => (demoSqlRev, if k = 0 then a else b)
  have to_b : ∀ k, SysRun polyExt (fun E => E.fold = demoFold) AppPaths OwnCommit (V k).2 b := by
    intro k
    by_cases hk : k = 0
    · subst hk; exact h2'
    · show SysRun polyExt _ _ _ (if k = 0 then a else b) b
      rw [if_neg hk]; exact .refl _
  obtain ⟨file, ms, c1, c2, c3⟩ := C81_snapshot_stack_partial polyExt demoFold demoFold_hash AppPaths OwnCommit (ascii "/app") (appPaths_above _) V b (fun _ => rfl) h1'
    (fun k => to_b k) to_b (app_unique objs) (app_fits objs) _ (Nat.le_refl _) (List.ne_nil_of_mem hr)
  obtain ⟨file', ms', d1, d2, -⟩ := C107_snapshot_partial polyExt demoFold demoFold_hash AppPaths OwnCommit (ascii "/app") (appPaths_above _) V b (fun _ => rfl) h1'
    (fun k => to_b k) to_b (app_unique objs) (app_fits objs) _ (Nat.le_refl _) [appCmd.new] [] r hr (by rw [ed]; exact .head _)
  exact ⟨V, _, file, file', ms, ms', ha2, hb2, c1, c2, (c3 _).2 ⟨_, .commit r hr, by rw [ed]⟩, d1, d2⟩

/-- C85: connection 1 crashes, connection 0 is as before. -/
example : (sshRun polyExt (sshRun polyExt (.start Db.empty) twoChannels) [(demoMoment, 1, logIn), (demoMoment, 1, .data 1 (ascii "0000"))]).link 0 =
    .ready (some { service := .receivePack, path := ascii "/b", caps := [], commands := [] }) :=
  (C85_crash_partial polyExt 0 _ _ (by intro p hp; simp only [List.mem_cons, List.not_mem_nil, or_false] at hp; rcases hp with rfl | rfl <;> decide)).trans twoChannels_after.2

/-- C86: the ref list over SSH. -/
example : (sshStep polyExt demoMoment (sshRun polyExt (.start Db.empty) twoChannels) 0 (askFor .uploadPack 7 (ascii "/app"))).2.db =
    (serve demoServer demoMoment { db := (sshRun polyExt (.start Db.empty) twoChannels).db, locks := noLocks, lfs := ServerState.empty.lfs } (discoverReq (ascii "/app"))).2.db :=
  (C86_discover_partial (P := demoServer) (u := ascii "/app") (g := []) app_clean_url (.inl rfl) (by decide) (by decide +kernel) .uploadPack twoChannels_after.2 7 noLocks ServerState.empty.lfs).1

/-- C86: a fetch and a push. -/
example (body : Bytes) :
    let t := (sshStep polyExt demoMoment (sshRun polyExt (.start Db.empty) twoChannels) 0 (askFor .uploadPack 7 (ascii "/app"))).2
    Spec.SameAnswer 7 (serve demoServer demoMoment { db := t.db, locks := noLocks, lfs := ServerState.empty.lfs } (Spec.fetchReq (ascii "/app" ++ []) body)).1
      (sshStep polyExt demoMoment t 0 (.data 7 body)).1 ((sshStep polyExt demoMoment t 0 (.data 7 body)).2.link 0) :=
  (C86_fetch_partial (P := demoServer) (u := ascii "/app") (g := []) app_clean_url (.inl rfl) (by decide) (by decide +kernel) (m0 := demoMoment) (m := demoMoment) (ch0 := 7) twoChannels_after.2 (h1 := [])
    (fun _ h => nomatch h) (fun _ _ h => h) body noLocks ServerState.empty.lfs
    (p1 := some { service := .uploadPack, path := ascii "/app", caps := [], commands := [] }) (by decide +kernel)).1

example (pack : Bytes) :
    let t := sshRun polyExt (sshStep polyExt demoMoment (sshRun polyExt (.start Db.empty) twoChannels) 0 (askFor .receivePack 7 (ascii "/app"))).2
      [(demoMoment, 3, logIn), (demoMoment, 0, .data 7 (Spec.pushBody appCmd [] (ascii "report-status") []))]
    (sshStep polyExt demoMoment t 0 (.data 7 pack)).2.db = (serve demoServer demoMoment { db := t.db, locks := noLocks, lfs := ServerState.empty.lfs }
      (Spec.pushReq (ascii "/app" ++ []) (Spec.pushBody appCmd [] (ascii "report-status") pack))).2.db :=
  (C86_push_partial (P := demoServer) (u := ascii "/app") (g := []) app_clean_url (.inl rfl) (by decide) (by decide +kernel) (m0 := demoMoment) (m1 := demoMoment) (m := demoMoment)
    (ch0 := 7) (ch1 := 7) (ch := 7) twoChannels_after.2 (h1 := [(demoMoment, 3, logIn)]) (h2 := []) (by intro p hp; rw [List.mem_singleton.1 hp]; decide) (fun _ h => nomatch h) appCmd_ok (by decide) (by decide)
    pack noLocks ServerState.empty.lfs (p1 := some { service := .receivePack, path := ascii "/app", caps := [], commands := [] }) (by decide +kernel)).2.2

/-- C90: what a clone contains was pushed. -/
example : ∃ (pack : Bytes) (m : Moment) (out file : Bytes), (∃ lines : List Bytes, ∃ caps, out = lines.flatMap (fun l => hex4 (l.length + 4) ++ l) ++ sendPack caps (m.cut file)) ∧
    (serve demoServer m (runServer demoServer .empty [(demoMoment, appPush pack)]) (Spec.fetchReq (ascii "/app" ++ []) (doneBody cloneLines (ascii "\n") []))).1 = .reply (.ok (.bytes out)) := by
  obtain ⟨pack, h1, h2, h3, h4, r, hr, ed⟩ := app_pushed_server
  obtain ⟨k, hk⟩ : ∃ k, k = (runServer demoServer .empty [(demoMoment, appPush pack)]).db.nodes.length := ⟨_, rfl⟩
  obtain ⟨out, file, ms, c1, c2, c3, c4⟩ := C78_clone_stack_partial demoServer demoFold_hash (ascii "/app") [] app_clean_url (.inl rfl) [(demoMoment, appPush pack)]
    { demoMoment with fuel := k } h1 rfl h2 h3 h4 (Nat.le_of_eq hk.symm)
    (List.ne_nil_of_mem hr) (fun _ _ => .rfl) demoCut_ok cloneLines (ascii "\n") [] cloneLines_ok
  obtain ⟨lines, caps, file', e1, e2, e3⟩ := C90_fetch_partial demoServer demoFold_hash (ascii "/app") _ h1 h2 h3 h4 { demoMoment with fuel := k } rfl (fun _ _ => .rfl) _
    (route_fetch app_clean_url (.inl rfl)) out c1
  exact ⟨pack, _, out, file', ⟨lines, caps, e1⟩, c1⟩

/-- C116: the same after a push over SSH; nothing came over HTTP. -/
example : ∃ (m : Moment) (out : Bytes) (h : BothHist),
    (serve demoServer m (runBoth demoServer .empty h).web (Spec.fetchReq (ascii "/app") (doneBody cloneLines (ascii "\n") []))).1 = .reply (.ok (.bytes out)) ∧
    ∃ (lines : List Bytes) (caps : List Capability) (file : Bytes), out = lines.flatMap (fun l => hex4 (l.length + 4) ++ l) ++ sendPack caps (m.cut file) ∧
      (file = [] ∨ ∃ ms, PackHas polyExt file ms ∧ ∀ x ∈ ms, ∃ o, Spec.SentTo demoServer (ascii "/app") h o ∧ x = metaOf polyExt o) := by
  obtain ⟨pack, rep, p, h1, h2, h3, _, hp, _⟩ := both_pushed
  have objs := both_objs h1 h2 h3 hp
  have names : ∀ x ∈ bothBefore ++ [(demoMoment, .ssh 0 (.data 0 pack))], x.1.sql.fold = demoFold ∧ ∀ a, x.2.repo = some a → a = ascii "/app" := by
    intro x hx
    rcases List.mem_append.1 hx with hx | hx
    · exact bothBefore_names x hx
    · cases List.mem_singleton.1 hx
      exact ⟨rfl, fun _ e => nomatch e⟩
  have hab : Spec.NoneAboveAny demoFold (ascii "/app") (bothBefore ++ [(demoMoment, .ssh 0 (.data 0 pack))]) := by
    intro a ha b hb x y hx hy _ _
    rw [(names a ha).2 x hx, (names b hb).2 y hy]
  obtain ⟨m, out, file, q, ⟨fuel, hm⟩, k1, k2, -⟩ := both_cloned h1 h2 h3 hp (fun _ e => nomatch e) (by simp)
  obtain ⟨lines, caps, file', e1, _, e3⟩ := C116_fetch_partial demoServer demoFold_hash (ascii "/app") _ (fun x hx => (names x hx).1) hab (app_unique objs) (app_fits objs)
    m (by rw [hm]; rfl) (by rw [hm]; exact fun _ _ => .rfl) _ out (.http [] app_clean_url (.inl rfl) k1)
  exact ⟨m, out, _, k1, lines, caps, file', e1, e3⟩

/-- C48: the pack of the example repository is stored. -/
example (db : Db) : ∃ (p : Pack) (db' : Db), (∀ h m, p.result.hashObject h = some m ↔ m ∈ appObjects ∧ m.id = h) ∧ savePackfile demoSql 9 p (ascii "/lib") db = (.ok (), db') := by
  obtain ⟨file, p, _, _, hd, hf⟩ := app_pack (fun _ => none) appObjects (fun _ h => h) (by decide) (by decide) (by decide +kernel) 0
  have mem : ∀ o, p.result.hashObject o.id = some o → o ∈ appObjects := fun o ho => ((hf _ _).1 ho).1
  let rank : Hash → Nat := fun h => if h = idOf polyExt (.tree, encodeTree appItems) then 2 else if h = idOf polyExt (.tree, encodeTree srcA) then 1 else 0
  have down : ∀ o items i, p.result.hashObject o.id = some o → o.t = .tree → decodeTree o.data = .ok items → i ∈ items → rank i.id < rank o.id := by
    intro o items i ho ht hd hi
    have := mem o ho
    simp only [appObjects, appThin, List.mem_append, List.mem_cons, List.not_mem_nil, or_false] at this
    rcases this with (rfl | rfl | rfl | rfl) | rfl
    · cases ht
    · rw [show decodeTree (metaOf polyExt (.tree, encodeTree appItems)).data = .ok appItems from appItems_decode] at hd
      cases hd
      simp only [appItems, List.mem_cons, List.not_mem_nil, or_false] at hi
      rcases hi with rfl | rfl <;> decide +kernel
    · rw [show decodeTree (metaOf polyExt (.tree, encodeTree srcA)).data = .ok srcA from srcA_decode] at hd
      cases hd
      simp only [srcA, List.mem_cons, List.not_mem_nil, or_false] at hi
      subst hi
      decide +kernel
    · cases ht
    · cases ht
  have below : ∀ x y, Spec.PackBelow p.result.hashObject x y → rank y ≤ rank x := by
    intro x y h
    induction h with
    | refl => exact Nat.le_refl _
    | item o items i _ ho ht hd hi ih => exact Nat.le_trans (Nat.le_of_lt (down o items i ho ht hd hi)) ih
  obtain ⟨hist, e, _⟩ := decodePack_hist hd
  obtain ⟨db', h⟩ := C48_push_acyclic_partial (p := p) (by rw [e]; exact PackCache.keyed_run hist) (app_selfContained hf)
    (fun o items i ho ht hd hi hb => absurd (below _ _ hb) (Nat.not_le.2 (down o items i ho ht hd hi)))
    (appObjects.map (·.id)) (fun x o ho => by obtain ⟨h1, rfl⟩ := (hf _ _).1 ho; exact List.mem_map_of_mem h1) 9 (by decide) demoSql (fun _ _ => rfl) (ascii "/lib") db
  exact ⟨p, db', hf, h⟩

end Gust

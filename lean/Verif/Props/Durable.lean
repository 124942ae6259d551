import Verif.Props.Nodes

/-! # C26: a push reported ok -/

namespace Gust

theorem insertRefs_only (E : SqlExt) : ∀ (bs : List (List RefRow)) (db : Db),
    (insertRefs E bs db).nodes = db.nodes ∧ (insertRefs E bs db).commits = db.commits ∧
      ((∀ n rows, E.acceptRefs n rows = true) → (insertRefs E bs db).refs = db.refs ++ bs.flatten) ∧
      ((∀ n rows, E.acceptRefs n rows = false) → (insertRefs E bs db).refs = db.refs)
  | [], db => ⟨rfl, rfl, fun _ => by simp [insertRefs], fun _ => rfl⟩
  | b :: bs, db => by
    obtain ⟨h1, h2, h3, h4⟩ := insertRefs_only E bs { db with
      refs := if E.acceptRefs db.inserts b then db.refs ++ b else db.refs, inserts := db.inserts + 1 }
    refine ⟨h1, h2, fun ha => ?_, fun ha => ?_⟩
    · rw [insertRefs, h3 ha]
      simp [ha]
    · rw [insertRefs, h4 ha]
      simp [ha]

theorem saveRefs_eq (E : SqlExt) (cmd : RefCommand) (path : Bytes) (db : Db) :
    (saveRefs E cmd path db).nodes = db.nodes ∧ (saveRefs E cmd path db).commits = db.commits ∧
      ((∀ n rows, E.acceptRefs n rows = true) →
        (saveRefs E cmd path db).refs = db.refs ++ [{ repoPath := path, refName := cmd.refName, refGitId := cmd.newId }]) ∧
      ((∀ n rows, E.acceptRefs n rows = false) → (saveRefs E cmd path db).refs = db.refs) := by
  obtain ⟨h1, h2, h3, h4⟩ := insertRefs_only E (chunks 100 1 [({ repoPath := path, refName := cmd.refName, refGitId := cmd.newId } : RefRow)]) db
  refine ⟨h1, h2, fun ha => ?_, h4⟩
  rw [saveRefs, h3 ha, chunks_flatten 100 (by simp) _ _ (by simp)]

/-- How a successful update of a ref ended. -/
theorem updateRefs_ok {E : SqlExt} {cmd : RefCommand} {path : Bytes} {db db' : Db} (h : updateRefs E cmd path db = (.ok (), db')) :
    db'.nodes = db.nodes ∧ db'.commits = db.commits ∧
      ∃ pre r post, db.refs = pre ++ r :: post ∧ E.fold r.repoPath = E.fold path ∧ E.fold r.refGitId = E.fold cmd.oldId ∧
        db'.refs = pre ++ { r with refGitId := cmd.newId } :: post := by
  have hc : ({ cmd with commandType := .update } : RefCommand).commandType = .update := rfl
  have e : handleRefs E { cmd with commandType := .update } path db = updateRefs E cmd path db := rfl
  rcases C53_update_scope_partial E { cmd with commandType := .update } path db hc with ⟨pre, r, post, h1, h2, h3, h4⟩ | ⟨_, h4⟩
  · rw [e, h] at h4
    obtain ⟨_, rfl⟩ := Prod.mk.inj h4
    exact ⟨rfl, rfl, pre, r, post, h1, h2, h3, rfl⟩
  · rw [e, h] at h4
    cases (Prod.mk.inj h4).1

/-- How a push that got an answer ended. -/
theorem receiveData_ok {X : Ext} {E : SqlExt} {fuel : Nat} {st st' : PushState Db} {cmd : RefCommand} {body out : Bytes} (hcmd : st.commands = [cmd])
    (h : receiveData (mysqlPush X E fuel) st body = .ok (out, st')) :
    ∃ p db1, decodePack X (getHashObject X E st.db) fuel body = .ok p ∧ savePackfile E fuel p st.path st.db = (.ok (), db1) ∧
      handleRefs E { cmd with ok := true } st.path db1 = (.ok (), st'.db) ∧ out = pushReport st.caps [{ cmd with ok := true }] := by
  unfold receiveData at h
  rw [hcmd] at h
  simp only [List.getLast?_singleton, mysqlPush, List.dropLast_singleton, List.nil_append] at h
  cases hd : decodePack X (getHashObject X E st.db) fuel body with
  | ok p =>
    rw [hd] at h
    simp only at h
    rcases hs : savePackfile E fuel p st.path st.db with ⟨r, db1⟩
    rw [hs] at h
    cases r with
    | ok u =>
      simp only at h
      rcases hr : handleRefs E { cmd with ok := true } st.path db1 with ⟨r, db2⟩
      rw [hr] at h
      cases r with
      | ok u =>
        simp only [Res.ok.injEq, Prod.mk.injEq] at h
        obtain ⟨rfl, rfl⟩ := h
        exact ⟨p, db1, rfl, hs, hr, rfl⟩
      | err e => simp at h
      | panic => simp at h
      | spin => simp at h
    | err e =>
      exfalso
      unfold savePackfile at hs
      split at hs
      · split at hs
        · split at hs <;> simp at hs
        · simp at hs
        · simp at hs
      · simp at hs
      · simp at hs
    | panic => simp at h
    | spin => simp at h
  | err e => rw [hd] at h; simp at h
  | panic => rw [hd] at h; simp at h
  | spin => rw [hd] at h; simp at h

/-- **C26 (partial)** If the database accepts the inserts of commits and refs, then after a push of one ref that got an answer: every commit of the
pack is stored for the path with its exact content, every reachable tree and blob is stored, everything stored before still is, a created ref is
stored with the new id, an update moved a ref of the path from the old to the new id. (Missing from the full claim: failing inserts of commits and refs are ignored, see
`C26_insert_errors_swallowed`; the stored name has a NUL byte appended, see C23; which ref an update moves, see C53.) -/
theorem C26_durable_partial (X : Ext) (E : SqlExt) (fuel : Nat) (path : Bytes) (db : Db) (c : Spec.PushCmd) (h : c.Ok)
    (caps : Bytes) (hc : caps.length ≤ 4000) (hu : ∀ x ∈ caps, x.toNat < 128) (pack : Bytes)
    (hp : (ascii "PACK").isPrefixOf pack = true)
    (hac : ∀ n rows, E.acceptCommits n rows = true) (har : ∀ n rows, E.acceptRefs n rows = true)
    (out : Bytes) (st' : PushState Db)
    (hok : httpReceivePack (mysqlPush X E fuel) { caps := [], commands := [], path := path, db := db } (Spec.pushBody c [] caps pack) = .ok (out, st')) :
    ∃ p, decodePack X (getHashObject X E db) fuel pack = .ok p ∧
      (∀ o, p.result.hashObject o.id = some o → o.t = .commit →
        ∃ r ∈ st'.db.commits, r.gitId = Hash.toPlainStr o.id ∧ r.data = o.data ∧ r.repoPath = path) ∧
      (∀ x, Spec.PackReach p.result.hashObject x → ∃ r ∈ st'.db.nodes, r.gitId = Hash.toPlainStr x) ∧
      (∀ r ∈ db.commits, r ∈ st'.db.commits) ∧ (∀ r ∈ db.nodes, r ∈ st'.db.nodes) ∧
      (c.old = zeroId ∧ st'.db.refs = db.refs ++ [{ repoPath := path, refName := c.name ++ [0], refGitId := c.new }] ∨
        c.old ≠ zeroId ∧ c.new ≠ zeroId ∧ ∃ pre r post, db.refs = pre ++ r :: post ∧ E.fold r.repoPath = E.fold path ∧
          E.fold r.refGitId = E.fold c.old ∧ st'.db.refs = pre ++ { r with refGitId := c.new } :: post) := by
  rw [push_answer _ path db c h caps hc hu pack hp] at hok
  obtain ⟨p, db1, h1, h2, h3, _⟩ := receiveData_ok rfl (Res.unwrap_eq_ok.1 hok)
  simp only at h1 h2 h3
  obtain ⟨D, rows, db0, p1, p2, p3, rfl⟩ := savePackfile_ok h2
  have hH : D.Holds p.result := C36_each_object_once h1 (by have := E.pool_outcome p.result; rwa [p1] at this)
  obtain ⟨rows', n1, n2, _, n4⟩ := C48_stored_partial h1 E fuel path db _ h2
  obtain ⟨s1, s2, s3⟩ := saveNodes_ok p3
  obtain ⟨c1, c2, c3⟩ := saveCommits_eq E D.commits path db0
  have hcommits := c3 hac
  rw [s2] at hcommits
  set db1 := saveCommits E D.commits path db0 with hdb1
  have keep : st'.db.nodes = db1.nodes ∧ st'.db.commits = db1.commits ∧
      (c.old = zeroId ∧ st'.db.refs = db1.refs ++ [{ repoPath := path, refName := c.name ++ [0], refGitId := c.new }] ∨
        c.old ≠ zeroId ∧ c.new ≠ zeroId ∧ ∃ pre r post, db1.refs = pre ++ r :: post ∧ E.fold r.repoPath = E.fold path ∧
          E.fold r.refGitId = E.fold c.old ∧ st'.db.refs = pre ++ { r with refGitId := c.new } :: post) := by
    unfold handleRefs at h3
    simp only [RefCommand.new] at h3
    by_cases ho : zeroId = c.old
    · simp only [if_pos ho, Prod.mk.injEq, true_and] at h3
      obtain ⟨r1, r2, r3, _⟩ := saveRefs_eq E { RefCommand.new c.old c.new (c.name ++ [0]) with commandType := .create } path db1
      have e := r3 har
      simp only [RefCommand.new] at r1 r2 e
      rw [h3] at r1 r2 e
      exact ⟨r1, r2, .inl ⟨ho.symm, e⟩⟩
    · by_cases hn : zeroId = c.new
      · simp only [if_neg ho, if_pos hn] at h3
        cases (Prod.mk.inj h3).1
      · simp only [if_neg ho, if_neg hn] at h3
        obtain ⟨r1, r2, pre, r, post, r3, r4, r5, r6⟩ := updateRefs_ok h3
        exact ⟨r1, r2, .inr ⟨fun e => ho e.symm, fun e => hn e.symm, pre, r, post, r3, r4, r5, r6⟩⟩
  obtain ⟨k1, k2, k3⟩ := keep
  refine ⟨p, h1, ?_, ?_, ?_, ?_, ?_⟩
  · intro o ho ht
    obtain ⟨co, hm, e⟩ := List.mem_map.1 ((hH.commits o).2 ⟨ht, ho⟩)
    refine ⟨co.row path, ?_, by rw [CommitObj.row, e], by rw [CommitObj.row, e], rfl⟩
    rw [k2, hcommits]
    exact List.mem_append_right _ (List.mem_map_of_mem hm)
  · intro x hx
    obtain ⟨r, hr, e⟩ := n4 x hx
    exact ⟨r, by rw [k1, n1]; exact List.mem_append_right _ hr, e⟩
  · intro r hr
    rw [k2, hcommits]
    exact List.mem_append_left _ hr
  · intro r hr
    rw [k1, n1]
    exact List.mem_append_left _ hr
  · rw [n2] at k3
    exact k3

/-- The same database, but every insert of commits and refs fails. -/
def SqlExt.rejecting (E : SqlExt) : SqlExt := { E with acceptCommits := fun _ _ => false, acceptRefs := fun _ _ => false }

theorem insertCommits_reject (E : SqlExt) : ∀ (bs : List (List CommitRow)) (db : Db),
    insertCommits E.rejecting bs db = { db with inserts := (insertCommits E.rejecting bs db).inserts }
  | [], db => rfl
  | b :: bs, db => by
    have := insertCommits_reject E bs { db with commits := if E.rejecting.acceptCommits db.inserts b then db.commits ++ b else db.commits, inserts := db.inserts + 1 }
    rw [insertCommits]
    rw [this]
    rfl

theorem insertNodes_reject (E : SqlExt) : ∀ (bs : List (List NodeRow)) (db : Db), insertNodes E.rejecting bs db = insertNodes E bs db
  | [], db => rfl
  | b :: bs, db => by
    rw [insertNodes, insertNodes, insertNodes_reject E bs]
    rfl

/-- **C26 is false**: when every insert of commits and refs fails, the creation of a ref gets the same answer as when they all work, but no ref and no commit is stored. -/
theorem C26_insert_errors_swallowed (X : Ext) (E : SqlExt) (fuel : Nat) (path : Bytes) (db : Db) (c : Spec.PushCmd) (h : c.Ok)
    (hcreate : c.old = zeroId) (caps : Bytes) (hc : caps.length ≤ 4000) (hu : ∀ x ∈ caps, x.toNat < 128) (pack : Bytes)
    (hp : (ascii "PACK").isPrefixOf pack = true) (out : Bytes) (st' : PushState Db)
    (hok : httpReceivePack (mysqlPush X E fuel) { caps := [], commands := [], path := path, db := db } (Spec.pushBody c [] caps pack) = .ok (out, st')) :
    ∃ st'', httpReceivePack (mysqlPush X E.rejecting fuel) { caps := [], commands := [], path := path, db := db } (Spec.pushBody c [] caps pack) = .ok (out, st'') ∧
      st''.db.refs = db.refs ∧ st''.db.commits = db.commits := by
  rw [push_answer _ path db c h caps hc hu pack hp] at hok ⊢
  obtain ⟨p, db1, h1, h2, h3, rfl⟩ := receiveData_ok rfl (Res.unwrap_eq_ok.1 hok)
  simp only at h1 h2 h3
  obtain ⟨D, rows, db0, p1, p2, p3, rfl⟩ := savePackfile_ok h2
  obtain ⟨s1, s2, s3⟩ := saveNodes_ok p3
  have e1 : savePackfile E.rejecting fuel p path db = (.ok (), saveCommits E.rejecting D.commits path db0) := by
    unfold savePackfile
    rw [show E.rejecting.pool p.result = .ok D from p1]
    simp only
    rw [p2]
    simp only
    rw [show saveNodes E.rejecting rows db = (.ok (), db0) from by rw [← p3]; exact insertNodes_reject E _ db]
  have e0 : decodePack X (getHashObject X E.rejecting db) fuel pack = .ok p := h1
  have e2 : handleRefs E.rejecting (RefCommand.new c.old c.new (c.name ++ [0])) path (saveCommits E.rejecting D.commits path db0) =
      (.ok (), saveRefs E.rejecting (RefCommand.new c.old c.new (c.name ++ [0])) path (saveCommits E.rejecting D.commits path db0)) := by
    unfold handleRefs
    simp only [RefCommand.new, hcreate, if_true]
  have hcmd : ({ RefCommand.new c.old c.new (c.name ++ [0]) with ok := true } : RefCommand) = RefCommand.new c.old c.new (c.name ++ [0]) := rfl
  unfold receiveData
  simp only [List.getLast?_singleton, mysqlPush, List.dropLast_singleton, List.nil_append, e0, e1, hcmd, e2, Res.unwrap_ok]
  refine ⟨_, rfl, ?_, ?_⟩
  · rw [(saveRefs_eq E.rejecting _ path _).2.2.2 (fun _ _ => rfl), (saveCommits_eq E.rejecting D.commits path db0).2.1, s3]
  · rw [(saveRefs_eq E.rejecting _ path _).2.1, saveCommits, insertCommits_reject, s2]

/-- The push of the example repository gets an answer. -/
theorem app_push (E : SqlExt) (ha : ∀ n rows, E.acceptNodes n rows = true) (fuel : Nat) (path caps : Bytes) (hc : caps.length ≤ 4000)
    (hu : ∀ x ∈ caps, x.toNat < 128) (db : Db) : ∃ (file : Bytes) (p : Pack) (out : Bytes) (st' : PushState Db),
      (ascii "PACK").isPrefixOf file = true ∧ decodePack polyExt (getHashObject polyExt E db) (fuel + 2) file = .ok p ∧
      (∀ h m, p.result.hashObject h = some m ↔ m ∈ appObjects ∧ m.id = h) ∧
      httpReceivePack (mysqlPush polyExt E (fuel + 2)) { caps := [], commands := [], path := path, db := db } (Spec.pushBody appCmd [] caps file) = .ok (out, st') ∧
      Spec.reportLines (decide (.sideBand ∈ parseCapabilities caps ∨ .sideBand64k ∈ parseCapabilities caps)) out =
        some [ascii "unpack ok\n", Spec.statusLine (ascii "refs/heads/master" ++ [0]) none] := by
  obtain ⟨file, p, h1, _, h2, h3⟩ := app_pack (getHashObject polyExt E db) appObjects (fun _ h => h) (by decide) (by decide) (by decide +kernel) (fuel + 1)
  obtain ⟨hist, e, _⟩ := decodePack_hist h2
  obtain ⟨db1, h4⟩ := app_stored (by rw [e]; exact PackCache.keyed_run hist) h3 E ha fuel path db
  obtain ⟨out, st', r1, _, r2⟩ := (C70_report_partial (mysqlPush polyExt E (fuel + 2)) path db db1 appCmd appCmd_ok caps hc hu file h1 p h2).1 _ h4 rfl
  exact ⟨file, p, out, st', h1, h2, h3, r1, r2⟩

/-- After a push to an empty server that works, the commit and the ref are stored. -/
example : ∃ (file out : Bytes) (st' : PushState Db),
    httpReceivePack (mysqlPush polyExt demoSql 2) { caps := [], commands := [], path := ascii "/app", db := Db.empty }
      (Spec.pushBody appCmd [] (ascii "report-status") file) = .ok (out, st') ∧
    (∃ r ∈ st'.db.commits, r.data = appCommit.encode ∧ r.repoPath = ascii "/app") ∧
    st'.db.refs = [{ repoPath := ascii "/app", refName := ascii "refs/heads/master" ++ [0], refGitId := appCmd.new }] := by
  obtain ⟨file, p, out, st', h1, h2, h3, h4, _⟩ := app_push demoSql (fun _ _ => rfl) 0 (ascii "/app") (ascii "report-status") (by decide) (by decide) Db.empty
  obtain ⟨p', q1, q2, _, _, _, q3⟩ := C26_durable_partial polyExt demoSql 2 (ascii "/app") Db.empty appCmd appCmd_ok (ascii "report-status") (by decide) (by decide) file h1
    (fun _ _ => rfl) (fun _ _ => rfl) out st' h4
  rw [h2] at q1
  cases q1
  obtain ⟨r, hr, _, e2, e3⟩ := q2 (metaOf polyExt (.commit, appCommit.encode)) ((h3 _ _).2 ⟨by simp [appObjects, appThin], rfl⟩) rfl
  refine ⟨file, out, st', h4, ⟨r, hr, e2, e3⟩, ?_⟩
  rcases q3 with ⟨_, q⟩ | ⟨q, _⟩
  · exact q
  · exact absurd (rfl : appCmd.old = zeroId) q

/-- **C26 is false**: a push to an empty server, reported ok, after which the server has no ref and no commit. -/
theorem C26_durable_false : ∃ (E : SqlExt) (file out : Bytes) (st' : PushState Db),
    httpReceivePack (mysqlPush polyExt E 2) { caps := [], commands := [], path := ascii "/app", db := Db.empty }
      (Spec.pushBody appCmd [] (ascii "report-status") file) = .ok (out, st') ∧
    Spec.reportLines false out = some [ascii "unpack ok\n", Spec.statusLine (ascii "refs/heads/master" ++ [0]) none] ∧
    st'.db.refs = [] ∧ st'.db.commits = [] := by
  obtain ⟨file, p, out, st', h1, h2, h3, h4, h5⟩ := app_push demoSql (fun _ _ => rfl) 0 (ascii "/app") (ascii "report-status") (by decide) (by decide) Db.empty
  obtain ⟨st'', q1, q2, q3⟩ := C26_insert_errors_swallowed polyExt demoSql 2 (ascii "/app") Db.empty appCmd appCmd_ok rfl (ascii "report-status") (by decide)
    (by decide) file h1 out st' h4
  have : decide (Capability.sideBand ∈ parseCapabilities (ascii "report-status") ∨
    .sideBand64k ∈ parseCapabilities (ascii "report-status")) = false := by decide +kernel
  rw [this] at h5
  exact ⟨demoSql.rejecting, file, out, st'', q1, h5, q2, q3⟩

end Gust

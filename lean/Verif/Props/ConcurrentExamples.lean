import Verif.Props.Concurrent
import Verif.Props.CloneExamples

/-! # Examples and counterexamples for C81 - C84 -/

namespace Gust

open Spec (nodeObj StoreReach commitsAt InRepo)

/-- The command that the client of `appCmd` sends. -/
def appCreate : RefCommand := { refName := ascii "refs/heads/master", oldId := zeroId, newId := appCmd.new, ok := true, errorMsg := [], commandType := .create }

/-- A push of the example repository, whatever is stored. -/
theorem app_task : ∃ (file : Bytes) (p : Pack), decodePack polyExt (fun _ => none) 2 file = .ok p ∧ OwnCommit p appCreate ∧
    (∀ h m, p.result.hashObject h = some m ↔ m ∈ appObjects ∧ m.id = h) ∧
    ∀ (E : SqlExt), (∀ n rows, E.acceptNodes n rows = true) → ∀ (path : Bytes) (db : Db), ∃ db', savePackfile E 2 p path db = (.ok (), db') := by
  obtain ⟨file, p, _, _, h2, h3⟩ := app_pack (fun _ => none) appObjects (fun _ h => h) (by decide) (by decide) (by decide +kernel) 1
  obtain ⟨hist, e, _⟩ := decodePack_hist h2
  refine ⟨file, p, h2, ⟨metaOf polyExt (.commit, appCommit.encode), (h3 _ _).2 ⟨by simp [appObjects, appThin], rfl⟩, rfl, rfl⟩, h3, fun E ha path db => ?_⟩
  exact app_stored (by rw [e]; exact PackCache.keyed_run hist) h3 E ha 0 path db

/-- Only the objects of the example repository are stored if that was so before. -/
theorem app_more {St : ObjectSource} {fuel0 : Nat} {file : Bytes} {p : Pack} (hdec : decodePack polyExt St fuel0 file = .ok p)
    (hf : ∀ h m, p.result.hashObject h = some m ↔ m ∈ appObjects ∧ m.id = h) (E : SqlExt) (fuel : Nat) (path : Bytes) (db db' : Db)
    (hs : savePackfile E fuel p path db = (.ok (), db')) (hdb : ∀ o, StoredObj db o → metaOf polyExt o ∈ appObjects) (o : Spec.Obj)
    (ho : StoredObj db' o) : metaOf polyExt o ∈ appObjects := by
  obtain ⟨rows, h1, h2, _, h4⟩ := push_effect hdec E fuel path db
  rw [hs] at h1 h4
  rcases ho with ⟨n, hn, rfl⟩ | ⟨r, hr, rfl⟩
  · rw [h1] at hn
    rcases List.mem_append.1 hn with hn | hn
    · exact hdb _ (.inl ⟨n, hn, rfl⟩)
    · obtain ⟨m, hm, e, _⟩ := h2 n hn
      rw [← e]
      exact ((hf _ _).1 hm).1
  · rcases h4 r hr with h | ⟨_, _, m, c, hm, ht, hd, _⟩
    · exact hdb _ (.inr ⟨r, h, rfl⟩)
    · have hmem := ((hf _ _).1 hm).1
      have := (metaOf_of_new (appObjects_new m hmem)).2
      rw [hd, ← ht, this]
      exact hmem

/-- The paths of the example. -/
def AppPaths (q : Bytes) : Prop := q = ascii "/app" ∨ q = ascii "/other"

theorem appPaths_above (path : Bytes) : ∀ a q, AppPaths a → AppPaths q → demoFold q = demoFold path → pathStartsWith q a = true → a = q := by
  rintro a q (rfl | rfl) (rfl | rfl) _ h
  · rfl
  · exact absurd h (by decide)
  · exact absurd h (by decide)
  · rfl

/-- What the database of the examples does. -/
def AppSql (E : SqlExt) : Prop := E.fold = demoFold ∧ ∀ n b, E.acceptCommits n b = true

/-- The example repository is pushed to `/app` (state `a`); then it is pushed to `/other`, and that push has not written its ref yet (state `b`). -/
theorem app_two : ∃ (p : Pack) (a b : Sys), SysRun polyExt AppSql AppPaths OwnCommit Sys.empty a ∧ SysRun polyExt AppSql AppPaths OwnCommit a b ∧
    (∀ h m, p.result.hashObject h = some m ↔ m ∈ appObjects ∧ m.id = h) ∧
    a.pushed = [(0, ascii "/app", p)] ∧ a.tasks = [some []] ∧ a.db.refs = [{ repoPath := ascii "/app", refName := ascii "refs/heads/master", refGitId := appCmd.new }] ∧
    b.pushed = [(1, ascii "/other", p), (0, ascii "/app", p)] ∧ b.tasks = [some [], some (refActs appCreate (ascii "/other"))] ∧ b.db.refs = a.db.refs ∧
    (∀ o, StoredObj b.db o → metaOf polyExt o ∈ appObjects) ∧ ∃ St fuel0 file, decodePack polyExt St fuel0 file = .ok p ∧ OwnCommit p appCreate ∧
      ∀ (E : SqlExt), (∀ n rows, E.acceptNodes n rows = true) → ∀ (path : Bytes) (db : Db), ∃ db', savePackfile E 2 p path db = (.ok (), db') := by
  obtain ⟨file, p, hdec, hown, hobj, hsave⟩ := app_task
  obtain ⟨db1, s1⟩ := hsave demoSql (fun _ _ => rfl) (ascii "/app") Sys.empty.db
  have r1 : db1.refs = [] := by
    obtain ⟨db', e1, e2⟩ := savePackfile_any (fun _ _ => rfl) s1 Sys.empty.db
    rw [s1] at e1
    rw [(Prod.mk.inj e1).2, e2]
    rfl
  set row : RefRow := { repoPath := ascii "/app", refName := ascii "refs/heads/master", refGitId := appCmd.new } with hrow
  set db2 : Db := { db1 with refs := db1.refs ++ [row], inserts := db1.inserts + 1 } with hdb2
  obtain ⟨db3, s3⟩ := hsave demoSql (fun _ _ => rfl) (ascii "/other") db2
  have r3 : db3.refs = db2.refs := by
    obtain ⟨db', e1, e2⟩ := savePackfile_any (fun _ _ => rfl) s3 db2
    rw [s3] at e1
    rw [(Prod.mk.inj e1).2, e2]
  have hQ : AppSql demoSql := ⟨rfl, fun _ _ => rfl⟩
  have p1 := SysStep.push (X := polyExt) (Q := AppSql) (R := AppPaths) (W := OwnCommit) Sys.empty _ _ _ p demoSql 2 (ascii "/app") appCreate hdec (.inl rfl) hown
  have t1 := solo_push polyExt demoSql 2 p (ascii "/app") appCreate Sys.empty.db
  rw [s1] at t1
  have t1 : Solo polyExt demoSql (some (pushActs demoSql.pool 2 p (ascii "/app") appCreate), Sys.empty.db) (some [], db2) := t1
  have u1 := t1.run (R := AppPaths) (W := OwnCommit) hQ [some (pushActs demoSql.pool 2 p (ascii "/app") appCreate)] [(0, ascii "/app", p)] 0 rfl
  have p2 := SysStep.push (X := polyExt) (Q := AppSql) (R := AppPaths) (W := OwnCommit) ⟨db2, [some []], [(0, ascii "/app", p)]⟩ _ _ _ p demoSql 2 (ascii "/other") appCreate hdec (.inr rfl) hown
  have t2 := solo_save polyExt demoSql 2 p (ascii "/other") appCreate db2
  rw [s3] at t2
  have u2 := t2.run (R := AppPaths) (W := OwnCommit) hQ [some [], some (pushActs demoSql.pool 2 p (ascii "/other") appCreate)]
    [(1, ascii "/other", p), (0, ascii "/app", p)] 1 rfl
  refine ⟨p, ⟨db2, [some []], [(0, ascii "/app", p)]⟩, ⟨db3, [some [], some (refActs appCreate (ascii "/other"))], [(1, ascii "/other", p), (0, ascii "/app", p)]⟩,
    SysRun.trans (.step _ _ _ (.refl _) p1) u1, SysRun.trans (.step _ _ _ (.refl _) p2) u2, hobj, rfl, rfl, ?_, rfl, rfl, r3, ?_, _, _, _, hdec, hown, hsave⟩
  · show db1.refs ++ [row] = [row]
    rw [r1]
    rfl
  · refine app_more hdec hobj demoSql 2 _ db2 db3 s3 ?_
    intro o ho
    refine app_more hdec hobj demoSql 2 _ Sys.empty.db db1 s1 ?_ o ho
    rintro o (⟨n, hn, _⟩ | ⟨n, hn, _⟩) <;> cases hn

theorem SysRun.any_push {X : Ext} {Q : SqlExt → Prop} {R : Bytes → Prop} {W : Pack → RefCommand → Prop} {s t : Sys}
    (h : SysRun X Q R W s t) : SysRun X Q R (fun _ _ => True) s t := by
  induction h with
  | refl => exact .refl _
  | step t u _ hs ih =>
    refine .step _ _ _ ih ?_
    cases hs with
    | push St fuel0 file p E fuel q cmd hdec hq hw => exact .push t St fuel0 file p E fuel q cmd hdec hq trivial
    | head q hq => exact .head t q hq
    | act i a as E hi hE => exact .act t i a as E hi hE

/-- C82: the push to `/app` has finished; all five objects are in its repository, while another push goes on. -/
example : ∃ (b : Sys), b.tasks = [some [], some (refActs appCreate (ascii "/other"))] ∧
    ∀ m ∈ appObjects, ∃ o, InRepo demoFold b.db (ascii "/app") o ∧ m = metaOf polyExt o := by
  obtain ⟨p, a, b, h1, h2, hobj, _, _, _, hb1, hb2, _, objs, _⟩ := app_two
  refine ⟨b, hb2, fun m hm => ?_⟩
  have run := (h1.trans h2)
  refine (C82_overlapping_pushes_partial polyExt demoFold AppPaths OwnCommit (ascii "/app") (appPaths_above _) b (run.weaken fun E h => h.1) (app_unique objs)).2.2
    (run.weaken fun E h => h.2) (0, ascii "/app", p) (by rw [hb1]; simp) (by rw [hb2]; rfl) m ((hobj _ _).2 ⟨hm, rfl⟩) ?_
  exact app_reached (fun m hm => (hobj _ _).2 ⟨appThin_sub m hm, rfl⟩) hm

/-- C81: a clone of `/app` whose first query is before the push to `/other`, the others after: the five objects. -/
example : ∃ (V : Nat → SqlExt × Sys) (file : Bytes) (ms : List MetaData), (V 0).2.tasks = [some []] ∧
    (V 1).2.tasks = [some [], some (refActs appCreate (ascii "/other"))] ∧
    getFullPackL polyExt (fun k => ((V k).1, (V k).2.db)) 2 (ascii "/app") = .ok file ∧ PackHas polyExt file ms ∧ ∀ m, m ∈ ms ↔ m ∈ appObjects := by
  obtain ⟨p, a, b, h1, h2, hobj, ha1, ha2, _, hb1, hb2, _, objs, _⟩ := app_two
  have h1' := h1.weaken (Q' := fun E => E.fold = demoFold) fun E h => h.1
  have h2' := h2.weaken (Q' := fun E => E.fold = demoFold) fun E h => h.1
  have inv := sysRun_inv (fun E h => h) (appPaths_above (ascii "/app")) (sysInv_empty polyExt demoFold AppPaths (ascii "/app")) (h1'.trans h2')
  have si := (inv.store (app_unique objs)).1
  have ext := sysRun_extends h2'
  have done : ∀ m ∈ appObjects, ∃ o, InRepo demoFold a.db (ascii "/app") o ∧ m = metaOf polyExt o := by
    intro m hm
    refine (C82_overlapping_pushes_partial polyExt demoFold AppPaths OwnCommit (ascii "/app") (appPaths_above _) a h1' (ext.unique (app_unique objs))).2.2
      (h1.weaken fun E h => h.2) (0, ascii "/app", p) (by rw [ha1]; simp) (by rw [ha2]; rfl) m ((hobj _ _).2 ⟨hm, rfl⟩) ?_
    exact app_reached (fun m hm => (hobj _ _).2 ⟨appThin_sub m hm, rfl⟩) hm
  let V : Nat → SqlExt × Sys := fun k => (demoSqlRev, if k = 0 then a else b)
  have to_b : ∀ k, SysRun polyExt (fun E => E.fold = demoFold) AppPaths OwnCommit (V k).2 b := by
    intro k
    by_cases hk : k = 0
    · subst hk; exact h2'
    · show SysRun polyExt _ _ _ (if k = 0 then a else b) b
      rw [if_neg hk]; exact .refl _
  obtain ⟨file, ms, c1, c2, c3⟩ := C81_snapshot_partial polyExt demoFold demoFold_hash AppPaths OwnCommit (ascii "/app") (appPaths_above _) V b (fun _ => rfl) h1'
    (fun k => to_b k) to_b (app_unique objs) (app_fits objs) 2
    (fun r _ c _ => app_nested objs si.id c.treeId) (by
      obtain ⟨o, ho, _⟩ := done (metaOf polyExt (.commit, appCommit.encode)) (by simp [appObjects, appThin])
      intro e
      have e : commitsAt demoFold a.db.commits (ascii "/app") = [] := e
      cases ho with
      | commit r hr => rw [e] at hr; cases hr
      | node r c x n hr => rw [e] at hr; cases hr)
  refine ⟨V, file, ms, ha2, hb2, c1, c2, fun m => ?_⟩
  rw [c3]
  constructor
  · rintro ⟨o, ho, rfl⟩
    exact objs o (ext.stored (inRepo_stored ho))
  · exact done m

/-- C83, race: two pushes update the master of `/app` from the pushed commit; both finish, the first update is lost. -/
example : ∃ t : Sys, SysRun polyExt AppSql AppPaths (fun _ _ => True) Sys.empty t ∧ t.tasks[1]? = some (some []) ∧ t.tasks[2]? = some (some []) ∧
    t.db.refs = [{ repoPath := ascii "/app", refName := ascii "refs/heads/master", refGitId := ascii "2222222222222222222222222222222222222222" }] := by
  obtain ⟨p, a, b, h1, h2, hobj, ha1, ha2, hrefs, hb1, hb2, _, objs, St, fuel0, file, hdec, hown, hsave⟩ := app_two
  let c1 : RefCommand := { appCreate with oldId := appCmd.new, newId := ascii "1111111111111111111111111111111111111111", commandType := .update }
  let c2 : RefCommand := { appCreate with oldId := appCmd.new, newId := ascii "2222222222222222222222222222222222222222", commandType := .update }
  obtain ⟨db1, s1⟩ := hsave demoSql (fun _ _ => rfl) (ascii "/app") a.db
  obtain ⟨t, i, r, g1, _, g2, g3, g4, _, _, g5⟩ := C83_race_false (X := polyExt) (Q := AppSql) (R := AppPaths) (W := fun _ _ => True) a demoSql ⟨rfl, fun _ _ => rfl⟩
    (fun _ _ => rfl) (fun _ _ => rfl) (ascii "/app") (.inl rfl) 2 c1 c2 rfl rfl rfl ⟨_, by rw [hrefs]; exact .head _, rfl, rfl⟩ hdec hdec trivial trivial s1 s1
  rw [ha2] at g2 g3
  refine ⟨t, h1.any_push.trans g1, g2, g3, ?_⟩
  rw [hrefs] at g4 g5
  match i, g4 with
  | 0, g4 =>
    cases g4
    rw [g5]
    rfl
  | i + 1, g4 => simp at g4

/-- C83, one after the other: the second update fails. -/
example : ∃ c1 c2 : RefCommand, ∃ db db1 : Db, c1.commandType = .update ∧ c2.commandType = .update ∧ c1.oldId = c2.oldId ∧
    handleRefs demoSql c1 (ascii "/app") db = (.ok (), db1) ∧ db1 ≠ db ∧ handleRefs demoSqlRev c2 (ascii "/app") db1 = (.panic, db1) := by
  let c1 : RefCommand := { appCreate with oldId := ascii "1", newId := ascii "2", commandType := .update }
  let c2 : RefCommand := { appCreate with oldId := ascii "1", newId := ascii "3", commandType := .update }
  let db : Db := { Db.empty with refs := [⟨ascii "/other", ascii "master", ascii "1"⟩, ⟨ascii "/app", ascii "master", ascii "1"⟩] }
  have h : handleRefs demoSql c1 (ascii "/app") db = (.ok (), { db with refs := [⟨ascii "/other", ascii "master", ascii "1"⟩, ⟨ascii "/app", ascii "master", ascii "2"⟩] }) := by decide
  refine ⟨c1, c2, db, _, rfl, rfl, rfl, h, by decide, ?_⟩
  exact C83_second_update_partial demoSql demoSqlRev rfl c1 c2 rfl rfl rfl (by decide) (ascii "/app") db _ _ (by decide) h rfl

/-- C84: the ref of `/app` names the pushed commit, while another push goes on. -/
example : ∃ (b : Sys) (c : CommitRow), b.tasks = [some [], some (refActs appCreate (ascii "/other"))] ∧ b.db.refs.length = 1 ∧
    c ∈ commitsAt demoFold b.db.commits (ascii "/app") ∧ Hash.toPlainStr (idOf polyExt (.commit, c.data)) = appCmd.new := by
  obtain ⟨p, a, b, h1, h2, hobj, ha1, ha2, hrefs, hb1, hb2, hb3, objs, _⟩ := app_two
  obtain ⟨c, hc, _, h⟩ := C84_refs_partial polyExt demoFold AppPaths b (h1.trans h2) { repoPath := ascii "/app", refName := ascii "refs/heads/master", refGitId := appCmd.new }
    (by rw [hb3, hrefs]; exact .head _)
  exact ⟨b, c, hb2, by rw [hb3, hrefs]; rfl, hc, (h (appPaths_above _) (app_unique objs)).1⟩

/-- **C84 is false** when the database refuses the commits of a push: nobody notices, the ref is written. -/
theorem C84_lost_commits_false : ∃ (E : SqlExt) (s : Sys), SysRun polyExt (· = E) AppPaths OwnCommit Sys.empty s ∧ s.tasks = [some []] ∧ s.db.commits = [] ∧
    s.db.refs = [{ repoPath := ascii "/app", refName := ascii "refs/heads/master", refGitId := appCmd.new }] := by
  obtain ⟨file, p, hdec, hown, hobj, hsave⟩ := app_task
  let E : SqlExt := { demoSql with acceptCommits := fun _ _ => false }
  obtain ⟨db1, s1⟩ := hsave E (fun _ _ => rfl) (ascii "/app") Sys.empty.db
  have r1 : db1.refs = [] := by
    obtain ⟨db', e1, e2⟩ := savePackfile_any (fun _ _ => rfl) s1 Sys.empty.db
    rw [s1] at e1
    rw [(Prod.mk.inj e1).2, e2]
    rfl
  have none_in : ∀ (bs : List (List CommitRow)) (db : Db), (insertCommits E bs db).commits = db.commits := by
    intro bs
    induction bs with
    | nil => exact fun db => rfl
    | cons b bs ih => exact fun db => (ih _).trans rfl
  have keep : ∀ (bs : List (List NodeRow)) (db : Db), (insertNodes E bs db).2.commits = db.commits := by
    intro bs
    induction bs with
    | nil => exact fun db => rfl
    | cons b bs ih => exact fun db => (ih _).trans rfl
  have c1 : db1.commits = [] := by
    obtain ⟨D, rows, db0, p1, p2, p3, e⟩ := savePackfile_ok s1
    rw [e, saveCommits, none_in]
    have := keep (nodeBatches 0 [] rows) Sys.empty.db
    rw [saveNodes] at p3
    rw [p3] at this
    exact this
  have p1 := SysStep.push (X := polyExt) (Q := (· = E)) (R := AppPaths) (W := OwnCommit) Sys.empty _ _ _ p E 2 (ascii "/app") appCreate hdec (.inl rfl) hown
  have t1 := solo_push polyExt E 2 p (ascii "/app") appCreate Sys.empty.db
  rw [s1] at t1
  have u1 := t1.run (R := AppPaths) (W := OwnCommit) (Q := (· = E)) rfl [some (pushActs E.pool 2 p (ascii "/app") appCreate)] [(0, ascii "/app", p)] 0 rfl
  refine ⟨E, _, SysRun.trans (.step _ _ _ (.refl _) p1) u1, rfl, c1, ?_⟩
  show db1.refs ++ _ = _
  rw [r1]
  rfl

end Gust

import Verif.Props.Checkout
import Verif.Props.FetchOverlapExamples

/-! # C109 on a concrete run, and where it fails -/

namespace Gust

open Spec (nodeObj StoreReach commitsAt InRepo)

theorem fileAt_two {find : Hash → Option MetaData} {h : Hash} {a b mode data : Bytes} (hf : Spec.FileAt find h [a, b] mode data) :
    ∃ t items i, h = t.id ∧ find t.id = some t ∧ decodeTree t.data = .ok items ∧ i ∈ items ∧ i.filename = a ∧ Spec.FileAt find i.id [b] mode data := by
  cases hf with
  | dir t items i _ _ _ h1 h2 h3 h4 _ h5 => exact ⟨t, items, i, rfl, h1, h3, h4, rfl, h5⟩

theorem fileAt_one {find : Hash → Option MetaData} {h : Hash} {b mode data : Bytes} (hf : Spec.FileAt find h [b] mode data) :
    ∃ t items i, h = t.id ∧ find t.id = some t ∧ decodeTree t.data = .ok items ∧ i ∈ items ∧ i.filename = b := by
  cases hf with
  | file t b items i h1 h2 h3 h4 => exact ⟨t, items, i, rfl, h1, h3, h4, rfl⟩
  | dir t items i _ _ _ h1 h2 h3 h4 => exact ⟨t, items, i, rfl, h1, h3, h4, rfl⟩

/-- C109: whoever clones `/app` while a push to `/other` goes on and checks out the pushed commit finds a file `src/a` with the content `one`, and nothing at `src/b`. -/
example : ∃ (first last : Sys) (T : Spec.FetchMoments) (fuel : Nat) (out file : Bytes) (q : Pack), Spec.FetchDuring polyExt demoFold AppPaths OwnCommit first T last ∧
    (T.pack 1).2.tasks = [some [], some (refActs appCreate (ascii "/other"))] ∧
    httpUploadPackL polyExt T.times fuel (ascii "/app") id demoCut (doneBody cloneLines (ascii "\n") []) = .ok out ∧ Spec.readClone out = some file ∧
    decodePack polyExt (fun _ => none) 2 file = .ok q ∧
    Spec.CheckedOut q.result.hashObject (idOf polyExt (.commit, appCommit.encode)) [ascii "src", ascii "a"] (ascii "100644") (ascii "one") ∧
    ∀ mode data, ¬ Spec.CheckedOut q.result.hashObject (idOf polyExt (.commit, appCommit.encode)) [ascii "src", ascii "b"] mode data := by
  obtain ⟨first, last, T, r, ⟨p, hobj, hpushed, hacc⟩, hT, htasks, h2, objs, hr, e⟩ := app_moments
  have hcommit : p.result.hashObject (idOf polyExt (.commit, appCommit.encode)) = some (metaOf polyExt (.commit, appCommit.encode)) :=
    (hobj _ _).2 ⟨by simp [appObjects, appThin], rfl⟩
  obtain ⟨out, file, c1, c2, c3⟩ := C109_overlapping_partial polyExt demoFold demoFold_hash AppPaths OwnCommit (ascii "/app") (appPaths_above _) first last T hT (app_unique objs)
    (app_fits objs) _ (Nat.le_refl _) hacc 0 p (by rw [hpushed]; simp) (by rw [htasks]; rfl) ⟨metaOf polyExt (.commit, appCommit.encode), hcommit, rfl⟩ id (fun _ _ => .rfl) demoCut demoCut_ok cloneLines (ascii "\n") []
    cloneLines_ok
  obtain ⟨q, q1, q2⟩ := c3 (fun _ => none) 1
  have key := q2 (metaOf polyExt (.commit, appCommit.encode)) hcommit rfl
  have find : ∀ m ∈ appObjects, p.result.hashObject m.id = some m := fun m hm => (hobj _ _).2 ⟨hm, rfl⟩
  refine ⟨first, last, T, _, out, file, q, hT, h2, c1, c2, q1, (key _ _ _).1 ?_, fun mode data hbad => ?_⟩
  · refine ⟨_, appCommit, rfl, hcommit, rfl, appCommit_decode, ?_⟩
    refine .dir (metaOf polyExt (.tree, encodeTree appItems)) appItems (dirItem "src" (idOf polyExt (.tree, encodeTree srcA))) _ _ _
      (find _ (by simp [appObjects, appThin])) rfl appItems_decode (by simp [appItems]) rfl ?_
    exact .file (metaOf polyExt (.tree, encodeTree srcA)) appBlob srcA (fileItem "a" (polyId .blob (ascii "one"))) (find _ (by simp [appObjects, appThin])) rfl srcA_decode
      (by simp [srcA]) (by decide) rfl (find _ (by simp [appObjects])) rfl
  · obtain ⟨o, c, _, k1, _, k2, k3⟩ := (key _ _ _).2 hbad
    rw [show (metaOf polyExt (.commit, appCommit.encode)).id = idOf polyExt (.commit, appCommit.encode) from rfl, hcommit, Option.some.injEq] at k1
    subst k1
    rw [show Commit.decode (metaOf polyExt (.commit, appCommit.encode)).data = .ok appCommit from appCommit_decode] at k2
    cases k2
    obtain ⟨t, items, i, e1, e2, e3, e4, e5, e6⟩ := fileAt_two k3
    rw [← e1, show appCommit.treeId = (metaOf polyExt (.tree, encodeTree appItems)).id from rfl, find _ (by simp [appObjects, appThin]), Option.some.injEq] at e2
    subst e2
    rw [show decodeTree (metaOf polyExt (.tree, encodeTree appItems)).data = .ok appItems from appItems_decode] at e3
    cases e3
    simp only [appItems, List.mem_cons, List.not_mem_nil, or_false] at e4
    rcases e4 with rfl | rfl
    · exact absurd e5 (by decide)
    · obtain ⟨t, items, i, e1, e2, e3, e4, e5⟩ := fileAt_one e6
      rw [← e1, show (dirItem "src" (idOf polyExt (.tree, encodeTree srcA))).id = (metaOf polyExt (.tree, encodeTree srcA)).id from rfl, find _ (by simp [appObjects, appThin]),
        Option.some.injEq] at e2
      subst e2
      rw [show decodeTree (metaOf polyExt (.tree, encodeTree srcA)).data = .ok srcA from srcA_decode] at e3
      cases e3
      simp only [srcA, List.mem_singleton] at e4
      subst e4
      exact absurd e5 (by decide)

/-- **C109 is false** if the database fails to insert the commits: the pusher is told that all went well, and no clone afterwards is ever answered with a pack. -/
theorem C109_lost_false : ∃ (m : Moment) (pack rep : Bytes), 
    (serve demoServer m .empty (appPush pack)).1 = .reply (.ok (.bytes rep)) ∧
    Spec.reportLines false rep = some [ascii "unpack ok\n", Spec.statusLine (ascii "refs/heads/master" ++ [0]) none] ∧
    ∀ (m2 : Moment), m2.sql.fold = demoFold → (∀ l x, x ∈ m2.ord l ↔ x ∈ l) → Spec.CutOk m2.cut → ∀ out,
      (serve demoServer m2 (runServer demoServer .empty [(m, appPush pack)]) (Spec.fetchReq (ascii "/app") (doneBody cloneLines (ascii "\n") []))).1 ≠ .reply (.ok (.bytes out)) := by
  obtain ⟨pack, p, rep, st', h1, h2, h3, h4, h5⟩ := app_push demoSql (fun _ _ => rfl) 0 (ascii "/app") (ascii "report-status") (by decide) (by decide) Db.empty
  obtain ⟨st'', q1, _, q3⟩ := C26_insert_errors_swallowed polyExt demoSql 2 (ascii "/app") Db.empty appCmd appCmd_ok rfl (ascii "report-status") (by decide)
    (by decide) pack h1 rep st' h4
  rw [show decide (Capability.sideBand ∈ parseCapabilities (ascii "report-status") ∨ .sideBand64k ∈ parseCapabilities (ascii "report-status")) = false by decide +kernel] at h5
  obtain ⟨m, hm⟩ : ∃ m : Moment, m = { demoMoment with sql := demoSql.rejecting } := ⟨_, rfl⟩
  have hroute : route (appPush pack).method (appPush pack).path (appPush pack).service = .receivePack (ascii "/app") := route_push app_clean_url (.inr rfl)
  have q1' : httpReceivePack (mysqlPush demoServer.X m.sql m.fuel) { caps := [], commands := [], path := ascii "/app", db := ServerState.empty.db }
      (appPush pack).body = .ok (rep, st'') := by rw [hm]; exact q1
  have hdb : (runServer demoServer .empty [(m, appPush pack)]).db = st''.db := by
    show (serve demoServer m .empty (appPush pack)).2.db = st''.db
    rw [serve_db, hroute]
    exact httpReceiveDb_ok _ _ _ _ _ q1'
  refine ⟨m, pack, rep, ?_, h5, fun m2 hf hord hcut out hout => ?_⟩
  · unfold serve
    rw [hroute]
    simp only [q1']
    rfl
  · have hroute' : route .post (ascii "/app" ++ [] ++ ascii "/git-upload-pack") none = .uploadPack (ascii "/app") := route_fetch app_clean_url (.inl rfl)
    rw [List.append_nil] at hroute'
    simp only [serve, Spec.fetchReq, hroute'] at hout
    obtain ⟨o', e1, e2⟩ := Res.outcome_ok hout
    obtain ⟨file, e3, _⟩ := httpUploadPack_clone hord hcut cloneLines_ok e1
    have e3 : getFullPack polyExt m2.sql m2.fuel (runServer demoServer .empty [(m, appPush pack)]).db (ascii "/app") = .ok file := e3
    rw [hdb, C49_empty_clone_false polyExt m2.sql m2.fuel (ascii "/app") st''.db (by rw [q3]; rfl)] at e3
    cases e3

end Gust

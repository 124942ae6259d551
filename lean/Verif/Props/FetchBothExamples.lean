import Verif.Props.FetchBoth
import Verif.Props.BothExamples
import Verif.Props.AcksExamples

/-! # C149 on a concrete run -/

namespace Gust

open Spec (nodeObj StoreReach commitsAt InRepo)

/-- A client that wants the commit of `/app` and has another one. -/
def updateLines : List Spec.ReqLine := [.want appCmd.new (ascii " multi_ack_detailed side-band-64k\n"), .flush, .have_ (Hash.toPlainStr srcId) (ascii "\n")]

/-- A client that has nothing and wants a commit that was never pushed. -/
def strangeLines : List Spec.ReqLine := [.want (Hash.toPlainStr srcId) (ascii " multi_ack_detailed side-band-64k\n"), .flush]

theorem updateLines_ok : ∀ l ∈ updateLines, l.Ok := by
  intro l hl
  simp only [updateLines, List.mem_cons, List.not_mem_nil, or_false] at hl
  rcases hl with rfl | rfl | rfl
  · exact ⟨appCmd_ok.2.2.1, appCmd_ok.2.2.2.1, ⟨0x20, ascii "multi_ack_detailed side-band-64k\n", by decide, by decide⟩, by decide⟩
  · trivial
  · exact ⟨srcCmd_ok.2.2.1, srcCmd_ok.2.2.2.1, ⟨10, [], by decide, by simp⟩, by decide⟩

theorem strangeLines_ok : Spec.CloneReq strangeLines (ascii "\n") where
  ok := by
    intro l hl
    simp only [strangeLines, List.mem_cons, List.not_mem_nil, or_false] at hl
    rcases hl with rfl | rfl
    · exact ⟨srcCmd_ok.2.2.1, srcCmd_ok.2.2.2.1, ⟨0x20, ascii "multi_ack_detailed side-band-64k\n", by decide, by decide⟩, by decide⟩
    · trivial
  short := by decide
  none := by rfl
  band := ⟨ascii " multi_ack_detailed side-band-64k\n", [ascii "multi_ack_detailed", ascii "side-band-64k\n"], rfl, ⟨by decide, by decide, by decide⟩, .inr (by decide)⟩

theorem updateLines_asks : Spec.Asks updateLines (ascii "multi_ack_detailed") :=
  ⟨ascii " multi_ack_detailed side-band-64k\n", [ascii "multi_ack_detailed", ascii "side-band-64k\n"], rfl, ⟨by decide, by decide, by decide⟩, .inl (by decide)⟩

theorem update_band : Spec.AsksBand (ascii "multi_ack_detailed side-band-64k\n") :=
  ⟨[ascii "multi_ack_detailed", ascii "side-band-64k\n"], ⟨by decide, by decide, by decide⟩, ascii "side-band-64k\n", by decide, [], [10], .nil,
    .cons (.tab_to_cr 10 (by decide) (by decide)) .nil, .inr (by decide)⟩

/-- What is known after the push over SSH, with connection 1 open. -/
theorem both_ready : ∃ (pack rep : Bytes) (p : Pack) (h' : BothHist), (ascii "PACK").isPrefixOf pack = true ∧
    decodePack demoServer.X (getHashObject demoServer.X demoMoment.sql (runBoth demoServer .empty bothBefore).web.db) demoMoment.fuel pack = .ok p ∧
    (∀ h m, p.result.hashObject h = some m ↔ m ∈ appObjects ∧ m.id = h) ∧
    Spec.PushedAny demoServer (ascii "/app") appCmd (ascii "report-status") pack rep demoMoment bothBefore h' ∧
    Spec.SameFoldAny demoFold h' ∧ Spec.NoneAboveAny demoFold (ascii "/app") h' ∧ Spec.Opened demoServer (ascii "/app") 1 h' ∧
    (∀ o, StoredObj (runBoth demoServer .empty h').web.db o → metaOf polyExt o ∈ appObjects) ∧
    ∃ o, InRepo demoFold (runBoth demoServer .empty h').web.db (ascii "/app") o := by
  obtain ⟨pack, rep, p, h1, h2, h3, _, hp, _⟩ := both_pushed
  have objs := both_objs h1 h2 h3 hp
  have names : ∀ x ∈ bothBefore ++ [(demoMoment, Visit.ssh 0 (.data 0 pack))], x.1.sql.fold = demoFold ∧ ∀ a, x.2.repo = some a → a = ascii "/app" := by
    intro x hx
    rcases List.mem_append.1 hx with hx | hx
    · exact bothBefore_names x hx
    · cases List.mem_singleton.1 hx
      exact ⟨rfl, fun _ e => nomatch e⟩
  have hab : Spec.NoneAboveAny demoFold (ascii "/app") (bothBefore ++ [(demoMoment, .ssh 0 (.data 0 pack))]) := by
    intro a ha b hb x y hx hy _ _
    rw [(names a ha).2 x hx, (names b hb).2 y hy]
  have hfl : Spec.SameFoldAny demoFold (bothBefore ++ [(demoMoment, .ssh 0 (.data 0 pack))]) := fun x hx => (names x hx).1
  have hdec : decodePack demoServer.X (getHashObject demoServer.X demoMoment.sql (runBoth demoServer .empty bothBefore).web.db) demoMoment.fuel pack = .ok p := by
    rw [bothBefore_db]; exact h2
  have hopen : Spec.Opened demoServer (ascii "/app") 1 (bothBefore ++ [(demoMoment, .ssh 0 (.data 0 pack))]) := by
    refine ⟨[(demoMoment, .ssh 1 logIn)], [(demoMoment, .ssh 0 logIn), (demoMoment, .ssh 0 (askFor .receivePack 0 (ascii "/app"))),
      (demoMoment, .ssh 0 (.data 0 (Spec.pushBody appCmd [] (ascii "report-status") []))), (demoMoment, .ssh 0 (.data 0 pack))], demoMoment, 0, ?_, by decide, by decide, rfl,
      some { service := .uploadPack, path := ascii "/app", caps := [], commands := [] }, ?_⟩
    · intro x hx e
      simp only [List.mem_cons, List.not_mem_nil, or_false] at hx
      rcases hx with rfl | rfl | rfl | rfl <;> simp
    · rw [runBoth_append, runBoth_elsewhere demoServer [(demoMoment, .ssh 0 (.data 0 pack))] _ (by intro x hx e; cases List.mem_singleton.1 hx; simp), bothBefore_fetch]
  refine ⟨pack, rep, p, _, h1, hdec, h3, hp, hfl, hab, hopen, objs, ?_⟩
  obtain ⟨st', e1, e2, v, e3⟩ := pushedAny_http appCmd_ok (by decide) (by decide) hp
  have hrun := (runBoth_inv demoServer (ascii "/app") bothBefore (fun p hp => hfl p (by simp [hp])) (fun p hp q hq => hab p (by simp [hp]) q (by simp [hq]))).2.2
  obtain ⟨p', d1, d2, _⟩ := pushed_inRepo appCmd_ok (by decide) (by decide) h1 hrun rfl (fun _ _ => rfl) e1 (db' := (runBoth demoServer .empty (bothBefore ++ [(demoMoment, .ssh 0 (.data 0 pack))])).web.db)
    (by rw [e2]; exact ⟨fun _ h => h, fun _ h => h⟩) (app_unique objs)
  rw [hdec] at d1
  cases d1
  obtain ⟨x, hx, _⟩ := d2 (metaOf polyExt (.commit, appCommit.encode)) ((h3 _ _).2 ⟨by simp [appObjects, appThin], rfl⟩) (.inl rfl)
  exact ⟨x, hx⟩

/-- C149: after a push over SSH, a client that has another commit fetches over HTTP and on connection 1. Both get the same answer; it calls the wanted commit common, and the file `src/a` is in the
pack, but no commit. -/
example : ∃ (h' : BothHist) (m : Moment) (out file : Bytes) (ids : List Bytes) (q : Pack), Spec.Opened demoServer (ascii "/app") 1 h' ∧
    (serve demoServer m (runBoth demoServer .empty h').web (Spec.fetchReq (ascii "/app" ++ []) (doneBody updateLines (ascii "\n") []))).1 = .reply (.ok (.bytes out)) ∧
    (sshStep polyExt m (runBoth demoServer .empty h').ssh 1 (.data 0 (doneBody updateLines (ascii "\n") []))).1 = [(0, out)] ∧
    Spec.readFetch out = some (ids, file) ∧ appCmd.new ∈ ids ∧ decodePack polyExt (fun _ => none) 1 file = .ok q ∧
    Spec.FileAt q.result.hashObject appCommit.treeId [ascii "src", ascii "a"] (ascii "100644") (ascii "one") ∧ ∀ x path mode data, ¬ Spec.CheckedOut q.result.hashObject x path mode data := by
  obtain ⟨pack, rep, p, h', h1, hdec, h3, hp, hfl, hab, hopen, objs, o, ho⟩ := both_ready
  have find : ∀ m ∈ appObjects, p.result.hashObject m.id = some m := fun m hm => (h3 _ _).2 ⟨hm, rfl⟩
  have hcommit := find (metaOf polyExt (.commit, appCommit.encode)) (by simp [appObjects, appThin])
  obtain ⟨m, hm⟩ : ∃ m : Moment, m = { demoMoment with fuel := (runBoth demoServer .empty h').web.db.nodes.length } := ⟨_, rfl⟩
  have hord : ∀ l x, x ∈ m.ord l ↔ x ∈ l := by rw [hm]; exact fun _ _ => .rfl
  have hcut : Spec.CutOk m.cut := by rw [hm]; exact demoCut_ok
  have hms : m.sql.fold = demoServer.D.fold := by rw [hm]; rfl
  have hfuel : (runBoth demoServer .empty h').web.db.nodes.length ≤ m.fuel := by rw [hm]
  obtain ⟨out, ids, file, k1, k2, k3, k4, k5⟩ := C149_fetched_partial demoServer demoFold_hash (ascii "/app") appCmd appCmd_ok (ascii "report-status") (by decide) (by decide) pack h1 rep demoMoment m
    bothBefore h' [] hp (fun _ _ => rfl) p hdec (by rw [List.append_nil]; exact hfl) hms (by rw [List.append_nil]; exact hab)
    (by rw [List.append_nil]; exact app_unique objs) (by rw [List.append_nil]; exact app_fits objs) (by rw [List.append_nil]; exact hfuel) hord hcut
    updateLines updateLines_ok (ascii "\n") [] (by decide) (by simp [updateLines, Spec.haveIds]) updateLines_asks update_band
    ⟨metaOf polyExt (.commit, appCommit.encode), hcommit, rfl, by simp [updateLines, Spec.wantIds, appCmd]⟩
  rw [List.append_nil] at k1 k2 k4
  obtain ⟨ids', file', n1, n2⟩ := C149_no_commit_false demoServer demoFold_hash (ascii "/app") h' m hfl hms hab (app_unique objs) (app_fits objs) hord hcut
    updateLines updateLines_ok (ascii "\n") [] (by decide) (by simp [updateLines, Spec.haveIds]) updateLines_asks update_band out (.ssh 1 0 hopen (k2 1 0 hopen))
  rw [k3] at n1
  cases n1
  obtain ⟨q, q1, q2⟩ := k5 (fun _ => none) 0
  obtain ⟨q', q3, _, q4⟩ := n2 (fun _ => none) 0
  rw [q1] at q3
  cases q3
  refine ⟨h', m, out, file, ids, q, hopen, k1 [] app_clean_url (.inl rfl), k2 1 0 hopen, k3, (k4 (idOf polyExt (.commit, appCommit.encode))).2 ⟨by
      simp [updateLines, Spec.wantIds, appCmd, metaOf], ?_⟩, q1,
    (q2 (metaOf polyExt (.commit, appCommit.encode)) appCommit hcommit rfl appCommit_decode (by simp [updateLines, Spec.wantIds, appCmd]) _ _ _).1 ?_, q4⟩
  · obtain ⟨r, hr, _⟩ : ∃ r ∈ (runBoth demoServer .empty h').web.db.commits, True := by
      cases ho with
      | commit r hr => exact ⟨r, (commitsAt_mem.1 hr).1, trivial⟩
      | node r _ _ _ hr => exact ⟨r, (commitsAt_mem.1 hr).1, trivial⟩
    have := objs (.commit, r.data) (.inr ⟨r, hr, rfl⟩)
    simp only [appObjects, appThin, appBlob, List.mem_append, List.mem_cons, List.not_mem_nil, or_false] at this
    refine ⟨r, hr, ?_⟩
    rcases this with (h | h | h | h) | h
    · exact congrArg MetaData.id h
    all_goals exact absurd (congrArg MetaData.t h) (by simp [metaOf])
  · refine .dir (metaOf polyExt (.tree, encodeTree appItems)) appItems (dirItem "src" (idOf polyExt (.tree, encodeTree srcA))) _ _ _
      (find _ (by simp [appObjects, appThin])) rfl appItems_decode (by simp [appItems]) rfl ?_
    exact .file (metaOf polyExt (.tree, encodeTree srcA)) appBlob srcA (fileItem "a" (polyId .blob (ascii "one"))) (find _ (by simp [appObjects, appThin])) rfl srcA_decode
      (by simp [srcA]) (by decide) rfl (find _ (by simp [appObjects])) rfl

/-- None of the objects pushed has the id that the strange client wants. -/
theorem src_not_stored {db : Db} (objs : ∀ o, StoredObj db o → metaOf polyExt o ∈ appObjects) : ∀ o, StoredObj db o → idOf polyExt o ≠ srcId := by
  intro o ho e
  have h1 := List.mem_append_left [metaOf polyExt (.commit, srcCommit.encode)] (objs o ho)
  have h2 : metaOf polyExt (.commit, srcCommit.encode) ∉ appObjects := by decide +kernel
  refine h2 ?_
  have := List.inj_on_of_nodup_map libObjects_ids (x := metaOf polyExt o) (y := metaOf polyExt (.commit, srcCommit.encode)) h1 (by simp [libObjects]) e
  rw [← this]
  exact objs o ho

/-- C149: a client that has the commit of `/app` and wants one that was never pushed gets no answer; one that has nothing gets a pack in which it is not. -/
example : ∃ (h' : BothHist) (m : Moment) (out file : Bytes) (q : Pack), Spec.Opened demoServer (ascii "/app") 1 h' ∧
    (serve demoServer m (runBoth demoServer .empty h').web (Spec.fetchReq (ascii "/app" ++ []) (doneBody fetchLines (ascii "\n") []))).1 = .reply .panic ∧
    (sshStep polyExt m (runBoth demoServer .empty h').ssh 1 (.data 0 (doneBody fetchLines (ascii "\n") []))).1 = [] ∧
    (sshStep polyExt m (runBoth demoServer .empty h').ssh 1 (.data 0 (doneBody strangeLines (ascii "\n") []))).1 = [(0, out)] ∧
    Spec.readClone out = some file ∧ decodePack polyExt (fun _ => none) 1 file = .ok q ∧ q.result.hashObject srcId = none := by
  obtain ⟨pack, rep, p, h', h1, hdec, h3, hp, hfl, hab, hopen, objs, ho⟩ := both_ready
  obtain ⟨m, hm⟩ : ∃ m : Moment, m = { demoMoment with fuel := (runBoth demoServer .empty h').web.db.nodes.length } := ⟨_, rfl⟩
  have hord : ∀ l x, x ∈ m.ord l ↔ x ∈ l := by rw [hm]; exact fun _ _ => .rfl
  have hcut : Spec.CutOk m.cut := by rw [hm]; exact demoCut_ok
  have hms : m.sql.fold = demoServer.D.fold := by rw [hm]; rfl
  have hfuel : (runBoth demoServer .empty h').web.db.nodes.length ≤ m.fuel := by rw [hm]
  obtain ⟨r1, r2⟩ := C149_refused_partial demoServer (ascii "/app") h' m hord fetchLines fetchLines_ok (ascii "\n") [] (by decide) (by simp [fetchLines, Spec.haveIds]) fetchLines_asks (by
    intro data hd hw
    simp only [fetchLines, Spec.wantIds, List.mem_singleton] at hw
    exact src_not_stored objs _ (inRepo_stored hd) (Hash.toPlainStr_injective hw))
  obtain ⟨out, file, _, k2, k3, k4⟩ := C149_unknown_false demoServer demoFold_hash (ascii "/app") h' m hfl hms hab (app_unique objs) (app_fits objs) hfuel ho hord hcut strangeLines (ascii "\n") []
    strangeLines_ok (by
    intro o ho hw
    simp only [strangeLines, Spec.wantIds, List.mem_singleton] at hw
    exact src_not_stored objs _ (inRepo_stored ho) (Hash.toPlainStr_injective hw))
  obtain ⟨q, q1, q2⟩ := k4 (fun _ => none) 0
  exact ⟨h', m, out, file, q, hopen, r1 [] app_clean_url (.inl rfl), r2 1 0 hopen, k2 1 0 hopen, k3, q1, q2 srcId (by simp [strangeLines, Spec.wantIds])⟩

end Gust

import Verif.Props.ServerGet
import Verif.Props.LfsStore

/-! # C75–C79 on a concrete server -/

namespace Gust

open Spec (nodeObj StoreReach commitsAt InRepo)

/-! ## C78: the clone is answered -/

theorem httpUploadPack_ok {St : FetchStore} {ord : List Bytes → List Bytes} (hord : ∀ l x, x ∈ ord l ↔ x ∈ l) {cut : Bytes → List Bytes}
    {ls : List Spec.ReqLine} {t rest file : Bytes} (hr : Spec.CloneReq ls t) (hf : St.fullPack = .ok file) :
    ∃ out, httpUploadPack St ord cut (doneBody ls t rest) = .ok out := by
  have hlen := doneBody_length ls t rest
  obtain ⟨k, hk⟩ : ∃ k, (doneBody ls t rest).length + 1 = ls.length + (k + 1) := ⟨(doneBody ls t rest).length - ls.length, by omega⟩
  unfold httpUploadPack
  rw [hk, fetchLoop_done ls hr.ok t rest hr.short]
  obtain ⟨s, hs, hw, hh, hc⟩ := C19_fetch_negotiation ls hr.ok t rest hr.short
  have hs' := fetchLoop_done ls hr.ok t rest hr.short fetchInit 0
  rw [hs, Res.ok.injEq, Prod.mk.injEq] at hs'
  have e0 : ls.foldl reqStep { want := [], have_ := [], caps := [], firstLine := true } = s := hs'.1.symm
  rw [Res.bind_ok]
  simp only [e0]
  have hno : ord s.have_ = [] := by
    rw [List.eq_nil_iff_forall_not_mem]
    intro x hx
    have := (hh x).1 ((hord _ x).1 hx)
    rw [hr.none] at this
    cases this
  rw [fetchAnswer, hno, if_pos rfl, hf]
  exact ⟨_, rfl⟩

/-- **C78 (partial)** A clone is answered: on a server that started empty and has handled any requests, a clone request for a URL for whose path some commit is stored
gets a reply, and the reply holds a pack with exactly the objects of the repository. (Missing from the full claim: trees nested deeper than the stack allows; more than one
repository with overlapping paths, see C55.) -/
theorem C78_clone_answered_partial (P : ServerExt) (hfold : ∀ a b : Hash, P.D.fold (Hash.toPlainStr a) = P.D.fold (Hash.toPlainStr b) → a = b)
    (u g : Bytes) (hu : Spec.CleanUrl u) (hg : g = [] ∨ g = ascii ".git") (h : List (Moment × HttpReq)) (m : Moment)
    (hfl : Spec.SameFold P.D.fold h) (hm : m.sql.fold = P.D.fold) (hab : Spec.NoneAbove P.D.fold u h)
    (hun : UniqueIds P.X (runServer P .empty h).db) (hfit : FitsPack P.X (runServer P .empty h).db)
    (hdeep : ∀ r ∈ commitsAt P.D.fold (runServer P .empty h).db.commits u, ∀ c, Commit.decode r.data = .ok c → Spec.NestedWithin (runServer P .empty h).db.nodes m.fuel c.treeId)
    (hne : commitsAt P.D.fold (runServer P .empty h).db.commits u ≠ [])
    (hord : ∀ l x, x ∈ m.ord l ↔ x ∈ l) (hcut : Spec.CutOk m.cut) (ls : List Spec.ReqLine) (t rest : Bytes) (hr : Spec.CloneReq ls t) :
    ∃ out file ms, (serve P m (runServer P .empty h) (Spec.fetchReq (u ++ g) (doneBody ls t rest))).1 = .reply (.ok (.bytes out)) ∧
      Spec.readClone out = some file ∧ PackHas P.X file ms ∧ ∀ o, o ∈ ms ↔ ∃ x, InRepo P.D.fold (runServer P .empty h).db u x ∧ o = metaOf P.X x := by
  have hrun := run_store P u _ h rfl hfl hab
  generalize runServer P .empty h = s at *
  rw [← hm] at hrun hfold hdeep hne
  obtain ⟨file, ms, c1, c2, c3, _⟩ := C49_clone_partial P.X m.sql u s.db hrun hun hfold hfit m.fuel hdeep hne
  obtain ⟨out, ho⟩ := httpUploadPack_ok (St := mysqlFetch P.X m.sql m.fuel s.db u) (cut := m.cut) (rest := rest) hord hr c1
  obtain ⟨file', e1, e2⟩ := httpUploadPack_clone hord hcut hr ho
  have e1 : getFullPack P.X m.sql m.fuel s.db u = .ok file' := e1
  rw [c1, Res.ok.injEq] at e1
  subst e1
  refine ⟨out, file, ms, ?_, e2, c2, by rw [← hm]; exact c3⟩
  simp only [serve, Spec.fetchReq, route_fetch hu hg, ho, Res.outcome]

/-! ## The server of the examples -/

/-- Stand-ins for the JSON parser: the body is the name of the path, the ref, or the oid of one object of five bytes. -/
def demoJson : JsonExt where
  lock := fun b => if b = [] then none else some (ascii "refs/heads/main", b)
  unlock := fun b => if b = [] then none else some (b, none)
  verify := fun b => if b = [] then none else some (b, none, none)
  batch := fun b => if b = [] then none else some (ascii "upload", [{ oid := b, size := 5 }])

def demoServer : ServerExt := { X := polyExt, D := { exactDb with fold := demoFold }, S := demoStore, J := demoJson }

/-- `read_buf` that fills the buffer. -/
def demoCut (b : Bytes) : List Bytes := chunks 65000 b.length b

theorem chunks_short {α : Type} [DecidableEq α] (n : Nat) : ∀ (fuel : Nat) (l : List α), ∀ c ∈ chunks n fuel l, c.length ≤ n
  | 0, _, _, h => by cases h
  | fuel + 1, l, c, h => by
    rw [chunks] at h
    split at h
    · cases h
    · rcases List.mem_cons.1 h with rfl | h
      · rw [List.length_take]; omega
      · exact chunks_short n fuel _ c h

theorem demoCut_ok : Spec.CutOk demoCut := fun pack =>
  ⟨chunks_flatten 65000 (by decide) _ _ (Nat.le_refl _), fun p hp => Nat.le_trans (chunks_short 65000 _ _ p hp) (by decide)⟩

def demoMoment : Moment := { sql := demoSql, fuel := 2, ord := id, cut := demoCut, lockId := ascii "17", now := ascii "2023-05-23" }

/-- Requests of the examples. -/
def objectReq (me : Method) (oid body : Bytes) : HttpReq := { method := me, path := ascii "/org/objects/" ++ oid, body := body }
def batchReq (oid : Bytes) : HttpReq := { method := .post, path := ascii "/org/objects/batch", body := oid }
def lockReq (path : Bytes) : HttpReq := { method := .post, path := ascii "/org/locks", body := path }
def listReq : HttpReq := { method := .get, path := ascii "/org/locks", query := { refspec := some (ascii "refs/heads/main") } }
def discoverReq (repo : Bytes) : HttpReq := { method := .get, path := repo ++ ascii "/info/refs", service := some (ascii "git-upload-pack") }

/-- Announce an object and upload it. -/
def uploadHistory : List (Moment × HttpReq) := [(demoMoment, batchReq rightOid), (demoMoment, objectReq .put rightOid (ascii "right"))]

/-- A history with requests of all kinds. -/
def mixedRequests : List (Moment × HttpReq) :=
  (demoMoment, lockReq (ascii "big.psd")) :: (uploadHistory ++ [(demoMoment, discoverReq (ascii "/app")), (demoMoment, listReq)])

/-- C75 at work: what is left of the history for each kind of request, and answers that are not trivial. -/
example : (serve demoServer demoMoment (runServer demoServer .empty mixedRequests) listReq).1 =
    .reply (.ok (.locks [{ id := ascii "17", path := ascii "big.psd", lockedAt := ascii "2023-05-23", owner := none }] [])) := by
  decide +kernel

example : (serve demoServer demoMoment (runServer demoServer .empty mixedRequests) (objectReq .get rightOid [])).1 =
    .reply (.ok (.bytes (ascii "right"))) := by decide +kernel

/-! ## C76 -/

/-- A second lock on the same path is refused and changes nothing. -/
example : (serve demoServer demoMoment (runServer demoServer .empty mixedRequests) (lockReq (ascii "big.psd"))).1 = .reply (.status 409) := by
  decide +kernel

/-- **C76 is false** for LFS uploads: an object is stored and can be downloaded; an upload of other bytes for its oid is answered with an error status
(406); after it the object cannot be downloaded any more. -/
theorem C76_upload_false : ∃ (P : ServerExt) (m : Moment) (h : List (Moment × HttpReq)) (oid right wrong : Bytes),
    (serve P m (runServer P .empty h) (objectReq .get oid [])).1 = .reply (.ok (.bytes right)) ∧
    (serve P m (runServer P .empty h) (objectReq .put oid wrong)).1 = .reply (.status 406) ∧
    (serve P m (runServer P .empty (h ++ [(m, objectReq .put oid wrong)])) (objectReq .get oid [])).1 = .reply .panic :=
  ⟨demoServer, demoMoment, uploadHistory, rightOid, ascii "right", ascii "wrong", by decide +kernel, by decide +kernel, by decide +kernel⟩

/-- The database after a push of one ref. -/
theorem push_answer_db {σ P : Type} (E : PushEnv σ P) (path : Bytes) (db : σ) (c : Spec.PushCmd) (h : c.Ok)
    (caps : Bytes) (hc : caps.length ≤ 4000) (hu : ∀ x ∈ caps, x.toNat < 128) (pack : Bytes)
    (hp : (ascii "PACK").isPrefixOf pack = true) :
    httpReceiveDb E { caps := [], commands := [], path := path, db := db } (Spec.pushBody c [] caps pack) =
      receiveDataDb E { caps := parseCapabilities caps, commands := [RefCommand.new c.old c.new (c.name ++ [0])], path, db } pack := by
  have e : Spec.pushBody c [] caps pack = Spec.frame (.line (Spec.firstCmdLine c caps)) ++ (Spec.frame .flush ++ pack) := by
    simp [Spec.pushBody, Spec.stream]
  rw [httpReceiveDb, e, gitReceivePack, frame_not_pack]
  simp only [Bool.false_eq_true, if_false]
  rw [receiveCommand_first _ c h caps hc hu (Spec.frame .flush) pack rfl]
  simp only [List.nil_append]
  rw [gitReceiveDb, if_pos hp]

/-- A push that claims to move `master` from some commit to the commit of the example repository. -/
def moveCmd : Spec.PushCmd := { appCmd with old := exId }

theorem moveCmd_ok : moveCmd.Ok := by
  obtain ⟨_, _, h⟩ := appCmd_ok
  exact ⟨by decide, by decide, h⟩

/-- **C76 is false** for pushes: a push to an empty server that tries to move a ref which is not there gets no answer, but its commit and objects are stored. -/
theorem C76_dropped_false : ∃ (P : ServerExt) (m : Moment) (pack : Bytes),
    (serve P m .empty (Spec.pushReq (ascii "/app") (Spec.pushBody moveCmd [] (ascii "report-status") pack))).1 = .reply .panic ∧
    ∀ o ∈ appObjects, InRepo demoFold (serve P m .empty (Spec.pushReq (ascii "/app") (Spec.pushBody moveCmd [] (ascii "report-status") pack))).2.db
      (ascii "/app") (o.t, o.data) := by
  obtain ⟨file, p, h1, _, h2, h3⟩ := app_pack (getHashObject polyExt demoSql Db.empty) appObjects (fun _ h => h) (by decide) (by decide) (by decide +kernel) 1
  obtain ⟨hist, e, _⟩ := decodePack_hist h2
  obtain ⟨db1, h4⟩ := app_stored (by rw [e]; exact PackCache.keyed_run hist) h3 demoSql (fun _ _ => rfl) 0 (ascii "/app") Db.empty
  have hrefs : db1.refs = [] := by
    have := savePackfile_refs demoSql 2 p (ascii "/app") Db.empty
    rw [h4] at this
    exact this
  have hu : UniqueIds polyExt db1 := app_unique (fun o ho => app_stored_objs h2 h3 demoSql 2 (ascii "/app") o (by rw [h4]; exact ho))
  have hin := push_inRepo (X := polyExt) (path := ascii "/app") .empty demoSql rfl (fun _ _ => rfl) 2 file p h2 h4 hu
  have hhandle : handleRefs demoSql (RefCommand.new moveCmd.old moveCmd.new (moveCmd.name ++ [0])) (ascii "/app") db1 = (.panic, db1) := by
    have : (RefCommand.new moveCmd.old moveCmd.new (moveCmd.name ++ [0])).commandType = .update := by decide +kernel
    rw [handleRefs, this]
    simp only [updateRefs, hrefs]
    rfl
  have hr := route_push (u := ascii "/app") (g := []) ⟨by decide, by decide, by decide, by decide⟩ (.inl rfl)
  rw [List.append_nil] at hr
  have hans := push_answer (mysqlPush polyExt demoSql 2) (ascii "/app") Db.empty moveCmd moveCmd_ok (ascii "report-status") (by decide) (by decide) file h1
  have hdb := push_answer_db (mysqlPush polyExt demoSql 2) (ascii "/app") Db.empty moveCmd moveCmd_ok (ascii "report-status") (by decide) (by decide) file h1
  have hup : (mysqlPush polyExt demoSql 2).unpack Db.empty file = .ok p := h2
  have hsave : (mysqlPush polyExt demoSql 2).savePack p (ascii "/app") Db.empty = (.ok (), db1) := h4
  have hcmd : ({ RefCommand.new moveCmd.old moveCmd.new (moveCmd.name ++ [0]) with ok := true } : RefCommand) =
      RefCommand.new moveCmd.old moveCmd.new (moveCmd.name ++ [0]) := rfl
  have hhandle' : (mysqlPush polyExt demoSql 2).handleRefs (RefCommand.new moveCmd.old moveCmd.new (moveCmd.name ++ [0])) (ascii "/app") db1 = (.panic, db1) := hhandle
  refine ⟨demoServer, demoMoment, file, ?_, ?_⟩
  · have : httpReceivePack (mysqlPush polyExt demoSql 2) { caps := [], commands := [], path := ascii "/app", db := Db.empty }
        (Spec.pushBody moveCmd [] (ascii "report-status") file) = .panic := by
      rw [hans]
      unfold receiveData
      simp only [List.getLast?_singleton, hup, hsave, hcmd, hhandle']
      rfl
    simp only [serve, Spec.pushReq, hr]
    exact congrArg (Res.outcome _) this
  · have : (serve demoServer demoMoment .empty (Spec.pushReq (ascii "/app") (Spec.pushBody moveCmd [] (ascii "report-status") file))).2.db = db1 := by
      rw [serve_db]
      simp only [Spec.pushReq, hr]
      refine (show _ = httpReceiveDb (mysqlPush polyExt demoSql 2) { caps := [], commands := [], path := ascii "/app", db := Db.empty } _ from rfl).trans ?_
      rw [hdb]
      unfold receiveDataDb
      simp only [List.getLast?_singleton, hup, hsave, hcmd, hhandle']
    rw [this]
    intro o ho
    have hob : o = metaOf polyExt (o.t, o.data) := by
      simp only [appObjects, appThin, List.mem_append, List.mem_cons, List.not_mem_nil, or_false] at ho
      rcases ho with (rfl | rfl | rfl | rfl) | rfl <;> first | rfl | decide +kernel
    exact (hin _).2 (.inr ⟨o, (h3 _ _).2 ⟨ho, rfl⟩, hob, app_reached (fun m hm => (h3 _ _).2 ⟨appThin_sub m hm, rfl⟩) ho⟩)

/-! ## C77, C78 -/

/-- The push of the example repository to `/app`. -/
def appPush (pack : Bytes) : HttpReq := Spec.pushReq (ascii "/app" ++ ascii ".git") (Spec.pushBody appCmd [] (ascii "report-status") pack)

/-- The clone request of a git client for `/app`. -/
def cloneLines : List Spec.ReqLine := [.want appCmd.new (ascii " multi_ack_detailed side-band-64k\n"), .flush]

theorem cloneLines_ok : Spec.CloneReq cloneLines (ascii "\n") where
  ok := by
    intro l hl
    simp only [cloneLines, List.mem_cons, List.not_mem_nil, or_false] at hl
    rcases hl with rfl | rfl
    · exact ⟨appCmd_ok.2.2.1, appCmd_ok.2.2.2.1, ⟨0x20, ascii "multi_ack_detailed side-band-64k\n", by decide, by decide⟩, by decide⟩
    · trivial
  short := by decide
  none := by rfl
  band := ⟨ascii " multi_ack_detailed side-band-64k\n", [ascii "multi_ack_detailed", ascii "side-band-64k\n"], rfl, ⟨by decide, by decide, by decide⟩, .inr (by decide)⟩

/-- The history of the example: requests of all kinds, the push, and more requests. -/
def appHistory (pack : Bytes) : List (Moment × HttpReq) :=
  mixedRequests ++ [(demoMoment, appPush pack)] ++ [(demoMoment, lockReq (ascii "a.psd")), (demoMoment, discoverReq (ascii "/app"))]

theorem appHistory_fold (pack : Bytes) : Spec.SameFold demoServer.D.fold (appHistory pack) := by
  intro p hp
  simp only [appHistory, mixedRequests, uploadHistory, List.cons_append, List.nil_append, List.mem_cons, List.not_mem_nil, or_false] at hp
  rcases hp with rfl | rfl | rfl | rfl | rfl | rfl | rfl | rfl <;> rfl

theorem app_clean_url : Spec.CleanUrl (ascii "/app") := ⟨by decide, by decide, by decide, by decide⟩

theorem appHistory_repo (pack : Bytes) : ∀ p ∈ appHistory pack, ∀ a, p.2.repo = some a → a = ascii "/app" := by
  intro p hp a ha
  have hpush : (appPush pack).repo = some (ascii "/app") := by
    have := route_push app_clean_url (.inr rfl)
    show Spec.RepoOf (route .post (ascii "/app" ++ ascii ".git" ++ ascii "/git-receive-pack") none) = _
    rw [this]
    rfl
  simp only [appHistory, mixedRequests, uploadHistory, List.cons_append, List.nil_append, List.mem_cons, List.not_mem_nil, or_false] at hp
  have hnone : (lockReq (ascii "big.psd")).repo = none ∧ (batchReq rightOid).repo = none ∧ (objectReq .put rightOid (ascii "right")).repo = none ∧
      (discoverReq (ascii "/app")).repo = some (ascii "/app") ∧ listReq.repo = none ∧ (lockReq (ascii "a.psd")).repo = none := by decide +kernel
  obtain ⟨n1, n2, n3, n4, n5, n6⟩ := hnone
  rcases hp with rfl | rfl | rfl | rfl | rfl | rfl | rfl | rfl <;> simp only at ha
  · rw [n1] at ha; cases ha
  · rw [n2] at ha; cases ha
  · rw [n3] at ha; cases ha
  · rw [n4] at ha; cases ha; rfl
  · rw [n5] at ha; cases ha
  · rw [hpush] at ha; cases ha; rfl
  · rw [n6] at ha; cases ha
  · rw [n4] at ha; cases ha; rfl

theorem mixed_db : (runServer demoServer .empty mixedRequests).db = Db.empty := by rfl

/-- C77, C78: after a history of all kinds of requests around a push to `/app.git`, a clone of `/app` is answered and contains exactly the five objects. -/
example : ∃ (pack rep out file : Bytes) (ms : List MetaData),
    (serve demoServer demoMoment (runServer demoServer .empty mixedRequests) (appPush pack)).1 = .reply (.ok (.bytes rep)) ∧
    (serve demoServer demoMoment (runServer demoServer .empty (appHistory pack)) (Spec.fetchReq (ascii "/app") (doneBody cloneLines (ascii "\n") []))).1 =
      .reply (.ok (.bytes out)) ∧
    Spec.readClone out = some file ∧ PackHas polyExt file ms ∧ ∀ m, m ∈ ms ↔ m ∈ appObjects := by
  obtain ⟨pack, p, rep, st', h1, h2, h3, h4, q6, objs, ⟨r, hr, _, e3⟩, _⟩ := app_after (ascii "/app") (ascii "/app")
  have hroute : route (appPush pack).method (appPush pack).path (appPush pack).service = .receivePack (ascii "/app") := route_push app_clean_url (.inr rfl)
  have hrep : (serve demoServer demoMoment (runServer demoServer .empty mixedRequests) (appPush pack)).1 = .reply (.ok (.bytes rep)) := by
    unfold serve
    rw [hroute]
    simp only [mixed_db]
    exact congrArg (Res.outcome _) h4
  have hdb : (runServer demoServer .empty (mixedRequests ++ [(demoMoment, appPush pack)])).db = st'.db := by
    rw [runServer_concat, serve_db, hroute]
    simp only [mixed_db]
    exact httpReceiveDb_ok _ _ _ _ _ h4
  have hdb' : (runServer demoServer .empty (appHistory pack)).db = st'.db := by
    have hl : (runServer demoServer .empty (mixedRequests ++ [(demoMoment, appPush pack)] ++ [(demoMoment, lockReq (ascii "a.psd"))])).db = st'.db := by
      rw [runServer_concat, serve_db, show route (lockReq (ascii "a.psd")).method (lockReq (ascii "a.psd")).path (lockReq (ascii "a.psd")).service = .createLock from by decide]
      exact hdb
    have e : appHistory pack = mixedRequests ++ [(demoMoment, appPush pack)] ++ [(demoMoment, lockReq (ascii "a.psd"))] ++ [(demoMoment, discoverReq (ascii "/app"))] := rfl
    rw [e, runServer_concat, serve_db, show route (discoverReq (ascii "/app")).method (discoverReq (ascii "/app")).path (discoverReq (ascii "/app")).service =
      .infoRefs (ascii "/app") .uploadPack from by decide]
    refine (getHead_same _ _ _ _ ?_).trans hl
    intro x hx _
    obtain ⟨q, hq, e⟩ := run_paths demoServer _ _ rfl x hx
    refine appHistory_repo pack q ?_ _ e
    simp only [appHistory, List.mem_append, List.mem_cons, List.not_mem_nil, or_false] at hq ⊢
    rcases hq with (hq | hq) | hq
    · exact .inl (.inl hq)
    · exact .inl (.inr hq)
    · exact .inr (.inl hq)
  have habove : Spec.NoneAbove demoServer.D.fold (ascii "/app") (appHistory pack) := by
    intro a ha b hb x y hx hy _ _
    rw [appHistory_repo pack a ha x hx, appHistory_repo pack b hb y hy]
  have inv := storeRun_inv q6 (app_unique objs)
  obtain ⟨out, file, ms, c1, c2, c3, c4⟩ := C78_clone_answered_partial demoServer demoFold_hash (ascii "/app") [] app_clean_url (.inl rfl) (appHistory pack) demoMoment
    (appHistory_fold pack) rfl habove (by rw [hdb']; exact app_unique objs) (by rw [hdb']; exact app_fits objs) 
    (by rw [hdb']; exact fun r _ c _ => app_nested objs inv.id c.treeId) (by rw [hdb']; exact List.ne_nil_of_mem (commitsAt_mem.2 ⟨hr, by rw [e3]⟩))
    (fun _ _ => .rfl) demoCut_ok cloneLines (ascii "\n") [] cloneLines_ok
  obtain ⟨p', file', ms', r1, r2, r3, r4⟩ := C78_push_then_clone_partial demoServer demoFold_hash (ascii "/app") (ascii ".git") [] app_clean_url (.inr rfl) (.inl rfl)
    mixedRequests [(demoMoment, lockReq (ascii "a.psd")), (demoMoment, discoverReq (ascii "/app"))] demoMoment demoMoment appCmd appCmd_ok (ascii "report-status")
    (by decide) (by decide) pack h1 (appPush pack) rfl (appHistory_fold pack) rfl habove (fun _ _ => rfl) rep hrep
    (by
      intro q hq a e
      simp only [List.mem_cons, List.not_mem_nil, or_false] at hq
      rcases hq with rfl | rfl
      · rw [show route (lockReq (ascii "a.psd")).method (lockReq (ascii "a.psd")).path (lockReq (ascii "a.psd")).service = .createLock from by decide] at e
        cases e
      · rw [show route (discoverReq (ascii "/app")).method (discoverReq (ascii "/app")).path (discoverReq (ascii "/app")).service =
          .infoRefs (ascii "/app") .uploadPack from by decide] at e
        cases e)
    (by exact hdb' ▸ app_unique objs) (by exact hdb' ▸ app_fits objs) (fun _ _ => .rfl) demoCut_ok cloneLines (ascii "\n") [] cloneLines_ok out c1
  refine ⟨pack, rep, out, file', ms', hrep, c1, r2, r3, fun m => ?_⟩
  rw [mixed_db] at r1 r4
  have r1 : decodePack polyExt (getHashObject polyExt demoSql Db.empty) 2 pack = .ok p' := r1
  rw [h2] at r1
  cases r1
  have none_before : ∀ o, ¬ InRepo demoServer.D.fold Db.empty (ascii "/app") o := by
    intro o ho
    cases inRepo_stored ho with
    | inl h => obtain ⟨n, hn, _⟩ := h; cases hn
    | inr h => obtain ⟨n, hn, _⟩ := h; cases hn
  rw [r4]
  constructor
  · rintro (⟨o, ho, _⟩ | ⟨hm, _⟩)
    · exact (none_before o ho).elim
    · exact ((h3 _ _).1 hm).1
  · intro hm
    exact .inr ⟨(h3 _ _).2 ⟨hm, rfl⟩, app_reached (fun m hm => (h3 _ _).2 ⟨appThin_sub m hm, rfl⟩) hm⟩

/-! ## C79 -/

/-- The server with the example repository with directories. -/
def dirState : ServerState := { ServerState.empty with db := dirDb }

/-- A lock listing and a download in between change no later answer; the discovery of `/p` changes nothing at all. -/
example : (serve demoServer demoMoment (runServer demoServer .empty ((demoMoment, objectReq .get rightOid []) :: uploadHistory)) (objectReq .get rightOid [])).1 =
    .reply (.ok (.bytes (ascii "right"))) := by
  rw [C79_get_partial _ _ _ _ rfl (by decide +kernel)]
  decide +kernel

/-- **C79 is false** for the discovery of a path below a repository: it is answered, and afterwards there are a commit and a ref that were not there before. -/
theorem C79_discovery_false : ∃ (P : ServerExt) (m : Moment) (s : ServerState) (out : Bytes),
    (serve P m s (discoverReq (ascii "/p/lib"))).1 = .reply (.ok (.bytes out)) ∧
      (∀ x ∈ s.db.refs, x.repoPath ≠ ascii "/p/lib") ∧ (∀ x ∈ s.db.commits, x.repoPath ≠ ascii "/p/lib") ∧
      (∃ x ∈ (serve P m s (discoverReq (ascii "/p/lib"))).2.db.refs, x.repoPath = ascii "/p/lib") ∧
      ∃ x ∈ (serve P m s (discoverReq (ascii "/p/lib"))).2.db.commits, x.repoPath = ascii "/p/lib" := by
  obtain ⟨child, h1, h2, h3⟩ := C61_faithful_copy polyExt dirRow (treeRow "lib" libItems) dirCommit (polyId .tree (encodeTree libItems)) dirCommit_ok rfl rfl
  have hg : getHeadObjectId polyExt demoSql dirDb (ascii "/p/lib") = (.ok (Hash.toPlainStr child.base.id),
      insertRefs demoSql (chunks 100 1 [{ repoPath := ascii "/p/lib", refName := dirRef.refName, refGitId := Hash.toPlainStr child.base.id }])
        (saveCommits demoSql [child] (ascii "/p/lib") dirDb)) := by
    unfold getHeadObjectId
    rw [show (searchRefs demoSql dirDb (ascii "/p/lib")).find? (fun r => ascii "/p/lib" == r.repoPath) = none from by decide +kernel,
      show (searchRefs demoSql dirDb (ascii "/p/lib")).find? (fun r => pathStartsWith (ascii "/p/lib") r.repoPath) = some dirRef from by decide +kernel]
    simp only
    unfold generateChild
    rw [show (demoSql.order (dirDb.commits.filter (fun c => demoSql.fold c.gitId == demoSql.fold dirRef.refGitId))).head? = some dirRow from by
      decide +kernel]
    simp only
    rw [show searchRootNode demoSql dirDb (ascii "/p/lib") = .ok (some (treeRow "lib" libItems)) from by decide +kernel]
    simp only
    rw [h1]
  rw [saveChild_eq] at hg
  have hr : route (discoverReq (ascii "/p/lib")).method (discoverReq (ascii "/p/lib")).path (discoverReq (ascii "/p/lib")).service =
      .infoRefs (ascii "/p/lib") .uploadPack := by decide
  refine ⟨demoServer, demoMoment, dirState, gitInfoRefs .http .uploadPack (Hash.toPlainStr child.base.id)
    (getRefObjectId demoSql (getHeadObjectId polyExt demoSql dirDb (ascii "/p/lib")).2 (ascii "/p/lib")), ?_, by decide +kernel, by decide +kernel, ?_, ?_⟩
  · unfold serve
    rw [hr]
    simp only [advertise, show (dirState.db = dirDb) from rfl, show demoServer.X = polyExt from rfl, show demoMoment.sql = demoSql from rfl, hg]
    rfl
  · rw [serve_db, hr]
    simp only [show (dirState.db = dirDb) from rfl, show demoServer.X = polyExt from rfl, show demoMoment.sql = demoSql from rfl, hg]
    exact ⟨{ repoPath := ascii "/p/lib", refName := dirRef.refName, refGitId := Hash.toPlainStr child.base.id }, by simp [demoSql], rfl⟩
  · rw [serve_db, hr]
    simp only [show (dirState.db = dirDb) from rfl, show demoServer.X = polyExt from rfl, show demoMoment.sql = demoSql from rfl, hg]
    exact ⟨child.row (ascii "/p/lib"), by simp [demoSql], rfl⟩

end Gust

import Verif.Props.Acks
import Verif.Props.ConfinedExamples

/-! # C103: what a fetch acknowledges, examples -/

namespace Gust

open Spec (nodeObj StoreReach commitsAt InRepo)

/-- The directory `src` as a repository of its own. -/
def srcObjects : List MetaData := [metaOf polyExt (.commit, srcCommit.encode), metaOf polyExt (.tree, encodeTree srcA), appBlob]

/-- The id of its commit. -/
def srcId : Hash := idOf polyExt (.commit, srcCommit.encode)

/-- A push of it to `/lib`. -/
def srcCmd : Spec.PushCmd := { old := zeroId, new := Hash.toPlainStr srcId, name := ascii "refs/heads/master" }

theorem srcCmd_ok : srcCmd.Ok := by
  refine ⟨by decide, by decide, by decide +kernel, by decide +kernel, by decide, by decide, by decide⟩

def srcPush (pack : Bytes) : HttpReq := Spec.pushReq (ascii "/lib" ++ []) (Spec.pushBody srcCmd [] (ascii "report-status") pack)

theorem srcObjects_sub : ∀ m ∈ srcObjects, m ∈ libObjects := by
  intro m hm
  simp only [srcObjects, List.mem_cons, List.not_mem_nil, or_false] at hm
  rcases hm with rfl | rfl | rfl <;> simp [libObjects, appObjects, appThin]

theorem src_selfContained {find : Hash → Option MetaData} (hf : ∀ h m, find h = some m ↔ m ∈ srcObjects ∧ m.id = h) : Spec.SelfContained find := by
  have mem : ∀ o, find o.id = some o → o = metaOf polyExt (.commit, srcCommit.encode) ∨ o = metaOf polyExt (.tree, encodeTree srcA) ∨ o = appBlob := by
    intro o ho
    simpa [srcObjects] using ((hf _ _).1 ho).1
  refine ⟨?_, ?_, ?_, ?_, ?_, ?_⟩
  · intro o ho
    rcases mem o ho with rfl | rfl | rfl <;> simp [metaOf, appBlob]
  · intro o ho ht
    rcases mem o ho with rfl | rfl | rfl
    · exact ⟨srcCommit, srcCommit_decode, metaOf polyExt (.tree, encodeTree srcA), (hf _ _).2 ⟨by simp [srcObjects], rfl⟩, rfl, rfl⟩
    all_goals cases ht
  · intro o ho ht
    rcases mem o ho with rfl | rfl | rfl
    · cases ht
    · exact ⟨_, srcA_decode⟩
    · cases ht
  · intro o ho ht
    rcases mem o ho with rfl | rfl | rfl <;> cases ht
  · intro o items i _ ho ht hd hi
    rcases mem o ho with rfl | rfl | rfl
    · cases ht
    · rw [show decodeTree (metaOf polyExt (.tree, encodeTree srcA)).data = .ok srcA from srcA_decode] at hd
      cases hd
      simp only [srcA, List.mem_cons, List.not_mem_nil, or_false] at hi
      subst hi
      exact ⟨appBlob, (hf _ _).2 ⟨by simp [srcObjects], rfl⟩, rfl, rfl⟩
    · cases ht
  · intro o items _ ho ht hd
    rcases mem o ho with rfl | rfl | rfl
    · cases ht
    · rw [show decodeTree (metaOf polyExt (.tree, encodeTree srcA)).data = .ok srcA from srcA_decode] at hd
      cases hd
      decide
    · cases ht

/-- A fetch of `/lib` by a client that wants the commit there and has that of `/app`. -/
def fetchLines : List Spec.ReqLine := [.want (Hash.toPlainStr srcId) (ascii " multi_ack_detailed side-band-64k\n"), .flush, .have_ appCmd.new (ascii "\n")]

theorem fetchLines_ok : ∀ l ∈ fetchLines, l.Ok := by
  intro l hl
  simp only [fetchLines, List.mem_cons, List.not_mem_nil, or_false] at hl
  rcases hl with rfl | rfl | rfl
  · exact ⟨srcCmd_ok.2.2.1, srcCmd_ok.2.2.2.1, ⟨0x20, ascii "multi_ack_detailed side-band-64k\n", by decide, by decide⟩, by decide⟩
  · trivial
  · exact ⟨appCmd_ok.2.2.1, appCmd_ok.2.2.2.1, ⟨10, [], by decide, by simp⟩, by decide⟩

theorem fetchLines_asks : Spec.Asks fetchLines (ascii "multi_ack_detailed") :=
  ⟨ascii " multi_ack_detailed side-band-64k\n", [ascii "multi_ack_detailed", ascii "side-band-64k\n"], rfl, ⟨by decide, by decide, by decide⟩, .inl (by decide)⟩

/-- The request. -/
def libFetch : HttpReq := Spec.fetchReq (ascii "/lib" ++ []) (doneBody fetchLines (ascii "\n") [])

/-- Two repositories with one commit each; the fetch is answered. -/
theorem two_repos : ∃ (packA packB out : Bytes), (∃ rep, (ascii "PACK").isPrefixOf packA = true ∧
      (serve demoServer demoMoment .empty (appPush packA)).1 = .reply (.ok (.bytes rep)) ∧
      ∃ p, decodePack polyExt (getHashObject polyExt demoSql ServerState.empty.db) 2 packA = .ok p ∧
        p.result.hashObject (idOf polyExt (.commit, appCommit.encode)) = some (metaOf polyExt (.commit, appCommit.encode))) ∧
    (serve demoServer demoMoment (runServer demoServer .empty [(demoMoment, appPush packA), (demoMoment, srcPush packB)]) libFetch).1 = .reply (.ok (.bytes out)) ∧
    (∀ r ∈ (runServer demoServer .empty [(demoMoment, appPush packA), (demoMoment, srcPush packB)]).db.commits,
      r.repoPath = ascii "/app" ∧ r.data = appCommit.encode ∨ r.repoPath = ascii "/lib" ∧ r.data = srcCommit.encode) ∧
    (∃ r ∈ (runServer demoServer .empty [(demoMoment, appPush packA), (demoMoment, srcPush packB)]).db.commits, r.repoPath = ascii "/app" ∧ r.data = appCommit.encode) ∧
    ∃ r ∈ (runServer demoServer .empty [(demoMoment, appPush packA), (demoMoment, srcPush packB)]).db.commits, r.repoPath = ascii "/lib" ∧ r.data = srcCommit.encode := by
  -- the push to `/app`
  obtain ⟨pack, p, rep, st', h1, h2, h3, h4, q6, objs, ⟨ra, hra, ea, ea'⟩, _⟩ := app_after (ascii "/lib") (ascii "/app")
  obtain ⟨p', db1, g1, g2, g3, g4, _, _⟩ := push_run (path := ascii "/lib") .empty appCmd_ok (by decide) (by decide) h1 h4
  rw [h2] at g1
  cases g1
  -- the push to `/lib`
  obtain ⟨body, packB, pB, _, _, b2, b3⟩ := C27_pack_roundtrip polyExt (getHashObject polyExt demoSql st'.db) srcObjects
    (by
      intro m hm
      simp only [srcObjects, List.mem_cons, List.not_mem_nil, or_false] at hm
      rcases hm with rfl | rfl | rfl
      · exact new_metaOf polyExt (.commit, _) rfl
      · exact new_metaOf polyExt (.tree, _) rfl
      · exact new_metaOf polyExt (.blob, _) rfl)
    (fun a ha b hb e => List.inj_on_of_nodup_map libObjects_ids (srcObjects_sub a ha) (srcObjects_sub b hb) e)
    (by decide +kernel) (by simp [srcObjects]) (by decide) (by decide +kernel) 1
  have b3 := b3.byId
  have b1 := decodePack_magic b2
  obtain ⟨hist, e, _⟩ := decodePack_hist b2
  obtain ⟨dbB, s1⟩ := C48_push_succeeds_partial (p := pB) (by rw [e]; exact PackCache.keyed_run hist) (src_selfContained b3) (fun _ => 0) 2
    (by
      intro o items i _ ho ht hd hi hty
      have := ((b3 _ _).1 ho).1
      simp only [srcObjects, List.mem_cons, List.not_mem_nil, or_false] at this
      rcases this with rfl | rfl | rfl
      · cases ht
      · rw [show decodeTree (metaOf polyExt (.tree, encodeTree srcA)).data = .ok srcA from srcA_decode] at hd
        cases hd
        simp only [srcA, List.mem_cons, List.not_mem_nil, or_false] at hi
        subst hi
        cases hty
      · cases ht) (by intros; omega) demoSql (fun _ _ => rfl) (ascii "/lib") st'.db
  obtain ⟨repB, stB, r1, _, _⟩ := (C70_report_partial (mysqlPush polyExt demoSql 2) (ascii "/lib") st'.db dbB srcCmd srcCmd_ok (ascii "report-status") (by decide) (by decide)
    packB b1 pB b2).1 _ s1 rfl
  obtain ⟨p', db2, g5, g6, g7, g8, _, qB⟩ := push_run (path := ascii "/lib") q6 srcCmd_ok (by decide) (by decide) b1 r1
  rw [b2] at g5
  cases g5
  obtain ⟨p', k5, k4, _, k6, _, _⟩ := C26_durable_partial polyExt demoSql 2 (ascii "/lib") st'.db srcCmd srcCmd_ok (ascii "report-status") (by decide) (by decide) packB b1
    (fun _ _ => rfl) (fun _ _ => rfl) repB stB r1
  rw [b2] at k5
  cases k5
  have e0 : (runServer demoServer .empty [(demoMoment, appPush pack)]).db = st'.db := by
    rw [show [(demoMoment, appPush pack)] = [] ++ [(demoMoment, appPush pack)] from rfl, runServer_concat, serve_db,
      show route (appPush pack).method (appPush pack).path (appPush pack).service = .receivePack (ascii "/app") from route_push app_clean_url (.inr rfl)]
    exact httpReceiveDb_ok _ _ _ _ _ h4
  have e1 : (runServer demoServer .empty [(demoMoment, appPush pack), (demoMoment, srcPush packB)]).db = stB.db := by
    rw [show [(demoMoment, appPush pack), (demoMoment, srcPush packB)] = [(demoMoment, appPush pack)] ++ [(demoMoment, srcPush packB)] from rfl, runServer_concat, serve_db,
      show route (srcPush packB).method (srcPush packB).path (srcPush packB).service = .receivePack (ascii "/lib") from route_push lib_clean_url (.inl rfl)]
    simp only
    rw [e0]
    exact httpReceiveDb_ok _ _ _ _ _ r1
  obtain ⟨rows, w1, w2, _, w4⟩ := push_effect b2 demoSql 2 (ascii "/lib") st'.db
  rw [g6] at w1 w4
  simp only at w1 w4
  rw [← g7] at w1
  rw [← g8] at w4
  have hcommits : ∀ r ∈ stB.db.commits, r.repoPath = ascii "/app" ∧ r.data = appCommit.encode ∨ r.repoPath = ascii "/lib" ∧ r.data = srcCommit.encode := by
    intro r hr
    rcases w4 r hr with hr | ⟨q1, _, o, c, q2, q3, q4, _⟩
    · obtain ⟨_, _, _, _, w⟩ := push_effect h2 demoSql 2 (ascii "/app") Db.empty
      rw [g2] at w
      rw [g4] at hr
      rcases w r hr with w | ⟨q1, _, o, c, q2, q3, q4, _⟩
      · cases w
      · refine .inl ⟨q1, ?_⟩
        have := ((h3 _ _).1 q2).1
        simp only [appObjects, appThin, appBlob, List.mem_append, List.mem_cons, List.not_mem_nil, or_false] at this
        rcases this with (rfl | rfl | rfl | rfl) | rfl
        · exact q4
        all_goals cases q3
    · refine .inr ⟨q1, ?_⟩
      have := ((b3 _ _).1 q2).1
      simp only [srcObjects, appBlob, List.mem_cons, List.not_mem_nil, or_false] at this
      rcases this with rfl | rfl | rfl
      · exact q4
      all_goals cases q3
  have nodes : ∀ n ∈ stB.db.nodes, metaOf polyExt (nodeObj n) ∈ appObjects := by
    intro n hn
    rw [w1] at hn
    rcases List.mem_append.1 hn with hn | hn
    · exact objs _ (.inl ⟨n, hn, rfl⟩)
    · obtain ⟨o, q1, q2, _⟩ := w2 n hn
      have := ((b3 _ _).1 q1).1
      rw [q2] at this
      simp only [srcObjects, List.mem_cons, List.not_mem_nil, or_false] at this
      rcases this with h | h | h
      · exact absurd (congrArg MetaData.t h) (by unfold nodeObj; split <;> simp [metaOf])
      · rw [h]; simp [appObjects, appThin]
      · rw [h]; simp [appObjects]
  have objsB : ∀ o, StoredObj stB.db o → metaOf polyExt o ∈ libObjects := by
    rintro o (⟨n, hn, rfl⟩ | ⟨r, hr, rfl⟩)
    · exact List.mem_append_left _ (nodes n hn)
    · rcases hcommits r hr with ⟨_, q⟩ | ⟨_, q⟩
      · rw [q]; simp [libObjects, appObjects, appThin]
      · rw [q]; simp [libObjects]
  have hu := few_unique libObjects_ids objsB
  have hfit := few_fits (l := libObjects) (by decide) (by decide +kernel) objsB
  have inv := storeRun_inv qB hu
  obtain ⟨rb, hrb, eb1, eb2, eb3⟩ := k4 (metaOf polyExt (.commit, srcCommit.encode)) ((b3 _ _).2 ⟨by simp [srcObjects], rfl⟩) rfl
  have nested : ∀ x, Spec.NestedWithin stB.db.nodes 2 x := fun x =>
    app_nested (db := { stB.db with commits := [] }) (by
      rintro o (⟨n, hn, rfl⟩ | ⟨r, hr, rfl⟩)
      · exact nodes n hn
      · cases hr) inv.id x
  -- the fetch
  obtain ⟨s, hw, hh, hc, hreq⟩ := httpUploadPack_done (mysqlFetch polyExt demoSql 2 stB.db (ascii "/lib")) id demoCut fetchLines fetchLines_ok (ascii "\n") [] (by decide)
  obtain ⟨file, ms, f1, _⟩ := C50_sent_partial polyExt demoSql (ascii "/lib") stB.db qB hu demoFold_hash hfit 2 (fun _ _ c _ => nested c.treeId) s.want s.have_ rb
    (commitsAt_mem.2 ⟨hrb, by rw [eb3]⟩) (by rw [eb2]; exact (hw _).2 (.head _))
  have hne : s.have_ ≠ [] := List.ne_nil_of_mem ((hh appCmd.new).2 (.head _))
  have hcap : Capability.multiAckDetailed ∈ s.caps := by
    obtain ⟨tail, words, q1, q2, q3⟩ := fetchLines_asks
    rw [hc]
    unfold requestCaps
    rw [q1]
    rcases q3 with q3 | q3
    · exact (C21_capabilities_iff _ _ q2 _).2 ⟨_, q3, [], [], .nil, .nil, by rfl⟩
    · exact (C21_capabilities_iff _ _ q2 _).2 ⟨_, q3, [], [10], .nil, .cons (.tab_to_cr 10 (by decide) (by decide)) .nil, by rfl⟩
  have ans : ∃ out, httpUploadPack (mysqlFetch polyExt demoSql 2 stB.db (ascii "/lib")) id demoCut (doneBody fetchLines (ascii "\n") []) = .ok out := by
    rw [hreq]
    unfold fetchAnswer
    rw [if_neg (show ¬ id s.have_ = [] from hne), if_pos hcap]
    simp only [id, show (mysqlFetch polyExt demoSql 2 stB.db (ascii "/lib")).incPack s.want s.have_ = .ok file from f1, Res.unwrap_ok, Res.bind_ok, Res.pure_eq]
    exact ⟨_, rfl⟩
  obtain ⟨out, hout⟩ := ans
  refine ⟨pack, packB, out, ⟨rep, h1, ?_, p, h2, (h3 _ _).2 ⟨by simp [appObjects, appThin], rfl⟩⟩, ?_, ?_, ?_, ?_⟩
  · unfold serve
    rw [show route (appPush pack).method (appPush pack).path (appPush pack).service = .receivePack (ascii "/app") from route_push app_clean_url (.inr rfl)]
    have h5 : httpReceivePack (mysqlPush demoServer.X demoMoment.sql demoMoment.fuel) { caps := [], commands := [], path := ascii "/app", db := ServerState.empty.db } (appPush pack).body =
      .ok (rep, st') := h4
    simp only [h5]
    rfl
  · rw [serve_fetch (route_fetch lib_clean_url (.inl rfl)), e1]
    exact hout
  · rw [e1]; exact hcommits
  · rw [e1]; exact ⟨ra, k6 ra hra, ea', ea⟩
  · rw [e1]; exact ⟨rb, hrb, eb3, eb2⟩

/-- **C103 is false** for what belongs to other repositories: the fetch of `/lib` calls the commit of `/app` common, although the repository `/lib` does not have it. -/
theorem C103_other_repository_false : ∃ (h : List (Moment × HttpReq)) (out : Bytes) (pkts : List Spec.Pkt) (file : Bytes),
    (serve demoServer demoMoment (runServer demoServer .empty h) libFetch).1 = .reply (.ok (.bytes out)) ∧
    out = Spec.stream pkts ++ sendPack (requestCaps fetchLines) (demoCut file) ∧ (∀ p ∈ pkts, p.Fits) ∧ appCmd.new ∈ Spec.commonIds pkts ∧
    ∀ o, InRepo demoFold (runServer demoServer .empty h).db (ascii "/lib") o → o.1 = .commit → Hash.toPlainStr (idOf polyExt o) ≠ appCmd.new := by
  obtain ⟨packA, packB, out, _, h1, h2, ⟨r, hr, _, e⟩, _⟩ := two_repos
  obtain ⟨pkts, file, k1, k2, _, _, _, k5⟩ := C103_told_partial demoServer demoFold_hash _ demoMoment rfl (fun _ _ => .rfl) lib_clean_url (.inl rfl) fetchLines fetchLines_ok (ascii "\n") []
    (by decide) out h1
  refine ⟨_, out, pkts, file, h1, k1, k2, k5 (by simp [fetchLines, Spec.haveIds]) fetchLines_asks (idOf polyExt (.commit, appCommit.encode)) (by
    simp [fetchLines, Spec.haveIds, Spec.wantIds, appCmd, metaOf]) ⟨r, hr, by rw [e]; rfl⟩, fun o ho ht => ?_⟩
  cases ho with
  | commit r hr =>
    obtain ⟨a, b⟩ := commitsAt_mem.1 hr
    rcases h2 r a with ⟨q, _⟩ | ⟨_, q⟩
    · rw [q] at b
      exact absurd b (by decide)
    · rw [q]
      decide +kernel
  | node _ _ _ n => exact absurd ht (by unfold nodeObj; split <;> simp)

/-- **C103 is false** for what the client wants: the fetch calls the commit common that the client wants, which it did not say it has. -/
theorem C103_wanted_false : ∃ (h : List (Moment × HttpReq)) (out : Bytes) (pkts : List Spec.Pkt) (file : Bytes),
    (serve demoServer demoMoment (runServer demoServer .empty h) libFetch).1 = .reply (.ok (.bytes out)) ∧
    out = Spec.stream pkts ++ sendPack (requestCaps fetchLines) (demoCut file) ∧ (∀ p ∈ pkts, p.Fits) ∧ Hash.toPlainStr srcId ∈ Spec.commonIds pkts ∧
    Hash.toPlainStr srcId ∉ Spec.haveIds fetchLines := by
  obtain ⟨packA, packB, out, _, h1, _, _, r, hr, _, e⟩ := two_repos
  obtain ⟨pkts, file, k1, k2, _, _, _, k5⟩ := C103_told_partial demoServer demoFold_hash _ demoMoment rfl (fun _ _ => .rfl) lib_clean_url (.inl rfl) fetchLines fetchLines_ok (ascii "\n") []
    (by decide) out h1
  exact ⟨_, out, pkts, file, h1, k1, k2, k5 (by simp [fetchLines, Spec.haveIds]) fetchLines_asks srcId (by simp [fetchLines, Spec.wantIds]) ⟨r, hr, by rw [e]; rfl⟩, by decide +kernel⟩

/-- C103: the commit pushed to `/app`, then another push, then the fetch: the commit is called common. -/
example : ∃ (h : List (Moment × HttpReq)) (out : Bytes) (pkts : List Spec.Pkt) (file : Bytes),
    (serve demoServer demoMoment (runServer demoServer .empty h) libFetch).1 = .reply (.ok (.bytes out)) ∧
    out = Spec.stream pkts ++ sendPack (requestCaps fetchLines) (demoCut file) ∧ appCmd.new ∈ Spec.commonIds pkts := by
  obtain ⟨packA, packB, out, ⟨rep, h0, hrep, p, hd, hp⟩, h1, _⟩ := two_repos
  obtain ⟨p', k1, pkts, file, k2, k3⟩ := C103_pushed_partial demoServer demoFold_hash [] (m0 := demoMoment) app_clean_url (.inr rfl) appCmd_ok (by decide) (by decide) h0
    (fun _ _ => rfl) (fun _ _ => rfl) hrep [(demoMoment, srcPush packB)] demoMoment rfl (fun _ _ => .rfl) lib_clean_url (.inl rfl) fetchLines fetchLines_ok (ascii "\n") []
    (by decide) fetchLines_asks out h1
  have e : p = p' := Res.ok.inj (hd.symm.trans k1)
  subst e
  exact ⟨_, out, pkts, file, h1, k2, k3 _ hp rfl (by simp [fetchLines, Spec.haveIds, appCmd, metaOf])⟩

end Gust

import Verif.Props.Confined

/-! # C90: a repository served below another one, examples -/

namespace Gust

open Spec (nodeObj StoreReach commitsAt InRepo)

/-- A push to `/lib` of one blob, making `refs/heads/master` there the commit of `/app`. -/
def libPush (pack : Bytes) : HttpReq := Spec.pushReq (ascii "/lib" ++ []) (Spec.pushBody appCmd [] (ascii "report-status") pack)

/-- The blob. -/
def libBlob : MetaData := metaOf polyExt (.blob, ascii "two")

/-- The commit that the server makes for the directory `src`. -/
def srcCommit : Commit := { appCommit with treeId := idOf polyExt (.tree, encodeTree srcA), parents := [] }

/-- All objects then. -/
def libObjects : List MetaData := appObjects ++ [metaOf polyExt (.commit, srcCommit.encode)]

theorem libObjects_ids : (libObjects.map MetaData.id).Nodup := by decide +kernel

/-- The same, as it is stored. -/
def srcChild : CommitObj := { base := metaOf polyExt (.commit, srcCommit.encode), commit := srcCommit }

theorem srcCommit_decode : Commit.decode srcCommit.encode = .ok srcCommit := by
  rw [commit_decode_encode]
  · rfl
  · exact ⟨appCommit_ok.author, appCommit_ok.author_line, appCommit_ok.author_role, appCommit_ok.committer, appCommit_ok.committer_line, appCommit_ok.message⟩

theorem few_unique {l : List MetaData} (hl : (l.map MetaData.id).Nodup) {db : Db} (h : ∀ o, StoredObj db o → metaOf polyExt o ∈ l) : UniqueIds polyExt db := by
  intro a b ha hb e
  have := List.inj_on_of_nodup_map hl (h a ha) (h b hb) e
  exact Prod.ext (congrArg MetaData.t this) (congrArg MetaData.data this)

theorem few_fits {l : List MetaData} (hlen : l.length ≤ 1000) (big : ∀ m ∈ l, m.data.length < 2 ^ 61 ∧ (MetaData.convertToVec polyExt m).length ≤ 10000)
    {db : Db} (h : ∀ o, StoredObj db o → metaOf polyExt o ∈ l) : FitsPack polyExt db := by
  refine ⟨fun o ho => (big _ (h o ho)).1, fun ms hn hm => ?_⟩
  have hsub : ∀ m ∈ ms, m ∈ l := by
    intro m hmm
    obtain ⟨o, ho, rfl⟩ := hm m hmm
    exact h o ho
  have hlen' : ms.length ≤ l.length := (List.subperm_of_subset hn hsub).length_le
  have : ∀ k : List MetaData, (∀ m ∈ k, m ∈ l) → (encodeEntries polyExt k).length ≤ 10000 * k.length := by
    intro k
    induction k with
    | nil => intro _; simp [encodeEntries]
    | cons a k ih =>
      intro hl
      have := ih (fun m hm => hl m (.tail _ hm))
      have h1 := (big a (hl a (.head _))).2
      simp only [encodeEntries, List.flatMap_cons, List.length_append, List.length_cons] at this ⊢
      omega
  have := this ms hsub
  exact ⟨by omega, by omega⟩

theorem lib_clean_url : Spec.CleanUrl (ascii "/lib") := ⟨by decide, by decide, by decide, by decide⟩

/-- **C90 is false** below another repository: the example repository is pushed to `/app`. Somebody who knows nothing but the id of its commit pushes one blob to `/lib`, as a branch
with this id, and asks for the refs of `/lib/src`. Then a clone of `/lib/src` contains the directory `src` of `/app` and the file in it, although the push to `/lib` contained one
other blob only and nothing was ever pushed to `/lib/src`. -/
theorem C90_below_false : ∃ (packA packB : Bytes) (p : Pack) (file : Bytes) (ms : List MetaData),
    decodePack polyExt (getHashObject polyExt demoSql (runServer demoServer .empty [(demoMoment, appPush packA)]).db) 2 packB = .ok p ∧
    (∀ h m, p.result.hashObject h = some m ↔ m = libBlob ∧ m.id = h) ∧
    getFullPack polyExt demoSql 2
      (runServer demoServer .empty [(demoMoment, appPush packA), (demoMoment, libPush packB), (demoMoment, discoverReq (ascii "/lib/src"))]).db (ascii "/lib/src") = .ok file ∧
    PackHas polyExt file ms ∧ metaOf polyExt (.tree, encodeTree srcA) ∈ ms ∧ metaOf polyExt (.blob, ascii "one") ∈ ms := by
  -- the push to `/app`
  obtain ⟨pack, p, rep, st', h1, h2, h3, h4, q6, objs, _, reach⟩ := app_after (ascii "/zzz") (ascii "/app")
  obtain ⟨p', db1, g1, g2, g3, g4, _, _⟩ := push_run (path := ascii "/app") .empty appCmd_ok (by decide) (by decide) h1 h4
  rw [h2] at g1
  cases g1
  obtain ⟨p', k1, k2, _, _, _, k3⟩ := C26_durable_partial polyExt demoSql 2 (ascii "/app") Db.empty appCmd appCmd_ok (ascii "report-status") (by decide) (by decide) pack h1
    (fun _ _ => rfl) (fun _ _ => rfl) rep st' h4
  rw [h2] at k1
  cases k1
  have hrefs : st'.db.refs = [{ repoPath := ascii "/app", refName := ascii "refs/heads/master" ++ [0], refGitId := appCmd.new }] := by
    rcases k3 with ⟨_, q⟩ | ⟨q, _⟩
    · exact q
    · exact absurd (rfl : appCmd.old = zeroId) q
  obtain ⟨hex, hnamed⟩ := app_named_src h2 h3 g2
  rw [← g3] at hex hnamed
  have inv := storeRun_inv q6 (app_unique objs)
  -- the push to `/lib`
  obtain ⟨packB, pB, b1, _, b2, b3⟩ := app_pack (getHashObject polyExt demoSql st'.db) [libBlob] (by intro m hm; rw [List.mem_singleton.1 hm]; simp [appObjects, appThin, libBlob])
    (by decide) (by decide) (by decide +kernel) 1
  have only : ∀ h m, pB.result.hashObject h = some m ↔ m = libBlob ∧ m.id = h := by intro h m; rw [b3, List.mem_singleton]
  have blobT : ∀ o, pB.result.hashObject o.id = some o → o.t = .blob := by
    intro o ho
    rw [((only _ _).1 ho).1]
    rfl
  have noReach : ∀ x, ¬ Spec.PackReach pB.result.hashObject x := by
    intro x hx
    induction hx with
    | commit o c ho ht _ => rw [blobT o ho] at ht; cases ht
    | item o items i _ ho ht _ _ ih => exact ih
  obtain ⟨hist, e, _⟩ := decodePack_hist b2
  obtain ⟨dbB, s1⟩ := C48_push_succeeds_partial (p := pB) (by rw [e]; exact PackCache.keyed_run hist)
    { kinds := fun o ho => .inr (.inr (.inl (blobT o ho)))
      commits := fun o ho ht => by rw [blobT o ho] at ht; cases ht
      trees := fun o ho ht => by rw [blobT o ho] at ht; cases ht
      tags := fun o ho ht => by rw [blobT o ho] at ht; cases ht
      items := fun o _ _ hr => (noReach _ hr).elim
      names := fun o _ hr => (noReach _ hr).elim } (fun _ => 0) 2
    (fun o _ _ hr => (noReach _ hr).elim) (fun o c ho ht => by rw [blobT o ho] at ht; cases ht) demoSql (fun _ _ => rfl) (ascii "/lib") st'.db
  obtain ⟨repB, stB, r1, _, _⟩ := (C70_report_partial (mysqlPush polyExt demoSql 2) (ascii "/lib") st'.db dbB appCmd appCmd_ok (ascii "report-status") (by decide) (by decide)
    packB b1 pB b2).1 _ s1 rfl
  obtain ⟨p', db2, g5, g6, g7, g8, _, qB⟩ := push_run (path := ascii "/zzz") q6 appCmd_ok (by decide) (by decide) b1 r1
  rw [b2] at g5
  cases g5
  obtain ⟨p', k5, _, _, k6, _, k7⟩ := C26_durable_partial polyExt demoSql 2 (ascii "/lib") st'.db appCmd appCmd_ok (ascii "report-status") (by decide) (by decide) packB b1
    (fun _ _ => rfl) (fun _ _ => rfl) repB stB r1
  rw [b2] at k5
  cases k5
  have hrefsB : stB.db.refs = [{ repoPath := ascii "/app", refName := ascii "refs/heads/master" ++ [0], refGitId := appCmd.new },
      { repoPath := ascii "/lib", refName := ascii "refs/heads/master" ++ [0], refGitId := appCmd.new }] := by
    rcases k7 with ⟨_, q⟩ | ⟨q, _⟩
    · rw [q, hrefs]; rfl
    · exact absurd (rfl : appCmd.old = zeroId) q
  have hnodesB : stB.db.nodes = st'.db.nodes := by
    obtain ⟨rows, u1, _, u3⟩ := push_names b2 g6
    rw [g7, u1]
    have : rows = [] := by
      rw [List.eq_nil_iff_forall_not_mem]
      intro r hr
      rcases u3 r hr with ⟨_, o, c, ho, ht, _⟩ | ⟨o, items, i, ho, ht, _⟩
      · rw [blobT o ho] at ht; cases ht
      · rw [blobT o ho] at ht; cases ht
    rw [this, List.append_nil]
  have hcommitsB : ∀ c, c ∈ stB.db.commits ↔ c ∈ st'.db.commits := by
    intro c
    refine ⟨fun hc => ?_, k6 c⟩
    obtain ⟨rows, _, _, _, w⟩ := push_effect b2 demoSql 2 (ascii "/lib") st'.db
    rw [g6] at w
    rw [g8] at hc
    rcases w c hc with w | ⟨_, _, o, c, ho, ht, _⟩
    · exact w
    · rw [blobT o ho] at ht; cases ht
  -- the commit the ref names
  obtain ⟨cr, hcr, hcrf⟩ : ∃ cr, (demoSql.order (stB.db.commits.filter (fun c => demoSql.fold c.gitId == demoSql.fold appCmd.new))).head? = some cr ∧ cr.data = appCommit.encode := by
    obtain ⟨r, hr, e1, e2, e3⟩ := k2 (metaOf polyExt (.commit, appCommit.encode)) ((h3 _ _).2 ⟨by simp [appObjects, appThin], rfl⟩) rfl
    have hm : r ∈ demoSql.order (stB.db.commits.filter (fun c => demoSql.fold c.gitId == demoSql.fold appCmd.new)) :=
      List.mem_filter.2 ⟨(hcommitsB r).2 hr, by rw [e1]; exact beq_self_eq_true _⟩
    cases hh : demoSql.order (stB.db.commits.filter (fun c => demoSql.fold c.gitId == demoSql.fold appCmd.new)) with
    | nil => rw [hh] at hm; cases hm
    | cons a l =>
      refine ⟨a, rfl, ?_⟩
      have ha : a ∈ demoSql.order (stB.db.commits.filter (fun c => demoSql.fold c.gitId == demoSql.fold appCmd.new)) := by rw [hh]; exact .head _
      have hm := objs _ (.inr ⟨a, (hcommitsB a).1 (List.mem_filter.1 ha).1, rfl⟩)
      simp only [appObjects, appThin, appBlob, List.mem_append, List.mem_cons, List.not_mem_nil, or_false] at hm
      rcases hm with (h | h | h | h) | h
      · exact congrArg MetaData.data h
      all_goals exact absurd (congrArg MetaData.t h) (by simp [metaOf])
  -- the node that is found
  obtain ⟨root, hroot, hrootId⟩ : ∃ root, searchRootNode demoSql stB.db (ascii "/lib/src") = .ok (some root) ∧
      root.gitId = Hash.toPlainStr (idOf polyExt (.tree, encodeTree srcA)) := by
    obtain ⟨n, hn, e⟩ := hex
    have hm : n ∈ demoSql.order (st'.db.nodes.filter (fun n => demoSql.fold n.name == demoSql.fold (ascii "src"))) :=
      List.mem_filter.2 ⟨hn, by rw [e]; exact beq_self_eq_true _⟩
    cases hh : demoSql.order (st'.db.nodes.filter (fun n => demoSql.fold n.name == demoSql.fold (ascii "src"))) with
    | nil => rw [hh] at hm; cases hm
    | cons a l =>
      have ha : a ∈ demoSql.order (st'.db.nodes.filter (fun n => demoSql.fold n.name == demoSql.fold (ascii "src"))) := by rw [hh]; exact .head _
      obtain ⟨ha1, ha2⟩ := List.mem_filter.1 ha
      refine ⟨a, ?_, hnamed a ha1 (eq_of_beq ha2)⟩
      unfold searchRootNode
      rw [show fileName (ascii "/lib/src") = some (ascii "src") from by decide, hnodesB]
      simp only [Res.unwrapOpt, Res.bind_ok, hh, List.head?_cons, Res.pure_eq]
  have hchild : buildFromModel polyExt cr root = .ok srcChild := by
    unfold buildFromModel
    rw [hcrf, appCommit_decode, show Hash.fromStr root.gitId = .ok (idOf polyExt (.tree, encodeTree srcA)) by rw [hrootId, Hash.fromStr, Hash.fromBytes_toPlainStr]; rfl]
    simp only [Res.unwrap_ok, Res.bind_ok]
    rw [show ({ appCommit with treeId := idOf polyExt (.tree, encodeTree srcA), parents := [] } : Commit) = srcCommit from rfl,
      new_metaOf polyExt (.commit, srcCommit.encode) rfl]
    rfl
  have hg : getHeadObjectId polyExt demoSql stB.db (ascii "/lib/src") = (.ok (Hash.toPlainStr (idOf polyExt (.commit, srcCommit.encode))),
      insertRefs demoSql (chunks 100 1 [{ repoPath := ascii "/lib/src", refName := ascii "refs/heads/master" ++ [0], refGitId := Hash.toPlainStr (idOf polyExt (.commit, srcCommit.encode)) }])
        (saveCommits demoSql [srcChild] (ascii "/lib/src") stB.db)) := by
    unfold getHeadObjectId searchRefs
    rw [hrefsB, show (demoSql.order ([({ repoPath := ascii "/app", refName := ascii "refs/heads/master" ++ [0], refGitId := appCmd.new } : RefRow),
        { repoPath := ascii "/lib", refName := ascii "refs/heads/master" ++ [0], refGitId := appCmd.new }].filter
        (fun r => demoSql.like (ascii "/lib/src") r.repoPath && demoSql.fold r.refName == demoSql.fold (ascii "refs/heads/master")))) =
        [{ repoPath := ascii "/lib", refName := ascii "refs/heads/master" ++ [0], refGitId := appCmd.new }] from by decide +kernel]
    rw [List.find?_cons_of_neg (by decide), List.find?_nil, List.find?_cons_of_pos (by decide)]
    simp only
    unfold generateChild
    rw [hcr]
    simp only
    rw [hroot]
    simp only
    rw [hchild]
    rfl
  have hrunC := StoreRun.head demoSql (ascii "/lib/src") stB.db qB rfl (.inl (by decide))
  have e0 : (runServer demoServer .empty [(demoMoment, appPush pack)]).db = st'.db := by
    rw [show [(demoMoment, appPush pack)] = [] ++ [(demoMoment, appPush pack)] from rfl, runServer_concat, serve_db,
      show route (appPush pack).method (appPush pack).path (appPush pack).service = .receivePack (ascii "/app") from route_push app_clean_url (.inr rfl)]
    exact httpReceiveDb_ok _ _ _ _ _ h4
  have e1 : (runServer demoServer .empty [(demoMoment, appPush pack), (demoMoment, libPush packB)]).db = stB.db := by
    rw [show [(demoMoment, appPush pack), (demoMoment, libPush packB)] = [(demoMoment, appPush pack)] ++ [(demoMoment, libPush packB)] from rfl, runServer_concat, serve_db,
      show route (libPush packB).method (libPush packB).path (libPush packB).service = .receivePack (ascii "/lib") from route_push lib_clean_url (.inl rfl)]
    simp only
    rw [e0]
    exact httpReceiveDb_ok _ _ _ _ _ r1
  have hdb : (runServer demoServer .empty [(demoMoment, appPush pack), (demoMoment, libPush packB), (demoMoment, discoverReq (ascii "/lib/src"))]).db =
      (getHeadObjectId polyExt demoSql stB.db (ascii "/lib/src")).2 := by
    rw [show [(demoMoment, appPush pack), (demoMoment, libPush packB), (demoMoment, discoverReq (ascii "/lib/src"))] =
        [(demoMoment, appPush pack), (demoMoment, libPush packB)] ++ [(demoMoment, discoverReq (ascii "/lib/src"))] from rfl, runServer_concat, serve_db,
      show route (discoverReq (ascii "/lib/src")).method (discoverReq (ascii "/lib/src")).path (discoverReq (ascii "/lib/src")).service =
        .infoRefs (ascii "/lib/src") .uploadPack from by decide]
    simp only
    rw [e1]
    rfl
  rw [saveChild_eq] at hg
  generalize hD : (getHeadObjectId polyExt demoSql stB.db (ascii "/lib/src")).2 = D at hrunC hdb
  rw [hg] at hD
  have hDn : D.nodes = st'.db.nodes := by rw [← hD]; exact hnodesB
  have hDc : D.commits = stB.db.commits ++ [srcChild.row (ascii "/lib/src")] := by rw [← hD]; rfl
  have objsD : ∀ o, StoredObj D o → metaOf polyExt o ∈ libObjects := by
    rintro o (⟨n, hn, rfl⟩ | ⟨r, hr, rfl⟩)
    · rw [hDn] at hn
      exact List.mem_append_left _ (objs _ (.inl ⟨n, hn, rfl⟩))
    · rw [hDc] at hr
      rcases List.mem_append.1 hr with hr | hr
      · exact List.mem_append_left _ (objs _ (.inr ⟨r, (hcommitsB r).1 hr, rfl⟩))
      · rw [List.mem_singleton.1 hr]
        exact List.mem_append_right _ (.head _)
  have hu := few_unique libObjects_ids objsD
  have hfit := few_fits (l := libObjects) (by decide) (by decide +kernel) objsD
  obtain ⟨hS, _⟩ := storeRun_ok hrunC hu rfl demoFold_hash
  have hold : ∀ x ∈ stB.db.commits, x.repoPath = ascii "/app" := by
    intro x hx
    rw [hcommitsB, g4] at hx
    obtain ⟨rows, _, _, _, w⟩ := push_effect h2 demoSql 2 (ascii "/app") Db.empty
    rw [g2] at w
    rcases w x hx with w | w
    · cases w
    · exact w.1
  have hat : ∀ r, r ∈ commitsAt demoFold D.commits (ascii "/lib/src") →
      r = srcChild.row (ascii "/lib/src") := by
    intro r hr
    obtain ⟨a, b⟩ := commitsAt_mem.1 hr
    rw [hDc] at a
    rcases List.mem_append.1 a with a | a
    · rw [hold r a] at b
      exact absurd b (by decide)
    · exact List.mem_singleton.1 a
  have there : ∀ m ∈ appThin, p.result.hashObject m.id = some m := fun m hm => (h3 _ _).2 ⟨appThin_sub m hm, rfl⟩
  obtain ⟨nt, hnt, ent⟩ := reach _ (app_src there)
  obtain ⟨nb, hnb, enb⟩ := reach _ (app_blob there)
  have find : ∀ n ∈ st'.db.nodes, ∀ m ∈ appObjects, n.gitId = Hash.toPlainStr m.id → metaOf polyExt (nodeObj n) = m := by
    intro n hn m hm e
    rw [inv.id n hn] at e
    exact List.inj_on_of_nodup_map appObjects_ids (objs _ (.inl ⟨n, hn, rfl⟩)) hm (Hash.toPlainStr_injective e)
  have ntObj := find nt hnt (metaOf polyExt (.tree, encodeTree srcA)) (by simp [appObjects, appThin]) ent
  have nbObj := find nb hnb appBlob (by simp [appObjects]) enb
  have ntTree : nt.nodeType = ascii "tree" := by
    rcases inv.type nt hnt with h | h
    · exact h
    · rw [nodeObj_blob (by rw [h]; decide)] at ntObj
      exact absurd (congrArg MetaData.t ntObj) (by simp [metaOf])
  have ntData : nt.data = encodeTree srcA := by
    rw [nodeObj_tree ntTree] at ntObj
    exact congrArg MetaData.data ntObj
  have hR : RootsOk demoSql D (ascii "/lib/src") := by
    intro r hr
    rw [hat r hr]
    exact ⟨srcCommit, srcCommit_decode, nt, by rw [hDn]; exact hnt, ent, ntTree⟩
  obtain ⟨hm, f1⟩ := fullObjects_total hS hR (fuel := 2) (fun r _ c _ => by rw [hDn]; exact app_nested objs inv.id c.treeId)
  obtain ⟨f2, f3⟩ := fullObjects_ok hS hR f1
  have hgood : Good polyExt D hm := good_of_entries f2 _ (fun o ho => inRepo_stored ho) f3
  have hr : srcChild.row (ascii "/lib/src") ∈ commitsAt demoFold D.commits (ascii "/lib/src") :=
    commitsAt_mem.2 ⟨by rw [hDc]; exact List.mem_append_right _ (.head _), rfl⟩
  have inT : InRepo demoFold D (ascii "/lib/src") (nodeObj nt) := .node _ srcCommit _ nt hr srcCommit_decode .refl (by rw [hDn]; exact hnt) ent
  have inB : InRepo demoFold D (ascii "/lib/src") (nodeObj nb) :=
    .node _ srcCommit _ nb hr srcCommit_decode
      (.item nt _ srcA (fileItem "a" (polyId .blob (ascii "one"))) .refl (by rw [hDn]; exact hnt) ent ntTree (by rw [ntData]; exact srcA_decode) (by simp [srcA]))
      (by rw [hDn]; exact hnb) enb
  obtain ⟨file, f4, ms, f5, f6⟩ := packOf_has (E := demoSql) hu hfit hgood (by
    intro h0
    have := (f3 _).2 ⟨_, inT, rfl⟩
    rw [h0] at this
    cases this)
  refine ⟨pack, packB, pB, file, ms, by rw [e0]; exact b2, only, ?_, f5, ?_, ?_⟩
  · rw [hdb, getFullPack, f1, Res.bind_ok, f4]
  · rw [f6]
    exact ⟨_, (f3 _).2 ⟨_, inT, rfl⟩, ntObj⟩
  · rw [f6]
    exact ⟨_, (f3 _).2 ⟨_, inB, rfl⟩, nbObj⟩

/-- C90: after the push to `/app` its commit is in the repository `/app`, and was pushed there; the repository `/lib` is empty, since nothing was pushed there. -/
example : ∃ pack, InRepo demoFold (runServer demoServer .empty [(demoMoment, appPush pack)]).db (ascii "/app") (.commit, appCommit.encode) ∧
    Spec.PushedTo demoServer (ascii "/app") [(demoMoment, appPush pack)] (.commit, appCommit.encode) ∧
    ∀ o, ¬ InRepo demoFold (runServer demoServer .empty [(demoMoment, appPush pack)]).db (ascii "/lib") o := by
  obtain ⟨pack, p, rep, st', h1, h2, h3, h4, q6, objs, ⟨r, hr, e2, e3⟩, _⟩ := app_after (ascii "/app") (ascii "/app")
  have hroute : route (appPush pack).method (appPush pack).path (appPush pack).service = .receivePack (ascii "/app") := route_push app_clean_url (.inr rfl)
  have e0 : (runServer demoServer .empty [(demoMoment, appPush pack)]).db = st'.db := by
    rw [show [(demoMoment, appPush pack)] = [] ++ [(demoMoment, appPush pack)] from rfl, runServer_concat, serve_db, hroute]
    exact httpReceiveDb_ok _ _ _ _ _ h4
  have hrepo : ∀ q ∈ [(demoMoment, appPush pack)], ∀ a, q.2.repo = some a → a = ascii "/app" := by
    intro q hq a ha
    rw [List.mem_singleton.1 hq] at ha
    unfold HttpReq.repo at ha
    rw [hroute] at ha
    exact (Option.some.inj ha).symm
  have conf := fun path => C90_confined_partial demoServer path [(demoMoment, appPush pack)] (by intro q hq; rw [List.mem_singleton.1 hq]; rfl)
    (by intro a ha b hb x y hx hy _ _; rw [hrepo a ha x hx, hrepo b hb y hy]) (by rw [e0]; exact app_unique objs)
  have hin : InRepo demoFold (runServer demoServer .empty [(demoMoment, appPush pack)]).db (ascii "/app") (.commit, appCommit.encode) := by
    rw [e0, ← e2]
    exact .commit r (commitsAt_mem.2 ⟨hr, by rw [e3]⟩)
  refine ⟨pack, hin, conf _ _ hin, fun o ho => ?_⟩
  obtain ⟨_, ⟨l1, m, q, l2, repo, file, e, hq, hf, _⟩, _⟩ := conf _ _ ho
  have hmem : (m, q) ∈ [(demoMoment, appPush pack)] := by rw [e]; simp
  rw [Prod.mk.inj (List.mem_singleton.1 hmem) |>.2, hroute] at hq
  cases hq
  exact absurd hf (by decide)

end Gust

import Verif.Props.SubClone
import Verif.Props.ConfinedExamples
import Verif.Props.NestingExamples

/-! # C110 on a concrete run, and where it fails -/

namespace Gust

open Spec (nodeObj StoreReach commitsAt InRepo)

/-- The pack of a push with one command. -/
theorem packPart_push {c : Spec.PushCmd} (hc : c.Ok) {caps : Bytes} (hl : caps.length ≤ 4000) (pack : Bytes) :
    Spec.packPart (Spec.pushBody c [] caps pack) = pack := by
  have e : Spec.pushBody c [] caps pack = Spec.frame (.line (Spec.firstCmdLine c caps)) ++ (Spec.frame .flush ++ pack) := by
    simp [Spec.pushBody, Spec.stream]
  unfold Spec.packPart
  rw [e, readPktLine_frame _ _ (firstCmdLine_fits c hc caps hl)]
  rfl

/-- The server after the push of the example repository, and after a discovery of a path below with the name `src`. -/
theorem app_below (sub : Bytes) (hfn : fileName sub = some (ascii "src")) (hne : sub ≠ ascii "/app") (hst : pathStartsWith sub (ascii "/app") = true)
    (hlike : demoSql.like sub (ascii "/app") = true) : ∃ (pack : Bytes) (p : Pack) (rep : Bytes) (st' : PushState Db) (refs : List RefRow) (k : Nat),
    (ascii "PACK").isPrefixOf pack = true ∧ decodePack polyExt (getHashObject polyExt demoSql Db.empty) 2 pack = .ok p ∧
    (∀ h m, p.result.hashObject h = some m ↔ m ∈ appObjects ∧ m.id = h) ∧
    (serve demoServer demoMoment .empty (appPush pack)).1 = .reply (.ok (.bytes rep)) ∧
    (runServer demoServer .empty [(demoMoment, appPush pack)]).db = st'.db ∧
    (∀ path, StoreRun polyExt demoFold path st'.db) ∧ (∀ o, StoredObj st'.db o → metaOf polyExt o ∈ appObjects) ∧
    (∃ r ∈ st'.db.commits, r.data = appCommit.encode ∧ r.repoPath = ascii "/app") ∧
    (∀ x, Spec.PackReach p.result.hashObject x → ∃ r ∈ st'.db.nodes, r.gitId = Hash.toPlainStr x) ∧
    st'.db.refs = [{ repoPath := ascii "/app", refName := ascii "refs/heads/master" ++ [0], refGitId := appCmd.new }] ∧
    (∀ c ∈ st'.db.commits, c.repoPath = ascii "/app") ∧
    getHeadObjectId polyExt demoSql st'.db sub = (.ok (Hash.toPlainStr (idOf polyExt (.commit, srcCommit.encode))),
      { st'.db with commits := st'.db.commits ++ [srcChild.row sub], refs := refs, inserts := k }) := by
  obtain ⟨pack, p, rep, st', h1, h2, h3, h4, q6, objs, hcom, reach⟩ := app_after (ascii "/zzz") (ascii "/app")
  have hruns : ∀ path, StoreRun polyExt demoFold path st'.db := by
    intro path
    obtain ⟨p', db1, g1, g2, g3, g4, _, q⟩ := push_run (path := path) .empty appCmd_ok (by decide) (by decide) h1 h4
    exact q
  obtain ⟨p', db1, g1, g2, g3, g4, _, _⟩ := push_run (path := ascii "/app") .empty appCmd_ok (by decide) (by decide) h1 h4
  rw [h2] at g1
  cases g1
  obtain ⟨p', k1, k2, _, _, _, k3⟩ := C26_durable_partial polyExt demoSql 2 (ascii "/app") Db.empty appCmd appCmd_ok (ascii "report-status") (by decide) (by decide) pack h1
    (fun _ _ => rfl) (fun _ _ => rfl) rep st' h4
  rw [h2] at k1
  cases k1
  have hrefs : st'.db.refs = [{ repoPath := ascii "/app", refName := ascii "refs/heads/master" ++ [0], refGitId := appCmd.new }] := by
    rcases k3 with ⟨_, q⟩ | ⟨q, _⟩
    · exact q
    · exact absurd (rfl : appCmd.old = zeroId) q
  obtain ⟨hex, hnamed⟩ := app_named_src h2 h3 g2
  rw [← g3] at hex hnamed
  have inv := storeRun_inv q6 (app_unique objs)
  -- the commit the ref names
  obtain ⟨cr, hcr, hcrf⟩ : ∃ cr, (demoSql.order (st'.db.commits.filter (fun c => demoSql.fold c.gitId == demoSql.fold appCmd.new))).head? = some cr ∧ cr.data = appCommit.encode := by
    obtain ⟨r, hr, e1, e2, e3⟩ := k2 (metaOf polyExt (.commit, appCommit.encode)) ((h3 _ _).2 ⟨by simp [appObjects, appThin], rfl⟩) rfl
    have hm : r ∈ demoSql.order (st'.db.commits.filter (fun c => demoSql.fold c.gitId == demoSql.fold appCmd.new)) :=
      List.mem_filter.2 ⟨hr, by rw [e1]; exact beq_self_eq_true _⟩
    cases hh : demoSql.order (st'.db.commits.filter (fun c => demoSql.fold c.gitId == demoSql.fold appCmd.new)) with
    | nil => rw [hh] at hm; cases hm
    | cons a l =>
      refine ⟨a, rfl, ?_⟩
      have ha : a ∈ demoSql.order (st'.db.commits.filter (fun c => demoSql.fold c.gitId == demoSql.fold appCmd.new)) := by rw [hh]; exact .head _
      have hm := objs _ (.inr ⟨a, (List.mem_filter.1 ha).1, rfl⟩)
      simp only [appObjects, appThin, appBlob, List.mem_append, List.mem_cons, List.not_mem_nil, or_false] at hm
      rcases hm with (h | h | h | h) | h
      · exact congrArg MetaData.data h
      all_goals exact absurd (congrArg MetaData.t h) (by simp [metaOf])
  -- the node that is found
  obtain ⟨root, hroot, hrootId⟩ : ∃ root, searchRootNode demoSql st'.db sub = .ok (some root) ∧ root.gitId = Hash.toPlainStr (idOf polyExt (.tree, encodeTree srcA)) := by
    obtain ⟨n, hn, e⟩ := hex
    have hm : n ∈ demoSql.order (st'.db.nodes.filter (fun n => demoSql.fold n.name == demoSql.fold (ascii "src"))) :=
      List.mem_filter.2 ⟨hn, by rw [e]; exact beq_self_eq_true _⟩
    cases hh : demoSql.order (st'.db.nodes.filter (fun n => demoSql.fold n.name == demoSql.fold (ascii "src"))) with
    | nil => rw [hh] at hm; cases hm
    | cons a l =>
      have ha : a ∈ demoSql.order (st'.db.nodes.filter (fun n => demoSql.fold n.name == demoSql.fold (ascii "src"))) := by rw [hh]; exact .head _
      obtain ⟨ha1, ha2⟩ := List.mem_filter.1 ha
      refine ⟨a, ?_, hnamed a ha1 (eq_of_beq ha2)⟩
      unfold searchRootNode
      rw [hfn]
      simp only [Res.unwrapOpt, Res.bind_ok, hh, List.head?_cons, Res.pure_eq]
  have hchild : buildFromModel polyExt cr root = .ok srcChild := by
    unfold buildFromModel
    rw [hcrf, appCommit_decode, show Hash.fromStr root.gitId = .ok (idOf polyExt (.tree, encodeTree srcA)) by rw [hrootId, Hash.fromStr, Hash.fromBytes_toPlainStr]; rfl]
    simp only [Res.unwrap_ok, Res.bind_ok]
    rw [show ({ appCommit with treeId := idOf polyExt (.tree, encodeTree srcA), parents := [] } : Commit) = srcCommit from rfl,
      new_metaOf polyExt (.commit, srcCommit.encode) rfl]
    rfl
  have hg : getHeadObjectId polyExt demoSql st'.db sub = (.ok (Hash.toPlainStr (idOf polyExt (.commit, srcCommit.encode))),
      insertRefs demoSql (chunks 100 1 [{ repoPath := sub, refName := ascii "refs/heads/master" ++ [0], refGitId := Hash.toPlainStr (idOf polyExt (.commit, srcCommit.encode)) }])
        (saveCommits demoSql [srcChild] sub st'.db)) := by
    unfold getHeadObjectId searchRefs
    rw [hrefs, show (demoSql.order ([({ repoPath := ascii "/app", refName := ascii "refs/heads/master" ++ [0], refGitId := appCmd.new } : RefRow)].filter
        (fun r => demoSql.like sub r.repoPath && demoSql.fold r.refName == demoSql.fold (ascii "refs/heads/master")))) =
        [{ repoPath := ascii "/app", refName := ascii "refs/heads/master" ++ [0], refGitId := appCmd.new }] from by
          rw [List.filter_cons_of_pos (by simp only [hlike, Bool.true_and]; decide +kernel)]; rfl]
    rw [List.find?_cons_of_neg (by simpa using hne), List.find?_nil, List.find?_cons_of_pos (by exact hst)]
    simp only
    unfold generateChild
    rw [hcr]
    simp only
    rw [hroot]
    simp only
    rw [hchild]
    rfl
  rw [saveChild_eq] at hg
  have hroute : route (appPush pack).method (appPush pack).path (appPush pack).service = .receivePack (ascii "/app") := route_push app_clean_url (.inr rfl)
  have e0 : (runServer demoServer .empty [(demoMoment, appPush pack)]).db = st'.db := by
    rw [show [(demoMoment, appPush pack)] = [] ++ [(demoMoment, appPush pack)] from rfl, runServer_concat, serve_db, hroute]
    exact httpReceiveDb_ok _ _ _ _ _ h4
  have h4' : httpReceivePack (mysqlPush demoServer.X demoMoment.sql demoMoment.fuel) { caps := [], commands := [], path := ascii "/app", db := ServerState.empty.db }
      (appPush pack).body = .ok (rep, st') := h4
  refine ⟨pack, p, rep, st', _, _, h1, h2, h3, ?_, e0, hruns, objs, hcom, reach, hrefs, ?_, hg⟩
  · unfold serve
    rw [hroute]
    simp only [h4']
    rfl
  · intro x hx
    rw [g4] at hx
    obtain ⟨rows, _, _, _, w⟩ := push_effect h2 demoSql 2 (ascii "/app") Db.empty
    rw [g2] at w
    rcases w x hx with w | w
    · cases w
    · exact w.1

theorem dirAt_here {find : Hash → Option MetaData} {h x : Hash} (hd : Spec.DirAt find h [] x) : x = h := by
  cases hd
  rfl

/-- What is stored after the discovery. -/
theorem app_below_objs {db : Db} {sub : Bytes} {refs : List RefRow} {k : Nat} (objs : ∀ o, StoredObj db o → metaOf polyExt o ∈ appObjects) :
    ∀ o, StoredObj { db with commits := db.commits ++ [srcChild.row sub], refs := refs, inserts := k } o → metaOf polyExt o ∈ libObjects := by
  rintro o (⟨n, hn, rfl⟩ | ⟨r, hr, rfl⟩)
  · exact List.mem_append_left _ (objs _ (.inl ⟨n, hn, rfl⟩))
  · rcases List.mem_append.1 hr with hr | hr
    · exact List.mem_append_left _ (objs _ (.inr ⟨r, hr, rfl⟩))
    · rw [List.mem_singleton.1 hr]
      exact List.mem_append_right _ (.head _)

/-- The example repository is pushed to `/app`, somebody clones it; what there is in the clone, and what a discovery of `/app/src` does after that. -/
theorem app_first : ∃ (pack : Bytes) (p : Pack) (rep : Bytes) (st' : PushState Db) (refs : List RefRow) (ins : Nat) (outA file' : Bytes) (qA : Pack),
    (ascii "PACK").isPrefixOf pack = true ∧ decodePack polyExt (getHashObject polyExt demoSql Db.empty) 2 pack = .ok p ∧
    (∀ h m, p.result.hashObject h = some m ↔ m ∈ appObjects ∧ m.id = h) ∧
    (serve demoServer demoMoment .empty (appPush pack)).1 = .reply (.ok (.bytes rep)) ∧
    (runServer demoServer .empty [(demoMoment, appPush pack)]).db = st'.db ∧ (∀ o, StoredObj st'.db o → metaOf polyExt o ∈ appObjects) ∧
    st'.db.refs = [{ repoPath := ascii "/app", refName := ascii "refs/heads/master" ++ [0], refGitId := appCmd.new }] ∧
    getHeadObjectId polyExt demoSql st'.db (ascii "/app/src") = (.ok (Hash.toPlainStr (idOf polyExt (.commit, srcCommit.encode))),
      { st'.db with commits := st'.db.commits ++ [srcChild.row (ascii "/app/src")], refs := refs, inserts := ins }) ∧
    (∀ s : ServerState, s.db = st'.db → (serve demoServer { demoMoment with fuel := st'.db.nodes.length } s
      (Spec.fetchReq (ascii "/app" ++ []) (doneBody cloneLines (ascii "\n") []))).1 = .reply (.ok (.bytes outA))) ∧
    Spec.readClone outA = some file' ∧ decodePack polyExt (fun _ => none) 1 file' = .ok qA ∧
    qA.result.hashObject (idOf polyExt (.commit, appCommit.encode)) = some (metaOf polyExt (.commit, appCommit.encode)) ∧
    qA.result.hashObject (metaOf polyExt (.tree, encodeTree appItems)).id = some (metaOf polyExt (.tree, encodeTree appItems)) ∧
    qA.result.hashObject (metaOf polyExt (.tree, encodeTree srcA)).id = some (metaOf polyExt (.tree, encodeTree srcA)) ∧
    qA.result.hashObject appBlob.id = some appBlob ∧
    Spec.DirAt qA.result.hashObject appCommit.treeId ([] ++ [ascii "src"]) (idOf polyExt (.tree, encodeTree srcA)) ∧
    (∀ x, Spec.DirAt qA.result.hashObject appCommit.treeId ([] ++ [ascii "src"]) x → x = idOf polyExt (.tree, encodeTree srcA)) ∧
    (∀ o items i, p.result.hashObject o.id = some o → o.t = .tree → decodeTree o.data = .ok items → i ∈ items →
      (demoFold i.filename = demoFold (ascii "src") ↔ i.id = idOf polyExt (.tree, encodeTree srcA))) ∧
    ∀ o c, p.result.hashObject o.id = some o → o.t = .commit → Commit.decode o.data = .ok c → c.treeId ≠ idOf polyExt (.tree, encodeTree srcA) := by
  obtain ⟨pack, p, rep, st', refs, ins, h1, h2, h3, hpush, e0, hruns, objs, ⟨r, hr, er, ep⟩, reach, hrefs, hold, hg⟩ :=
    app_below (ascii "/app/src") (by decide) (by decide) (by decide) (by decide +kernel)
  have there : ∀ m ∈ appThin, p.result.hashObject m.id = some m := fun m hm => (h3 _ _).2 ⟨appThin_sub m hm, rfl⟩
  have hab : ∀ h : List (Moment × HttpReq), (∀ q ∈ h, q.2.repo = some (ascii "/app") ∨ q.2.repo = some (ascii "/app/src")) → Spec.NoneAbove demoFold (ascii "/app") h := by
    intro h hh a ha b hb x y hx hy hf hs
    have hy' : y = ascii "/app" := by
      rcases hh b hb with e | e <;> rw [e] at hy <;> cases hy
      · rfl
      · exact absurd hf (by decide)
    subst hy'
    rcases hh a ha with e | e <;> rw [e] at hx <;> cases hx
    · rfl
    · exact absurd hs (by decide)
  have hrp : (appPush pack).repo = some (ascii "/app") := by
    unfold HttpReq.repo
    rw [show route (appPush pack).method (appPush pack).path (appPush pack).service = .receivePack (ascii "/app") from route_push app_clean_url (.inr rfl)]
    rfl
  obtain ⟨k, hk⟩ : ∃ k, k = st'.db.nodes.length := ⟨_, rfl⟩
  -- the first clone
  have hfl1 : Spec.SameFold demoFold [(demoMoment, appPush pack)] := by
    intro q hq
    rw [List.mem_singleton.1 hq]
    rfl
  have hab1 : Spec.NoneAbove demoFold (ascii "/app") [(demoMoment, appPush pack)] := hab _ (by intro q hq; rw [List.mem_singleton.1 hq]; exact .inl hrp)
  obtain ⟨outA, fileA, msA, c1, c2, c3, c4⟩ := C78_clone_stack_partial demoServer demoFold_hash (ascii "/app") [] app_clean_url (.inl rfl) [(demoMoment, appPush pack)]
    { demoMoment with fuel := k } hfl1 rfl hab1 (by rw [e0]; exact app_unique objs) (by rw [e0]; exact app_fits objs) (by rw [e0]; exact Nat.le_of_eq hk.symm)
    (by rw [e0]; exact List.ne_nil_of_mem (commitsAt_mem.2 ⟨hr, by rw [ep]⟩)) (fun _ _ => .rfl) demoCut_ok cloneLines (ascii "\n") [] cloneLines_ok
  obtain ⟨p', file', ms, d1, d2, d3, d4⟩ := C78_push_then_clone_partial demoServer demoFold_hash (ascii "/app") (ascii ".git") [] app_clean_url (.inr rfl) (.inl rfl) [] [] demoMoment
    { demoMoment with fuel := k } appCmd appCmd_ok (ascii "report-status") (by decide) (by decide) pack h1 (appPush pack) rfl hfl1 rfl hab1 (fun _ _ => rfl) rep hpush
    (by intro q hq; cases hq) (by rw [List.nil_append, List.append_nil, e0]; exact app_unique objs) (by rw [List.nil_append, List.append_nil, e0]; exact app_fits objs)
    (fun _ _ => .rfl) demoCut_ok cloneLines (ascii "\n") [] cloneLines_ok outA c1
  rw [show decodePack demoServer.X (getHashObject demoServer.X demoMoment.sql (runServer demoServer .empty []).db) demoMoment.fuel pack = .ok p from h2] at d1
  cases d1
  obtain ⟨qA, q1, _, q2⟩ := d3.2 (fun _ => none) 0
  have inA : ∀ m ∈ appObjects, m.t = .commit ∨ Spec.PackReach p.result.hashObject m.id → qA.result.hashObject m.id = some m :=
    fun m hm hx => (q2 _ _).2 ⟨(d4 m).2 (.inr ⟨(h3 _ _).2 ⟨hm, rfl⟩, hx⟩), rfl⟩
  have inA' : ∀ x m, qA.result.hashObject x = some m → m ∈ appObjects := by
    intro x m hx
    rcases (d4 m).1 ((q2 _ _).1 hx).1 with ⟨o, ho, e⟩ | ⟨ho, _⟩
    · cases ho with
      | commit r hr => cases (commitsAt_mem.1 hr).1
      | node r c y n hr => cases (commitsAt_mem.1 hr).1
    · exact ((h3 _ _).1 ho).1
  have onlyA : ∀ m ∈ appObjects, ∀ x, x.id = m.id → qA.result.hashObject x.id = some x → x = m := by
    intro m hm x e hx
    exact List.inj_on_of_nodup_map appObjects_ids (inA' _ _ hx) hm e
  have fA : qA.result.hashObject (idOf polyExt (.commit, appCommit.encode)) = some (metaOf polyExt (.commit, appCommit.encode)) :=
    inA (metaOf polyExt (.commit, appCommit.encode)) (by simp [appObjects, appThin]) (.inl rfl)
  have fT : qA.result.hashObject (metaOf polyExt (.tree, encodeTree appItems)).id = some (metaOf polyExt (.tree, encodeTree appItems)) :=
    inA _ (by simp [appObjects, appThin]) (.inr (app_root there))
  have fS : qA.result.hashObject (metaOf polyExt (.tree, encodeTree srcA)).id = some (metaOf polyExt (.tree, encodeTree srcA)) :=
    inA _ (by simp [appObjects, appThin]) (.inr (app_src there))
  have fB : qA.result.hashObject appBlob.id = some appBlob := inA _ (by simp [appObjects]) (.inr (app_blob there))
  have hd : Spec.DirAt qA.result.hashObject appCommit.treeId ([] ++ [ascii "src"]) (idOf polyExt (.tree, encodeTree srcA)) :=
    .down (metaOf polyExt (.tree, encodeTree appItems)) appItems (dirItem "src" (idOf polyExt (.tree, encodeTree srcA))) [] _ fT rfl appItems_decode (by simp [appItems]) rfl
      (.here (metaOf polyExt (.tree, encodeTree srcA)) fS rfl)
  have hd1 : ∀ x, Spec.DirAt qA.result.hashObject appCommit.treeId ([] ++ [ascii "src"]) x → x = idOf polyExt (.tree, encodeTree srcA) := by
    intro x hx
    generalize hl : ([] : List Bytes) ++ [ascii "src"] = l at hx
    generalize ht : appCommit.treeId = y at hx
    cases hx with
    | here => cases hl
    | down t items i path x e1 e2 e3 e4 e5 e6 =>
      have := onlyA (metaOf polyExt (.tree, encodeTree appItems)) (by simp [appObjects, appThin]) t ht.symm e1
      subst this
      rw [show decodeTree (metaOf polyExt (.tree, encodeTree appItems)).data = .ok appItems from appItems_decode] at e3
      cases e3
      simp only [List.nil_append, List.cons.injEq] at hl
      obtain ⟨l1, rfl⟩ := hl
      simp only [appItems, List.mem_cons, List.not_mem_nil, or_false] at e4
      rcases e4 with rfl | rfl
      · exact absurd l1 (by decide)
      · exact dirAt_here e6
  have hall : ∀ s : ServerState, s.db = st'.db → (serve demoServer { demoMoment with fuel := st'.db.nodes.length } s
      (Spec.fetchReq (ascii "/app" ++ []) (doneBody cloneLines (ascii "\n") []))).1 = .reply (.ok (.bytes outA)) := by
    intro s hs
    rw [← c1, hk]
    simp only [serve, Spec.fetchReq, route_fetch app_clean_url (.inl rfl), hs, e0]
  refine ⟨pack, p, rep, st', refs, ins, outA, file', qA, h1, h2, h3, hpush, e0, objs, hrefs, hg, hall, d2, q1, fA, fT, fS, fB, hd, hd1, ?_⟩
  constructor
  · intro o items i ho ht hdt hi
    have hm := ((h3 _ _).1 ho).1
    simp only [appObjects, appThin, appBlob, List.mem_append, List.mem_cons, List.not_mem_nil, or_false] at hm
    rcases hm with (rfl | rfl | rfl | rfl) | rfl
    · cases ht
    · rw [show decodeTree (metaOf polyExt (.tree, encodeTree appItems)).data = .ok appItems from appItems_decode] at hdt
      cases hdt
      revert i
      decide +kernel
    · rw [show decodeTree (metaOf polyExt (.tree, encodeTree srcA)).data = .ok srcA from srcA_decode] at hdt
      cases hdt
      revert i
      decide +kernel
    · cases ht
    · cases ht
  · intro o c ho ht hdc
    have hm := ((h3 _ _).1 ho).1
    simp only [appObjects, appThin, appBlob, List.mem_append, List.mem_cons, List.not_mem_nil, or_false] at hm
    rcases hm with (rfl | rfl | rfl | rfl) | rfl
    · rw [show Commit.decode (metaOf polyExt (.commit, appCommit.encode)).data = .ok appCommit from appCommit_decode] at hdc
      cases hdc
      decide +kernel
    all_goals cases ht

/-- The example repository is pushed to `/app`, somebody discovers `/app/src` and clones it. -/
theorem app_sub_run : ∃ (pack : Bytes) (m : Moment) (outD : Bytes) (id : Hash) (refs : List (Bytes × Bytes)) (outB fileB : Bytes) (qB : Pack),
    (serve demoServer demoMoment (runServer demoServer .empty [(demoMoment, appPush pack)]) (Spec.refsReq (ascii "/app/src" ++ []) .uploadPack)).1 = .reply (.ok (.bytes outD)) ∧
    Spec.Shows .uploadPack outD (Hash.toPlainStr id) refs ∧
    (serve demoServer m (runServer demoServer .empty ([(demoMoment, appPush pack)] ++ [(demoMoment, Spec.refsReq (ascii "/app/src" ++ []) .uploadPack)] ++ []))
      (Spec.fetchReq (ascii "/app/src" ++ []) (doneBody cloneLines (ascii "\n") []))).1 = .reply (.ok (.bytes outB)) ∧
    Spec.readClone outB = some fileB ∧ decodePack polyExt (fun _ => none) 1 fileB = .ok qB ∧
    Spec.CheckedOut qB.result.hashObject id [ascii "a"] (ascii "100644") (ascii "one") ∧
    ∃ oB, qB.result.hashObject id = some oB ∧ oB.data = Commit.encode { appCommit with treeId := idOf polyExt (.tree, encodeTree srcA), parents := [] } := by
  obtain ⟨pack, p, rep, st', refs, ins, outA, file', qA, h1, h2, h3, hpush, e0, objs, hrefs, hg, c1, d2, q1, fA, fT, fS, fB, hd, hd1, hcalled⟩ := app_first
  have hab : ∀ h : List (Moment × HttpReq), (∀ q ∈ h, q.2.repo = some (ascii "/app") ∨ q.2.repo = some (ascii "/app/src")) → Spec.NoneAbove demoFold (ascii "/app") h := by
    intro h hh a ha b hb x y hx hy hf hs
    have hy' : y = ascii "/app" := by
      rcases hh b hb with e | e <;> rw [e] at hy <;> cases hy
      · rfl
      · exact absurd hf (by decide)
    subst hy'
    rcases hh a ha with e | e <;> rw [e] at hx <;> cases hx
    · rfl
    · exact absurd hs (by decide)
  have hrp : (appPush pack).repo = some (ascii "/app") := by
    unfold HttpReq.repo
    rw [show route (appPush pack).method (appPush pack).path (appPush pack).service = .receivePack (ascii "/app") from route_push app_clean_url (.inr rfl)]
    rfl
  have hsubc : Spec.CleanUrl (ascii "/app/src") := ⟨by decide, by decide, by decide, by decide⟩
  have hrd : (Spec.refsReq (ascii "/app/src" ++ []) .uploadPack).repo = some (ascii "/app/src") := by
    unfold HttpReq.repo
    rw [show route (Spec.refsReq (ascii "/app/src" ++ []) .uploadPack).method (Spec.refsReq (ascii "/app/src" ++ []) .uploadPack).path
      (Spec.refsReq (ascii "/app/src" ++ []) .uploadPack).service = .infoRefs (ascii "/app/src") .uploadPack from route_discover hsubc (.inl rfl) .uploadPack]
    rfl
  have hdb : (runServer demoServer .empty ([(demoMoment, appPush pack)] ++ [(demoMoment, Spec.refsReq (ascii "/app/src" ++ []) .uploadPack)] ++ [])).db =
      { st'.db with commits := st'.db.commits ++ [srcChild.row (ascii "/app/src")], refs := refs, inserts := ins } := by
    rw [List.append_nil, runServer_concat, serve_db,
      show route (Spec.refsReq (ascii "/app/src" ++ []) .uploadPack).method (Spec.refsReq (ascii "/app/src" ++ []) .uploadPack).path
      (Spec.refsReq (ascii "/app/src" ++ []) .uploadPack).service = .infoRefs (ascii "/app/src") .uploadPack from route_discover hsubc (.inl rfl) .uploadPack]
    simp only
    rw [e0]
    exact congrArg Prod.snd hg
  have objsD := app_below_objs (sub := ascii "/app/src") (refs := refs) (k := ins) objs
  have honly : Spec.OnlyCalled demoServer [(demoMoment, appPush pack)] (ascii "src") (idOf polyExt (.tree, encodeTree srcA)) := by
    rintro a p' ⟨g1, m', r', g2, repo, file, e, hroute, _, rfl, hdec⟩
    cases g1 with
    | cons x g1 => simp at e
    | nil =>
      cases e
      rw [show Spec.packPart (appPush pack).body = pack from packPart_push appCmd_ok (by decide) pack] at hdec
      have hdec' : decodePack polyExt (getHashObject polyExt demoSql Db.empty) 2 pack = .ok p' := hdec
      rw [h2] at hdec'
      cases hdec'
      exact hcalled
  obtain ⟨outD, id, refsD, outB, fileB, w1, w2, w3, w4, w5⟩ := sub_clone demoServer demoFold_hash [ascii "app"] [] (ascii "src") (ascii "/app") (ascii "/app/src")
    (by decide) (by decide) (by intro d hd; simp only [List.append_nil, List.cons_append, List.nil_append, List.mem_cons, List.not_mem_nil, or_false] at hd; rcases hd with rfl | rfl <;> exact ⟨by decide, by decide, by decide⟩)
    (by decide) (by decide) app_clean_url hsubc (by decide) [] [] [] (.inl rfl) (.inl rfl) (.inl rfl) [(demoMoment, appPush pack)] [] { demoMoment with fuel := st'.db.nodes.length } demoMoment
    { demoMoment with fuel := st'.db.nodes.length } .uploadPack
    (by intro q hq; simp only [List.append_nil, List.cons_append, List.nil_append, List.mem_cons, List.not_mem_nil, or_false] at hq; rcases hq with rfl | rfl <;> rfl) rfl rfl
    (hab _ (by
      intro q hq
      rw [List.append_nil] at hq
      rcases List.mem_append.1 hq with hq | hq <;> rw [List.mem_singleton.1 hq]
      · exact .inl hrp
      · exact .inr hrd))
    (by intro q hq a ha _; rw [List.mem_singleton.1 hq, hrp] at ha; cases ha; rfl)
    (by intro q hq a ha; rw [List.append_nil] at hq; rw [List.mem_singleton.1 hq, hrp] at ha; cases ha; decide)
    (by rw [e0, Spec.HasMaster, hrefs]; exact ⟨_, .head _, rfl, by unfold Spec.isMaster; decide⟩) (idOf polyExt (.commit, appCommit.encode))
    (by
      rw [e0, hrefs]
      intro r hr _ _
      rw [List.mem_singleton.1 hr]
      exact ⟨rfl, by decide +kernel, by decide +kernel, by decide, by decide⟩) (fun _ _ => rfl)
    (by rw [hdb]; exact few_unique libObjects_ids objsD) (by rw [hdb]; exact few_fits (l := libObjects) (by decide) (by decide +kernel) objsD)
    (by rw [hdb]) (fun _ _ => .rfl) demoCut_ok cloneLines (ascii "\n") [] cloneLines_ok outA file' (c1 _ e0) d2 (fun _ => none) 0 qA q1
    _ fA rfl appCommit appCommit_decode _ hd hd1 honly (fun _ _ => .rfl) demoCut_ok cloneLines (ascii "\n") [] cloneLines_ok
  obtain ⟨qB, b1, ⟨oB, _, y1, _, _, _, _, _, y2, _⟩, b3⟩ := w5 (fun _ => none) 0
  refine ⟨pack, _, outD, id, refsD, outB, fileB, qB, w1, w2, w3, w4, b1, (b3 _ _ _ _).2 ⟨_, appCommit, rfl, fA, rfl, appCommit_decode, ?_⟩, oB, y1, y2⟩
  refine .dir (metaOf polyExt (.tree, encodeTree appItems)) appItems (dirItem "src" (idOf polyExt (.tree, encodeTree srcA))) _ _ _ fT rfl appItems_decode (by simp [appItems]) rfl ?_
  exact .file (metaOf polyExt (.tree, encodeTree srcA)) appBlob srcA (fileItem "a" (polyId .blob (ascii "one"))) fS rfl srcA_decode
    (by simp [srcA]) (by decide) rfl fB rfl

/-- C110 at work: the example repository is pushed to `/app`, somebody discovers `/app/src` and clones it: the clone has the file `a` with the content `one`. -/
example : ∃ (pack : Bytes) (m : Moment) (outD : Bytes) (id : Hash) (refs : List (Bytes × Bytes)) (outB fileB : Bytes) (qB : Pack),
    (serve demoServer demoMoment (runServer demoServer .empty [(demoMoment, appPush pack)]) (Spec.refsReq (ascii "/app/src" ++ []) .uploadPack)).1 = .reply (.ok (.bytes outD)) ∧
    Spec.Shows .uploadPack outD (Hash.toPlainStr id) refs ∧
    (serve demoServer m (runServer demoServer .empty ([(demoMoment, appPush pack)] ++ [(demoMoment, Spec.refsReq (ascii "/app/src" ++ []) .uploadPack)] ++ []))
      (Spec.fetchReq (ascii "/app/src" ++ []) (doneBody cloneLines (ascii "\n") []))).1 = .reply (.ok (.bytes outB)) ∧
    Spec.readClone outB = some fileB ∧ decodePack polyExt (fun _ => none) 1 fileB = .ok qB ∧
    Spec.CheckedOut qB.result.hashObject id [ascii "a"] (ascii "100644") (ascii "one") := by
  obtain ⟨pack, m, outD, id, refs, outB, fileB, qB, h1, h2, h3, h4, h5, h6, _⟩ := app_sub_run
  exact ⟨pack, m, outD, id, refs, outB, fileB, qB, h1, h2, h3, h4, h5, h6⟩

/-- **C110 is false** for a path that is no directory of the repository: in the example repository at `/app`, `b` is a file. But HEAD of `/app/b/src` is shown, and a clone of it is
answered, with the file of the directory `src`: only the last name of the path is looked at. -/
theorem C110_nowhere_false : ∃ (pack : Bytes) (p : Pack) (m : Moment) (head out file : Bytes) (id : Hash) (q : Pack),
    decodePack polyExt (getHashObject polyExt demoSql Db.empty) 2 pack = .ok p ∧
    (∀ path mode data, ¬ Spec.CheckedOut p.result.hashObject (idOf polyExt (.commit, appCommit.encode)) (ascii "b" :: ascii "src" :: path) mode data) ∧
    (getHeadObjectId polyExt demoSql (runServer demoServer .empty [(demoMoment, appPush pack)]).db (ascii "/app/b/src")).1 = .ok head ∧ head = Hash.toPlainStr id ∧
    (serve demoServer m (runServer demoServer .empty [(demoMoment, appPush pack), (demoMoment, Spec.refsReq (ascii "/app/b/src" ++ []) .uploadPack)])
      (Spec.fetchReq (ascii "/app/b/src" ++ []) (doneBody cloneLines (ascii "\n") []))).1 = .reply (.ok (.bytes out)) ∧
    Spec.readClone out = some file ∧ decodePack polyExt (fun _ => none) 1 file = .ok q ∧
    Spec.CheckedOut q.result.hashObject id [ascii "a"] (ascii "100644") (ascii "one") := by
  obtain ⟨pack, p, rep, st', refs, ins, h1, h2, h3, hpush, e0, hruns, objs, _, reach, hrefs, hold, hg⟩ :=
    app_below (ascii "/app/b/src") (by decide) (by decide) (by decide) (by decide +kernel)
  have there : ∀ m ∈ appThin, p.result.hashObject m.id = some m := fun m hm => (h3 _ _).2 ⟨appThin_sub m hm, rfl⟩
  have find : ∀ m ∈ appObjects, p.result.hashObject m.id = some m := fun m hm => (h3 _ _).2 ⟨hm, rfl⟩
  have hsubc : Spec.CleanUrl (ascii "/app/b/src") := ⟨by decide, by decide, by decide, by decide⟩
  have inv := storeRun_inv (hruns (ascii "/app")) (app_unique objs)
  obtain ⟨D, hD⟩ : ∃ D : Db, D = { st'.db with commits := st'.db.commits ++ [srcChild.row (ascii "/app/b/src")], refs := refs, inserts := ins } := ⟨_, rfl⟩
  rw [← hD] at hg
  have hDn : D.nodes = st'.db.nodes := by rw [hD]
  have hDc : D.commits = st'.db.commits ++ [srcChild.row (ascii "/app/b/src")] := by rw [hD]
  have hdb : (runServer demoServer .empty [(demoMoment, appPush pack), (demoMoment, Spec.refsReq (ascii "/app/b/src" ++ []) .uploadPack)]).db = D := by
    rw [show [(demoMoment, appPush pack), (demoMoment, Spec.refsReq (ascii "/app/b/src" ++ []) .uploadPack)] =
      [(demoMoment, appPush pack)] ++ [(demoMoment, Spec.refsReq (ascii "/app/b/src" ++ []) .uploadPack)] from rfl, runServer_concat, serve_db,
      show route (Spec.refsReq (ascii "/app/b/src" ++ []) .uploadPack).method (Spec.refsReq (ascii "/app/b/src" ++ []) .uploadPack).path
      (Spec.refsReq (ascii "/app/b/src" ++ []) .uploadPack).service = .infoRefs (ascii "/app/b/src") .uploadPack from route_discover hsubc (.inl rfl) .uploadPack]
    simp only
    rw [e0]
    exact congrArg Prod.snd hg
  have objsD : ∀ o, StoredObj D o → metaOf polyExt o ∈ libObjects := by rw [hD]; exact app_below_objs objs
  have hu := few_unique libObjects_ids objsD
  have hfit := few_fits (l := libObjects) (by decide) (by decide +kernel) objsD
  have hrunC := StoreRun.head demoSql (ascii "/app/b/src") st'.db (hruns (ascii "/zzz")) rfl (.inl (by decide))
  rw [hg] at hrunC
  obtain ⟨hS, _⟩ := storeRun_ok (E := demoSql) hrunC hu rfl demoFold_hash
  have hat : ∀ r, r ∈ commitsAt demoFold D.commits (ascii "/app/b/src") → r = srcChild.row (ascii "/app/b/src") := by
    intro r hr
    obtain ⟨a, b⟩ := commitsAt_mem.1 hr
    rw [hDc] at a
    rcases List.mem_append.1 a with a | a
    · rw [hold r a] at b
      exact absurd b (by decide)
    · exact List.mem_singleton.1 a
  have hr : srcChild.row (ascii "/app/b/src") ∈ commitsAt demoFold D.commits (ascii "/app/b/src") :=
    commitsAt_mem.2 ⟨by rw [hDc]; exact List.mem_append_right _ (.head _), rfl⟩
  obtain ⟨nt, hnt, ent⟩ := reach _ (app_src there)
  obtain ⟨nb, hnb, enb⟩ := reach _ (app_blob there)
  have found : ∀ n ∈ st'.db.nodes, ∀ m ∈ appObjects, n.gitId = Hash.toPlainStr m.id → metaOf polyExt (nodeObj n) = m := by
    intro n hn m hm e
    rw [inv.id n hn] at e
    exact List.inj_on_of_nodup_map appObjects_ids (objs _ (.inl ⟨n, hn, rfl⟩)) hm (Hash.toPlainStr_injective e)
  have ntObj := found nt hnt (metaOf polyExt (.tree, encodeTree srcA)) (by simp [appObjects, appThin]) ent
  have nbObj := found nb hnb appBlob (by simp [appObjects]) enb
  have ntTree : nt.nodeType = ascii "tree" := by
    rcases inv.type nt hnt with h | h
    · exact h
    · rw [nodeObj_blob (by rw [h]; decide)] at ntObj
      exact absurd (congrArg MetaData.t ntObj) (by simp [metaOf])
  have ntData : nt.data = encodeTree srcA := by
    rw [nodeObj_tree ntTree] at ntObj
    exact congrArg MetaData.data ntObj
  have hR : RootsOk demoSql D (ascii "/app/b/src") := by
    intro r hr
    rw [hat r hr]
    exact ⟨srcCommit, srcCommit_decode, nt, by rw [hDn]; exact hnt, ent, ntTree⟩
  have inT : InRepo demoFold D (ascii "/app/b/src") (nodeObj nt) := .node _ srcCommit _ nt hr srcCommit_decode .refl (by rw [hDn]; exact hnt) ent
  have inB : InRepo demoFold D (ascii "/app/b/src") (nodeObj nb) :=
    .node _ srcCommit _ nb hr srcCommit_decode
      (.item nt _ srcA (fileItem "a" (polyId .blob (ascii "one"))) .refl (by rw [hDn]; exact hnt) ent ntTree (by rw [ntData]; exact srcA_decode) (by simp [srcA]))
      (by rw [hDn]; exact hnb) enb
  obtain ⟨file, ms, f1, f2, f3⟩ := full_clone hS hR hfit (fuel := 2) (fun r _ c _ => by rw [hDn]; exact app_nested objs inv.id c.treeId) (List.ne_nil_of_mem hr)
  have f1' : getFullPack demoServer.X demoMoment.sql demoMoment.fuel (runServer demoServer .empty
      [(demoMoment, appPush pack), (demoMoment, Spec.refsReq (ascii "/app/b/src" ++ []) .uploadPack)]).db (ascii "/app/b/src") = .ok file := by rw [hdb]; exact f1
  have hfetch : ∃ out, (serve demoServer demoMoment (runServer demoServer .empty [(demoMoment, appPush pack), (demoMoment, Spec.refsReq (ascii "/app/b/src" ++ []) .uploadPack)])
      (Spec.fetchReq (ascii "/app/b/src" ++ []) (doneBody cloneLines (ascii "\n") []))).1 = .reply (.ok (.bytes out)) ∧ Spec.readClone out = some file := by
    simp only [serve, Spec.fetchReq, route_fetch hsubc (.inl rfl)]
    obtain ⟨out, ho⟩ := httpUploadPack_ok (St := mysqlFetch demoServer.X demoMoment.sql demoMoment.fuel
      (runServer demoServer .empty [(demoMoment, appPush pack), (demoMoment, Spec.refsReq (ascii "/app/b/src" ++ []) .uploadPack)]).db (ascii "/app/b/src"))
      (ord := demoMoment.ord) (fun _ _ => .rfl) (cut := demoMoment.cut) (rest := []) cloneLines_ok f1'
    refine ⟨out, by rw [ho]; rfl, ?_⟩
    obtain ⟨file', g1, g2⟩ := httpUploadPack_clone (fun _ _ => .rfl) demoCut_ok cloneLines_ok ho
    have g1 : getFullPack demoServer.X demoMoment.sql demoMoment.fuel (runServer demoServer .empty
      [(demoMoment, appPush pack), (demoMoment, Spec.refsReq (ascii "/app/b/src" ++ []) .uploadPack)]).db (ascii "/app/b/src") = .ok file' := g1
    rw [f1'] at g1
    cases g1
    exact g2
  obtain ⟨out, ho1, ho2⟩ := hfetch
  obtain ⟨q, q1, _, q2⟩ := f2.2 (fun _ => none) 0
  have fC : q.result.hashObject (idOf polyExt (.commit, srcCommit.encode)) = some (metaOf polyExt (.commit, srcCommit.encode)) :=
    (q2 _ _).2 ⟨(f3 _).2 ⟨_, .commit _ hr, rfl⟩, rfl⟩
  have fS : q.result.hashObject (metaOf polyExt (.tree, encodeTree srcA)).id = some (metaOf polyExt (.tree, encodeTree srcA)) :=
    (q2 _ _).2 ⟨(f3 _).2 ⟨_, inT, ntObj.symm⟩, rfl⟩
  have fB : q.result.hashObject appBlob.id = some appBlob := (q2 _ _).2 ⟨(f3 _).2 ⟨_, inB, nbObj.symm⟩, rfl⟩
  refine ⟨pack, p, demoMoment, _, out, file, _, q, h2, ?_, by rw [e0, hg], rfl, ho1, ho2, q1, ?_⟩
  · rintro path mode data ⟨o, c, hid, k1, _, k2, k3⟩
    have hc := find (metaOf polyExt (.commit, appCommit.encode)) (by simp [appObjects, appThin])
    rw [show (metaOf polyExt (.commit, appCommit.encode)).id = idOf polyExt (.commit, appCommit.encode) from rfl, k1, Option.some.injEq] at hc
    subst hc
    rw [show Commit.decode (metaOf polyExt (.commit, appCommit.encode)).data = .ok appCommit from appCommit_decode] at k2
    cases k2
    generalize ht : appCommit.treeId = y at k3
    generalize hl : ascii "b" :: ascii "src" :: path = l at k3
    cases k3 with
    | file => simp at hl
    | dir t items i path' mode data e1 e2 e3 e4 e5 e6 =>
      rw [← ht, show appCommit.treeId = (metaOf polyExt (.tree, encodeTree appItems)).id from rfl, find _ (by simp [appObjects, appThin]), Option.some.injEq] at e1
      subst e1
      rw [show decodeTree (metaOf polyExt (.tree, encodeTree appItems)).data = .ok appItems from appItems_decode] at e3
      cases e3
      simp only [List.cons.injEq] at hl
      simp only [appItems, List.mem_cons, List.not_mem_nil, or_false] at e4
      rcases e4 with rfl | rfl
      · exact absurd e5 (by decide)
      · exact absurd hl.1 (by decide)
  · refine ⟨_, srcCommit, rfl, fC, rfl, srcCommit_decode, ?_⟩
    exact .file (metaOf polyExt (.tree, encodeTree srcA)) appBlob srcA (fileItem "a" (polyId .blob (ascii "one"))) fS rfl srcA_decode
      (by simp [srcA]) (by decide) rfl fB rfl

end Gust

import Verif.Lemmas.NodeNames
import Verif.Props.ServerExamples

/-! # C77, C55: discovery of a path below a repository which is a file there -/

namespace Gust

open Spec (nodeObj StoreReach commitsAt InRepo)

/-- The blob `b`. -/
def appTwo : Hash := idOf polyExt (.blob, ascii "two")

/-- The names and ids of the rows stored by the push of the example repository. -/
theorem app_named {St : ObjectSource} {fuel0 fuel : Nat} {file path : Bytes} {p : Pack} {E : SqlExt} {db' : Db} (hdec : decodePack polyExt St fuel0 file = .ok p)
    (hobj : ∀ h m, p.result.hashObject h = some m ↔ m ∈ appObjects ∧ m.id = h) (hs : savePackfile E fuel p path Db.empty = (.ok (), db')) :
    (∀ x, Spec.PackReach p.result.hashObject x → ∃ n ∈ db'.nodes, n.gitId = Hash.toPlainStr x) ∧
    ∀ r ∈ db'.nodes, (r.name = [] ∧ r.gitId = Hash.toPlainStr (idOf polyExt (.tree, encodeTree appItems))) ∨
      (r.name = ascii "b" ∧ r.gitId = Hash.toPlainStr appTwo) ∨ (r.name = ascii "src" ∧ r.gitId = Hash.toPlainStr (idOf polyExt (.tree, encodeTree srcA))) ∨
      (r.name = ascii "a" ∧ r.gitId = Hash.toPlainStr (polyId .blob (ascii "one"))) := by
  obtain ⟨rows, h1, h2, h3⟩ := push_names hdec hs
  have h1 : db'.nodes = rows := h1
  rw [h1]
  refine ⟨h2, ?_⟩
  intro r hr
  rcases h3 r hr with ⟨e, o, c, ho, ht, hd, e2⟩ | ⟨o, items, i, ho, ht, hd, hi, e1, _, e2⟩
  · left
    have hm := ((hobj _ _).1 ho).1
    simp only [appObjects, appThin, appBlob, List.mem_append, List.mem_cons, List.not_mem_nil, or_false] at hm
    rcases hm with (rfl | rfl | rfl | rfl) | rfl
    · rw [show (metaOf polyExt (.commit, appCommit.encode)).data = appCommit.encode from rfl, appCommit_decode] at hd
      cases hd
      exact ⟨e, e2⟩
    · cases ht
    · cases ht
    · cases ht
    · cases ht
  · right
    have hm := ((hobj _ _).1 ho).1
    simp only [appObjects, appThin, appBlob, List.mem_append, List.mem_cons, List.not_mem_nil, or_false] at hm
    rcases hm with (rfl | rfl | rfl | rfl) | rfl
    · cases ht
    · rw [show (metaOf polyExt (.tree, encodeTree appItems)).data = encodeTree appItems from rfl, appItems_decode] at hd
      cases hd
      simp only [appItems, List.mem_cons, List.not_mem_nil, or_false] at hi
      rcases hi with rfl | rfl
      · exact .inl ⟨e1, e2⟩
      · exact .inr (.inl ⟨e1, e2⟩)
    · rw [show (metaOf polyExt (.tree, encodeTree srcA)).data = encodeTree srcA from rfl, srcA_decode] at hd
      cases hd
      simp only [srcA, List.mem_cons, List.not_mem_nil, or_false] at hi
      subst hi
      exact .inr (.inr ⟨e1, e2⟩)
    · cases ht
    · cases ht

/-- What is stored under the name `b` after the push of the example repository, and nothing else, is the file. -/
theorem app_named_b {St : ObjectSource} {fuel0 fuel : Nat} {file path : Bytes} {p : Pack} {E : SqlExt} {db' : Db} (hdec : decodePack polyExt St fuel0 file = .ok p)
    (hobj : ∀ h m, p.result.hashObject h = some m ↔ m ∈ appObjects ∧ m.id = h) (hs : savePackfile E fuel p path Db.empty = (.ok (), db')) :
    (∃ n ∈ db'.nodes, n.name = ascii "b") ∧ ∀ n ∈ db'.nodes, demoFold n.name = demoFold (ascii "b") → n.gitId = Hash.toPlainStr appTwo := by
  obtain ⟨h2, named⟩ := app_named hdec hobj hs
  constructor
  · have there : ∀ m ∈ appThin, p.result.hashObject m.id = some m := fun m hm => (hobj _ _).2 ⟨appThin_sub m hm, rfl⟩
    have hreach : Spec.PackReach p.result.hashObject appTwo :=
      .item (metaOf polyExt (.tree, encodeTree appItems)) appItems (fileItem "b" (idOf polyExt (.blob, ascii "two"))) (app_root there)
        (there _ (by simp [appThin])) rfl appItems_decode (.head _)
    obtain ⟨n, hn, e⟩ := h2 _ hreach
    rcases named n hn with ⟨_, e'⟩ | ⟨h, _⟩ | ⟨_, e'⟩ | ⟨_, e'⟩
    · rw [e] at e'
      exact absurd (Hash.toPlainStr_injective e') (by decide +kernel)
    · exact ⟨n, hn, h⟩
    · rw [e] at e'
      exact absurd (Hash.toPlainStr_injective e') (by decide +kernel)
    · rw [e] at e'
      exact absurd (Hash.toPlainStr_injective e') (by decide +kernel)
  · intro n hn hf
    rcases named n hn with ⟨h, _⟩ | ⟨_, e⟩ | ⟨h, _⟩ | ⟨h, _⟩
    · rw [h] at hf; exact absurd hf (by decide)
    · exact e
    · rw [h] at hf; exact absurd hf (by decide)
    · rw [h] at hf; exact absurd hf (by decide)

/-- What is stored under the name `src`, and nothing else, is the directory. -/
theorem app_named_src {St : ObjectSource} {fuel0 fuel : Nat} {file path : Bytes} {p : Pack} {E : SqlExt} {db' : Db} (hdec : decodePack polyExt St fuel0 file = .ok p)
    (hobj : ∀ h m, p.result.hashObject h = some m ↔ m ∈ appObjects ∧ m.id = h) (hs : savePackfile E fuel p path Db.empty = (.ok (), db')) :
    (∃ n ∈ db'.nodes, n.name = ascii "src") ∧
      ∀ n ∈ db'.nodes, demoFold n.name = demoFold (ascii "src") → n.gitId = Hash.toPlainStr (idOf polyExt (.tree, encodeTree srcA)) := by
  obtain ⟨h2, named⟩ := app_named hdec hobj hs
  constructor
  · have there : ∀ m ∈ appThin, p.result.hashObject m.id = some m := fun m hm => (hobj _ _).2 ⟨appThin_sub m hm, rfl⟩
    obtain ⟨n, hn, e⟩ := h2 _ (app_src there)
    rcases named n hn with ⟨_, e'⟩ | ⟨_, e'⟩ | ⟨h, _⟩ | ⟨_, e'⟩
    · rw [e] at e'
      exact absurd (Hash.toPlainStr_injective e') (by decide +kernel)
    · rw [e] at e'
      exact absurd (Hash.toPlainStr_injective e') (by decide +kernel)
    · exact ⟨n, hn, h⟩
    · rw [e] at e'
      exact absurd (Hash.toPlainStr_injective e') (by decide +kernel)
  · intro n hn hf
    rcases named n hn with ⟨h, _⟩ | ⟨h, _⟩ | ⟨_, e⟩ | ⟨h, _⟩
    · rw [h] at hf; exact absurd hf (by decide)
    · rw [h] at hf; exact absurd hf (by decide)
    · exact e
    · rw [h] at hf; exact absurd hf (by decide)

/-- **C77 is false** for paths below a repository: the example repository with a file `b` is pushed to `/app`; a discovery of `/app/b` is made. Then there is a commit for `/app/b`
whose tree is not stored as a tree, and every clone of `/app/b` dies. -/
theorem C77_below_false : ∃ (P : ServerExt) (h : List (Moment × HttpReq)) (r : CommitRow) (c : Commit),
    r ∈ commitsAt P.D.fold (runServer P .empty h).db.commits (ascii "/app/b") ∧ Commit.decode r.data = .ok c ∧
    (∀ n ∈ (runServer P .empty h).db.nodes, n.gitId = Hash.toPlainStr c.treeId → n.nodeType = ascii "blob") ∧
    ∀ fuel, getFullPack P.X demoSql (fuel + 1) (runServer P .empty h).db (ascii "/app/b") = .panic := by
  obtain ⟨pack, p, rep, st', h1, h2, h3, h4, q6, objs, ⟨r, hr, _, e3⟩, _⟩ := app_after (ascii "/app") (ascii "/app")
  obtain ⟨p', db1, g1, g2, g3, g4, _, _⟩ := push_run (path := ascii "/app") .empty appCmd_ok (by decide) (by decide) h1 h4
  rw [h2] at g1
  cases g1
  obtain ⟨p', k1, k2, _, _, _, k3⟩ := C26_durable_partial polyExt demoSql 2 (ascii "/app") Db.empty appCmd appCmd_ok (ascii "report-status") (by decide) (by decide) pack h1
    (fun _ _ => rfl) (fun _ _ => rfl) rep st' h4
  rw [h2] at k1
  cases k1
  have hrefs : st'.db.refs = [{ repoPath := ascii "/app", refName := ascii "refs/heads/master" ++ [0], refGitId := appCmd.new }] := by
    rcases k3 with ⟨_, q⟩ | ⟨q, _⟩
    · exact q
    · exact absurd (rfl : appCmd.old = zeroId) q
  obtain ⟨hex, hnamed⟩ := app_named_b h2 h3 g2
  rw [← g3] at hex hnamed
  have inv := storeRun_inv q6 (app_unique objs)
  -- the commit the ref names
  obtain ⟨cr, hcr, hcrf⟩ : ∃ cr, (demoSql.order (st'.db.commits.filter (fun c => demoSql.fold c.gitId == demoSql.fold appCmd.new))).head? = some cr ∧ cr.data = appCommit.encode := by
    obtain ⟨r, hr, e1, e2, e3⟩ := k2 (metaOf polyExt (.commit, appCommit.encode)) ((h3 _ _).2 ⟨by simp [appObjects, appThin], rfl⟩) rfl
    have hm : r ∈ demoSql.order (st'.db.commits.filter (fun c => demoSql.fold c.gitId == demoSql.fold appCmd.new)) :=
      List.mem_filter.2 ⟨hr, by rw [e1]; exact beq_self_eq_true _⟩
    cases hh : demoSql.order (st'.db.commits.filter (fun c => demoSql.fold c.gitId == demoSql.fold appCmd.new)) with
    | nil => rw [hh] at hm; cases hm
    | cons a l =>
      refine ⟨a, rfl, ?_⟩
      have ha : a ∈ demoSql.order (st'.db.commits.filter (fun c => demoSql.fold c.gitId == demoSql.fold appCmd.new)) := by rw [hh]; exact .head _
      have hm := objs _ (.inr ⟨a, (List.mem_filter.1 ha).1, rfl⟩)
      simp only [appObjects, appThin, appBlob, List.mem_append, List.mem_cons, List.not_mem_nil, or_false] at hm
      rcases hm with (h | h | h | h) | h
      · exact congrArg MetaData.data h
      all_goals exact absurd (congrArg MetaData.t h) (by simp [metaOf])
  -- the node that is found
  obtain ⟨root, hroot, hrootId⟩ : ∃ root, searchRootNode demoSql st'.db (ascii "/app/b") = .ok (some root) ∧ root.gitId = Hash.toPlainStr appTwo := by
    obtain ⟨n, hn, e⟩ := hex
    have hm : n ∈ demoSql.order (st'.db.nodes.filter (fun n => demoSql.fold n.name == demoSql.fold (ascii "b"))) :=
      List.mem_filter.2 ⟨hn, by rw [e]; exact beq_self_eq_true _⟩
    cases hh : demoSql.order (st'.db.nodes.filter (fun n => demoSql.fold n.name == demoSql.fold (ascii "b"))) with
    | nil => rw [hh] at hm; cases hm
    | cons a l =>
      have ha : a ∈ demoSql.order (st'.db.nodes.filter (fun n => demoSql.fold n.name == demoSql.fold (ascii "b"))) := by rw [hh]; exact .head _
      obtain ⟨ha1, ha2⟩ := List.mem_filter.1 ha
      refine ⟨a, ?_, hnamed a ha1 (eq_of_beq ha2)⟩
      unfold searchRootNode
      rw [show fileName (ascii "/app/b") = some (ascii "b") from by decide]
      simp only [Res.unwrapOpt, Res.bind_ok, hh, List.head?_cons, Res.pure_eq]
  obtain ⟨child, b1, b2, b3⟩ := C61_faithful_copy polyExt cr root appCommit appTwo appCommit_ok hcrf hrootId
  have hg : getHeadObjectId polyExt demoSql st'.db (ascii "/app/b") = (.ok (Hash.toPlainStr child.base.id),
      insertRefs demoSql (chunks 100 1 [{ repoPath := ascii "/app/b", refName := ascii "refs/heads/master" ++ [0], refGitId := Hash.toPlainStr child.base.id }])
        (saveCommits demoSql [child] (ascii "/app/b") st'.db)) := by
    unfold getHeadObjectId searchRefs
    rw [hrefs, show (demoSql.order ([({ repoPath := ascii "/app", refName := ascii "refs/heads/master" ++ [0], refGitId := appCmd.new } : RefRow)].filter
        (fun r => demoSql.like (ascii "/app/b") r.repoPath && demoSql.fold r.refName == demoSql.fold (ascii "refs/heads/master")))) =
        [{ repoPath := ascii "/app", refName := ascii "refs/heads/master" ++ [0], refGitId := appCmd.new }] from by decide +kernel]
    rw [List.find?_cons_of_neg (by decide), List.find?_nil, List.find?_cons_of_pos (by decide)]
    simp only
    unfold generateChild
    rw [hcr]
    simp only
    rw [hroot]
    simp only
    rw [b1]
  rw [saveChild_eq] at hg
  have hroute1 : route (appPush pack).method (appPush pack).path (appPush pack).service = .receivePack (ascii "/app") := route_push app_clean_url (.inr rfl)
  have hroute2 : route (discoverReq (ascii "/app/b")).method (discoverReq (ascii "/app/b")).path (discoverReq (ascii "/app/b")).service =
      .infoRefs (ascii "/app/b") .uploadPack := by decide
  have hdb : (runServer demoServer .empty [(demoMoment, appPush pack), (demoMoment, discoverReq (ascii "/app/b"))]).db =
      (getHeadObjectId polyExt demoSql st'.db (ascii "/app/b")).2 := by
    have e0 : (runServer demoServer .empty [(demoMoment, appPush pack)]).db = st'.db := by
      rw [show [(demoMoment, appPush pack)] = [] ++ [(demoMoment, appPush pack)] from rfl, runServer_concat, serve_db, hroute1]
      exact httpReceiveDb_ok _ _ _ _ _ h4
    rw [show [(demoMoment, appPush pack), (demoMoment, discoverReq (ascii "/app/b"))] = [(demoMoment, appPush pack)] ++ [(demoMoment, discoverReq (ascii "/app/b"))] from rfl,
      runServer_concat, serve_db, hroute2]
    simp only
    rw [e0]
    rfl
  rw [hg] at hdb
  have hold : ∀ x ∈ st'.db.commits, x.repoPath = ascii "/app" := by
    intro x hx
    rw [g4] at hx
    obtain ⟨rows, _, _, _, w⟩ := push_effect h2 demoSql 2 (ascii "/app") Db.empty
    rw [g2] at w
    rcases w x hx with w | w
    · cases w
    · exact w.1
  have hcommits : (runServer demoServer .empty [(demoMoment, appPush pack), (demoMoment, discoverReq (ascii "/app/b"))]).db.commits =
      st'.db.commits ++ [child.row (ascii "/app/b")] := by rw [hdb]; rfl
  have hnodes : (runServer demoServer .empty [(demoMoment, appPush pack), (demoMoment, discoverReq (ascii "/app/b"))]).db.nodes = st'.db.nodes := by rw [hdb]
  have blob : ∀ n ∈ st'.db.nodes, n.gitId = Hash.toPlainStr appTwo → n.nodeType = ascii "blob" ∧ n.data = ascii "two" := by
    intro n hn e
    have hid := inv.id n hn
    rw [e] at hid
    have hid := Hash.toPlainStr_injective hid
    have hm := objs _ (.inl ⟨n, hn, rfl⟩)
    have := List.inj_on_of_nodup_map appObjects_ids hm (show metaOf polyExt (.blob, ascii "two") ∈ appObjects by simp [appObjects, appThin]) hid.symm
    rcases inv.type n hn with ht | ht
    · rw [nodeObj_tree ht] at this
      exact absurd (congrArg MetaData.t this) (by simp [metaOf])
    · rw [nodeObj_blob (by rw [ht]; decide)] at this
      exact ⟨ht, congrArg MetaData.data this⟩
  have hat : commitsAt demoFold (st'.db.commits ++ [child.row (ascii "/app/b")]) (ascii "/app/b") = [child.row (ascii "/app/b")] := by
    rw [commitsAt, List.filter_append, List.filter_eq_nil_iff.2, List.nil_append]
    · exact List.filter_cons_of_pos (beq_self_eq_true _)
    · intro x hx
      rw [hold x hx]
      decide
  refine ⟨demoServer, [(demoMoment, appPush pack), (demoMoment, discoverReq (ascii "/app/b"))], child.row (ascii "/app/b"), _, ?_, b2, ?_, fun fuel => ?_⟩
  · rw [hcommits, show demoServer.D.fold = demoFold from rfl, hat]
    exact .head _
  · rw [hnodes]
    exact fun n hn e => (blob n hn e).1
  · have e1 : commitsByPath demoSql (runServer demoServer .empty [(demoMoment, appPush pack), (demoMoment, discoverReq (ascii "/app/b"))]).db (ascii "/app/b") =
        [child.row (ascii "/app/b")] := by
      unfold commitsByPath
      rw [hcommits]
      exact hat
    have hids : ∀ n ∈ st'.db.nodes, demoSql.fold n.gitId = demoSql.fold (Hash.toPlainStr appTwo) → n.gitId = Hash.toPlainStr appTwo := by
      intro n hn e
      rw [inv.id n hn] at e ⊢
      rw [demoFold_hash _ _ e]
    obtain ⟨n0, hn0, en0⟩ := hex
    have hn0' := hnamed n0 hn0 (by rw [en0])
    have e2 : ∃ f, nodesByIds demoSql (runServer demoServer .empty [(demoMoment, appPush pack), (demoMoment, discoverReq (ascii "/app/b"))]).db [Hash.toPlainStr appTwo] = .ok f ∧
        ∃ n ∈ st'.db.nodes, f appTwo = some n ∧ n.gitId = Hash.toPlainStr appTwo := by
      unfold nodesByIds
      rw [hnodes]
      have hall : ∀ n ∈ demoSql.order (st'.db.nodes.filter (fun n => [Hash.toPlainStr appTwo].any (fun k => demoSql.fold n.gitId == demoSql.fold k))),
          n ∈ st'.db.nodes ∧ n.gitId = Hash.toPlainStr appTwo := by
        intro n hn
        obtain ⟨a1, a2⟩ := List.mem_filter.1 hn
        exact ⟨a1, hids n a1 (by simpa using a2)⟩
      simp only
      rw [if_pos]
      · refine ⟨_, rfl, ?_⟩
        have hin : n0 ∈ (demoSql.order (st'.db.nodes.filter (fun n => [Hash.toPlainStr appTwo].any (fun k => demoSql.fold n.gitId == demoSql.fold k)))).reverse :=
          List.mem_reverse.2 (List.mem_filter.2 ⟨hn0, by simp [hn0']⟩)
        cases hf : ((demoSql.order (st'.db.nodes.filter (fun n => [Hash.toPlainStr appTwo].any (fun k => demoSql.fold n.gitId == demoSql.fold k)))).reverse).find?
            (fun n => Hash.fromBytes n.gitId == some appTwo) with
        | none =>
          have := List.find?_eq_none.1 hf n0 hin
          rw [hn0', Hash.fromBytes_toPlainStr] at this
          simp at this
        | some n =>
          obtain ⟨a1, a2⟩ := hall n (List.mem_reverse.1 (List.mem_of_find?_eq_some hf))
          exact ⟨n, a1, rfl, a2⟩
      · rw [List.all_eq_true]
        intro n hn
        rw [(hall n hn).2, Hash.fromBytes_toPlainStr]
        rfl
    obtain ⟨f, ef, n, hn, fn, en⟩ := e2
    unfold getFullPack fullObjects
    rw [e1]
    unfold loadCommits
    rw [show (child.row (ascii "/app/b")).data = child.base.data from rfl, show demoServer.X = polyExt from rfl, b3, Res.bind_ok, b2]
    simp only [Res.unwrap_ok, Res.bind_ok, loadCommits, Res.pure_eq, List.map_cons, List.map_nil]
    rw [ef, Res.bind_ok]
    unfold fullLoop
    simp only
    rw [fn]
    simp only
    unfold getChildTrees
    rw [(blob n hn en).2, new_metaOf polyExt (.tree, ascii "two") rfl, Res.bind_ok, show (decodeTree (ascii "two")).unwrap = .panic from by decide +kernel]
    rfl

end Gust

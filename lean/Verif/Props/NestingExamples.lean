import Verif.Props.Nesting

/-! # C91, examples -/

namespace Gust

open Spec (nodeObj StoreReach commitsAt InRepo NestedWithin)

/-- A digest for which all trees have the same id: a directory can contain itself. -/
def loopExt : Ext := { demoExt with sha1 := fun d => if (ascii "tree").isPrefixOf d then Hash.zero else polySha1 d }

/-- Such a directory. -/
def loopItems : List TreeItem := [dirItem "again" Hash.zero]

def loopCommit : Commit := { exampleCommit [] with treeId := Hash.zero }

def loopObjects : List MetaData := [metaOf loopExt (.commit, loopCommit.encode), metaOf loopExt (.tree, encodeTree loopItems)]

theorem loopItems_decode : decodeTree (encodeTree loopItems) = .ok loopItems := by
  apply C08_tree_roundtrip
  intro i hi
  rw [loopItems, List.mem_singleton] at hi
  subst hi
  exact dirItem_ok "again" _ (by decide)

theorem loopCommit_decode : Commit.decode loopCommit.encode = .ok loopCommit :=
  commit_decode_encode _ ⟨(exampleCommit_ok []).author, (exampleCommit_ok []).author_line, (exampleCommit_ok []).author_role, (exampleCommit_ok []).committer,
    (exampleCommit_ok []).committer_line, (exampleCommit_ok []).message⟩

/-- C91 at work: a pack with this directory can be decoded; the push fails for every depth of the stack, and nothing is stored. -/
example : ∃ (file : Bytes) (p : Pack), decodePack loopExt (fun _ => none) 2 file = .ok p ∧ (∀ m ∈ loopObjects, p.result.hashObject m.id = some m) ∧
    ∀ (E : SqlExt) (fuel : Nat) (path : Bytes) (db : Db), (savePackfile E fuel p path db).1 ≠ .ok () ∧ (savePackfile E fuel p path db).2 = db := by
  have ids : (loopObjects.map MetaData.id).Nodup := by decide +kernel
  obtain ⟨body, file, p, _, _, h2, h3⟩ := C27_pack_roundtrip loopExt (fun _ => none) loopObjects
    (by
      intro m hm
      simp only [loopObjects, List.mem_cons, List.not_mem_nil, or_false] at hm
      rcases hm with rfl | rfl
      · exact new_metaOf loopExt (.commit, _) rfl
      · exact new_metaOf loopExt (.tree, _) rfl)
    (fun a ha b hb e => List.inj_on_of_nodup_map ids ha hb e) (by decide +kernel) (by decide) (by decide) (by decide +kernel) 1
  have there : ∀ m ∈ loopObjects, p.result.hashObject m.id = some m := fun m hm => (h3.byId _ _).2 ⟨hm, rfl⟩
  have tid : (metaOf loopExt (.tree, encodeTree loopItems)).id = Hash.zero := by decide +kernel
  have root : Spec.PackReach p.result.hashObject (metaOf loopExt (.tree, encodeTree loopItems)).id := by
    rw [tid]
    exact .commit _ loopCommit (there _ (.head _)) rfl loopCommit_decode
  exact ⟨file, p, h2, there, C91_refused h2 _ loopItems (dirItem "again" Hash.zero) root (there _ (.tail _ (.head _))) rfl loopItems_decode (.head _)
    (by rw [tid]; exact .refl)⟩

theorem app_pushed_server : ∃ (pack : Bytes), Spec.SameFold demoServer.D.fold [(demoMoment, appPush pack)] ∧ Spec.NoneAbove demoServer.D.fold (ascii "/app") [(demoMoment, appPush pack)] ∧
    UniqueIds polyExt (runServer demoServer .empty [(demoMoment, appPush pack)]).db ∧ FitsPack polyExt (runServer demoServer .empty [(demoMoment, appPush pack)]).db ∧
    ∃ r ∈ commitsAt demoFold (runServer demoServer .empty [(demoMoment, appPush pack)]).db.commits (ascii "/app"), r.data = appCommit.encode := by
  obtain ⟨pack, p, rep, st', h1, h2, h3, h4, q6, objs, ⟨r, hr, ed, e3⟩, _⟩ := app_after (ascii "/app") (ascii "/app")
  have hroute : route (appPush pack).method (appPush pack).path (appPush pack).service = .receivePack (ascii "/app") := route_push app_clean_url (.inr rfl)
  have hdb : (runServer demoServer .empty [(demoMoment, appPush pack)]).db = st'.db := by
    have e : [(demoMoment, appPush pack)] = [] ++ [(demoMoment, appPush pack)] := rfl
    rw [e, runServer_concat, serve_db, hroute]
    exact httpReceiveDb_ok _ _ _ _ _ h4
  refine ⟨pack, ?_, ?_, by rw [hdb]; exact app_unique objs, by rw [hdb]; exact app_fits objs, r, by rw [hdb]; exact commitsAt_mem.2 ⟨hr, by rw [e3]⟩, ed⟩
  · intro q hq
    rw [List.mem_singleton.1 hq]
    rfl
  · intro a ha b hb x y hx hy _ _
    rw [List.mem_singleton.1 ha] at hx
    rw [List.mem_singleton.1 hb] at hy
    rw [hx] at hy
    cases hy
    rfl

/-- C78 at work: after a push, a clone is answered by a server with just enough room. -/
example : ∃ (pack : Bytes) (m : Moment) (out file : Bytes) (ms : List MetaData),
    m.fuel = (runServer demoServer .empty [(demoMoment, appPush pack)]).db.nodes.length ∧
    (serve demoServer m (runServer demoServer .empty [(demoMoment, appPush pack)]) (Spec.fetchReq (ascii "/app" ++ []) (doneBody cloneLines (ascii "\n") []))).1 =
      .reply (.ok (.bytes out)) ∧ Spec.readClone out = some file ∧ PackHas polyExt file ms ∧ metaOf polyExt (.commit, appCommit.encode) ∈ ms := by
  obtain ⟨pack, h1, h2, h3, h4, r, hr, ed⟩ := app_pushed_server
  obtain ⟨k, hk⟩ : ∃ k, k = (runServer demoServer .empty [(demoMoment, appPush pack)]).db.nodes.length := ⟨_, rfl⟩
  obtain ⟨out, file, ms, c1, c2, c3, c4⟩ := C78_clone_stack_partial demoServer demoFold_hash (ascii "/app") [] app_clean_url (.inl rfl) [(demoMoment, appPush pack)]
    { demoMoment with fuel := k } h1 rfl h2 h3 h4 (Nat.le_of_eq hk.symm)
    (List.ne_nil_of_mem hr) (fun _ _ => .rfl) demoCut_ok cloneLines (ascii "\n") [] cloneLines_ok
  have := (c4 _).2 ⟨_, .commit r hr, rfl⟩
  rw [ed] at this
  exact ⟨pack, _, out, file, ms, hk, c1, c2, c3, this⟩

/-- With a single push there is nothing that could disagree. -/
theorem one_push_agrees (P : ServerExt) (m : Moment) (r : HttpReq) (h : List (Moment × HttpReq))
    (hh : ∀ q ∈ h, ∀ repo, route q.2.method q.2.path q.2.service ≠ .receivePack repo) : Spec.PushesAgree P ((m, r) :: h) := by
  have only : ∀ a p, Spec.PushedPack P a ((m, r) :: h) p → decodePack P.X (getHashObject P.X m.sql Db.empty) m.fuel (Spec.packPart r.body) = .ok p := by
    rintro a p ⟨h1, m', r', h2, repo, file, e, hr, _, rfl, hd⟩
    cases h1 with
    | nil =>
      rw [List.nil_append] at e
      cases e
      exact hd
    | cons x h1 =>
      rw [List.cons_append, List.cons.injEq] at e
      exact absurd hr (hh (m', r') (by rw [e.2]; simp) repo)
  intro p q a b hp hq o o' ho ho' e
  have h1 := only a p hp
  rw [only b q hq] at h1
  cases h1
  rw [e, ho'] at ho
  exact (Option.some.inj ho).symm

/-- C91 at work: after the push and a discovery of a path below, directories are stored, none contains itself, and every clone and fetch ends, with whatever ids the client names. -/
example : ∃ (pack : Bytes) (s : ServerState), s = runServer demoServer .empty [(demoMoment, appPush pack), (demoMoment, discoverReq (ascii "/app/b"))] ∧
    (∃ n ∈ s.db.nodes, n.gitId = Hash.toPlainStr appCommit.treeId) ∧ ¬ Spec.ContainsItself s.db.nodes appCommit.treeId ∧
    ∀ (path : Bytes) (want have_ : List Bytes),
      (getFullPack polyExt demoSql (s.db.nodes.length + 2) s.db path).halts ∧ (getIncPack polyExt demoSql (s.db.nodes.length + 2) s.db path want have_).halts := by
  obtain ⟨pack, p, rep, st', h1, h2, h3, h4, q6, objs, _, reach⟩ := app_after (ascii "/app") (ascii "/app")
  have hroute : route (appPush pack).method (appPush pack).path (appPush pack).service = .receivePack (ascii "/app") := route_push app_clean_url (.inr rfl)
  have hdb : (runServer demoServer .empty [(demoMoment, appPush pack)]).db = st'.db := by
    have e : [(demoMoment, appPush pack)] = [] ++ [(demoMoment, appPush pack)] := rfl
    rw [e, runServer_concat, serve_db, hroute]
    exact httpReceiveDb_ok _ _ _ _ _ h4
  have hag : Spec.PushesAgree demoServer [(demoMoment, appPush pack), (demoMoment, discoverReq (ascii "/app/b"))] := by
    refine one_push_agrees _ _ _ _ fun q hq repo => ?_
    rw [List.mem_singleton.1 hq, show route (discoverReq (ascii "/app/b")).method (discoverReq (ascii "/app/b")).path (discoverReq (ascii "/app/b")).service =
      .infoRefs (ascii "/app/b") .uploadPack from by decide]
    exact fun h => nomatch h
  refine ⟨pack, _, rfl, ?_, (C91_no_cycles _ _ hag _).1, fun path want have_ => C91_fetch_ends _ demoFold_hash _ hag demoSql rfl _ (Nat.le_refl _) path want have_⟩
  have hx : Spec.PackReach p.result.hashObject appCommit.treeId :=
    .commit (metaOf polyExt (.commit, appCommit.encode)) appCommit ((h3 _ _).2 ⟨by simp [appObjects, appThin], rfl⟩) rfl appCommit_decode
  obtain ⟨n, hn, e⟩ := reach _ hx
  have e2 : [(demoMoment, appPush pack), (demoMoment, discoverReq (ascii "/app/b"))] = [(demoMoment, appPush pack)] ++ [(demoMoment, discoverReq (ascii "/app/b"))] := rfl
  rw [← hdb] at hn
  refine ⟨n, ?_, e⟩
  rw [e2, runServer_concat]
  exact (serve_extends _ _ _ _).nodes n hn

end Gust

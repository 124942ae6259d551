import Verif.Props.Clone

/-! # Examples and counterexamples for C49, C50, C71-C73: the example repository after a push -/

namespace Gust

open Spec (nodeObj StoreReach commitsAt InRepo)

theorem demoFold_hash (a b : Hash) (h : demoFold (Hash.toPlainStr a) = demoFold (Hash.toPlainStr b)) : a = b := by
  have key : ∀ a : Hash, demoFold (Hash.toPlainStr a) = Hash.toPlainStr a := by
    intro a
    have hr := Hash.toPlainStr_range a
    unfold demoFold
    rw [List.filter_eq_self.2]
    · conv_rhs => rw [← List.map_id (Hash.toPlainStr a)]
      apply List.map_congr_left
      intro c hc
      have := hr c hc
      unfold asciiLower
      rw [if_neg (by omega)]
      rfl
    · intro c hc
      have := hr c hc
      simp only [bne_iff_ne, ne_eq]
      rintro rfl
      simp at this
  rw [key, key] at h
  exact Hash.toPlainStr_injective h

/-- Only the pushed objects are stored. -/
theorem app_stored_objs {St : ObjectSource} {fuel0 : Nat} {file : Bytes} {p : Pack} (hdec : decodePack polyExt St fuel0 file = .ok p)
    (hf : ∀ h m, p.result.hashObject h = some m ↔ m ∈ appObjects ∧ m.id = h) (E : SqlExt) (fuel : Nat) (path : Bytes) (o : Spec.Obj)
    (ho : StoredObj (savePackfile E fuel p path Db.empty).2 o) : metaOf polyExt o ∈ appObjects := by
  obtain ⟨rows, h1, h2, _, h4⟩ := push_effect hdec E fuel path Db.empty
  rcases ho with ⟨n, hn, rfl⟩ | ⟨r, hr, rfl⟩
  · rw [h1] at hn
    obtain ⟨m, hm, e, _⟩ := h2 n hn
    rw [← e]
    exact ((hf _ _).1 hm).1
  · rcases h4 r hr with h | ⟨_, _, m, c, hm, ht, hd, _⟩
    · cases h
    · have hmem := ((hf _ _).1 hm).1
      have := (metaOf_of_new (appObjects_new m hmem)).2
      rw [hd, ← ht, this]
      exact hmem

theorem app_unique {db : Db} (h : ∀ o, StoredObj db o → metaOf polyExt o ∈ appObjects) : UniqueIds polyExt db := by
  intro a b ha hb e
  have := List.inj_on_of_nodup_map appObjects_ids (h a ha) (h b hb) e
  exact Prod.ext (congrArg MetaData.t this) (congrArg MetaData.data this)

theorem app_fits {db : Db} (h : ∀ o, StoredObj db o → metaOf polyExt o ∈ appObjects) : FitsPack polyExt db := by
  have big : ∀ m ∈ appObjects, m.data.length < 2 ^ 61 ∧ (MetaData.convertToVec polyExt m).length ≤ 10000 := by decide +kernel
  refine ⟨fun o ho => (big _ (h o ho)).1, fun ms hn hm => ?_⟩
  have hsub : ∀ m ∈ ms, m ∈ appObjects := by
    intro m hmm
    obtain ⟨o, ho, rfl⟩ := hm m hmm
    exact h o ho
  have hlen : ms.length ≤ 5 := (List.subperm_of_subset hn hsub).length_le
  have : ∀ l : List MetaData, (∀ m ∈ l, m ∈ appObjects) → (encodeEntries polyExt l).length ≤ 10000 * l.length := by
    intro l
    induction l with
    | nil => intro _; simp [encodeEntries]
    | cons a l ih =>
      intro hl
      have := ih (fun m hm => hl m (.tail _ hm))
      have h1 := (big a (hl a (.head _))).2
      simp only [encodeEntries, List.flatMap_cons, List.length_append, List.length_cons] at this ⊢
      omega
  have := this ms hsub
  exact ⟨by omega, by omega⟩

theorem app_tree {n : NodeRow} (h : metaOf polyExt (nodeObj n) ∈ appObjects) (ht : n.nodeType = ascii "tree") {items : List TreeItem}
    (hd : decodeTree n.data = .ok items) : n.data = encodeTree appItems ∧ items = appItems ∨ n.data = encodeTree srcA ∧ items = srcA := by
  rw [nodeObj_tree ht] at h
  simp only [appObjects, appThin, List.mem_append, List.mem_cons, List.not_mem_nil, or_false] at h
  rcases h with (h | h | h | h) | h
  · exact absurd (congrArg MetaData.t h) (by simp [metaOf])
  · have e : n.data = encodeTree appItems := congrArg MetaData.data h
    rw [e, appItems_decode] at hd
    exact .inl ⟨e, (Res.ok.inj hd).symm⟩
  · have e : n.data = encodeTree srcA := congrArg MetaData.data h
    rw [e, srcA_decode] at hd
    exact .inr ⟨e, (Res.ok.inj hd).symm⟩
  · exact absurd (congrArg MetaData.t h) (by simp [metaOf])
  · exact absurd (congrArg MetaData.t h) (by simp [metaOf, appBlob])

theorem app_rank {db : Db} (h : ∀ o, StoredObj db o → metaOf polyExt o ∈ appObjects) : ∀ n ∈ db.nodes, n.nodeType = ascii "tree" →
    ∀ items, decodeTree n.data = .ok items → ∀ i ∈ items, ∀ n' ∈ db.nodes, n'.gitId = Hash.toPlainStr i.id → n'.nodeType = ascii "tree" →
      n'.gitId = Hash.toPlainStr (idOf polyExt (nodeObj n')) → appRank i.id < appRank (idOf polyExt (nodeObj n)) := by
  intro n hn ht items hd i hi n' hn' e ht' e'
  rw [nodeObj_tree ht]
  rcases app_tree (h _ (.inl ⟨n, hn, rfl⟩)) ht hd with ⟨e1, rfl⟩ | ⟨e1, rfl⟩
  · rw [e1]
    simp only [appItems, List.mem_cons, List.not_mem_nil, or_false] at hi
    rcases hi with rfl | rfl
    · show appRank (idOf polyExt (.blob, ascii "two")) < appRank (idOf polyExt (.tree, encodeTree appItems))
      decide +kernel
    · show appRank (idOf polyExt (.tree, encodeTree srcA)) < appRank (idOf polyExt (.tree, encodeTree appItems))
      decide +kernel
  · exfalso
    simp only [srcA, List.mem_cons, List.not_mem_nil, or_false] at hi
    subst hi
    rw [e] at e'
    have e2 := Hash.toPlainStr_injective e'
    have hm := h _ (.inl ⟨n', hn', rfl⟩)
    have hb : (metaOf polyExt (nodeObj n')).id = appBlob.id := by
      show idOf polyExt (nodeObj n') = appBlob.id
      rw [← e2]
      decide +kernel
    have := List.inj_on_of_nodup_map appObjects_ids hm (show appBlob ∈ appObjects by simp [appObjects]) hb
    rw [nodeObj_tree ht'] at this
    exact absurd (congrArg MetaData.t this) (by simp [metaOf, appBlob])

/-- A push of the example repository to an empty server, and what is stored then. -/
theorem app_after (path repo : Bytes) : ∃ (pack : Bytes) (p : Pack) (out : Bytes) (st' : PushState Db),
    (ascii "PACK").isPrefixOf pack = true ∧ decodePack polyExt (getHashObject polyExt demoSql Db.empty) 2 pack = .ok p ∧
    (∀ h m, p.result.hashObject h = some m ↔ m ∈ appObjects ∧ m.id = h) ∧
    httpReceivePack (mysqlPush polyExt demoSql 2) { caps := [], commands := [], path := repo, db := Db.empty }
      (Spec.pushBody appCmd [] (ascii "report-status") pack) = .ok (out, st') ∧
    StoreRun polyExt demoFold path st'.db ∧ (∀ o, StoredObj st'.db o → metaOf polyExt o ∈ appObjects) ∧
    (∃ r ∈ st'.db.commits, r.data = appCommit.encode ∧ r.repoPath = repo) ∧
    ∀ x, Spec.PackReach p.result.hashObject x → ∃ r ∈ st'.db.nodes, r.gitId = Hash.toPlainStr x := by
  obtain ⟨pack, p, out, st', h1, h2, h3, h4, _⟩ := app_push demoSql (fun _ _ => rfl) 0 repo (ascii "report-status") (by decide) (by decide) Db.empty
  obtain ⟨p', db1, q1, q2, q3, q4, _, q6⟩ := push_run (path := path) .empty appCmd_ok (by decide) (by decide) h1 h4
  rw [h2] at q1
  cases q1
  obtain ⟨p', r1, r2, r4, _⟩ := C26_durable_partial polyExt demoSql 2 repo Db.empty appCmd appCmd_ok (ascii "report-status") (by decide) (by decide) pack h1
    (fun _ _ => rfl) (fun _ _ => rfl) out st' h4
  rw [h2] at r1
  cases r1
  refine ⟨pack, p, out, st', h1, h2, h3, h4, q6, ?_, ?_, r4⟩
  · intro o ho
    apply app_stored_objs h2 h3 demoSql 2 repo o
    rw [q2]
    rcases ho with ⟨n, hn, e⟩ | ⟨n, hn, e⟩
    · exact .inl ⟨n, by rw [← q3]; exact hn, e⟩
    · exact .inr ⟨n, by rw [← q4]; exact hn, e⟩
  · obtain ⟨r, hr, _, e2, e3⟩ := r2 (metaOf polyExt (.commit, appCommit.encode)) ((h3 _ _).2 ⟨by simp [appObjects, appThin], rfl⟩) rfl
    exact ⟨r, hr, e2, e3⟩

theorem appRank_small (h : Hash) : appRank h < 2 := by
  unfold appRank
  split <;> omega

theorem app_nested {db : Db} (objs : ∀ o, StoredObj db o → metaOf polyExt o ∈ appObjects) (hid : ∀ n ∈ db.nodes, n.gitId = Hash.toPlainStr (idOf polyExt (nodeObj n)))
    (h : Hash) : Spec.NestedWithin db.nodes 2 h :=
  nested_of_rank appRank (fun n hn ht items hd i hi n' hn' e ht' h eh => by
    have := app_rank objs n hn ht items hd i hi n' hn' e ht' (hid n' hn')
    rw [hid n hn] at eh
    rwa [Hash.toPlainStr_injective eh] at this) 2 h (appRank_small h)

theorem app_reached {find : Hash → Option MetaData} (there : ∀ m ∈ appThin, find m.id = some m) {m : MetaData} (hm : m ∈ appObjects) :
    m.t = .commit ∨ Spec.PackReach find m.id := by
  simp only [appObjects, appThin, List.mem_append, List.mem_cons, List.not_mem_nil, or_false] at hm
  rcases hm with (rfl | rfl | rfl | rfl) | rfl
  · exact .inl rfl
  · exact .inr (app_root there)
  · exact .inr (app_src there)
  · exact .inr (.item (metaOf polyExt (.tree, encodeTree appItems)) appItems (fileItem "b" (idOf polyExt (.blob, ascii "two"))) (app_root there)
      (there _ (by simp [appThin])) rfl appItems_decode (.head _))
  · exact .inr (app_blob there)

/-- C72, C49: a clone right after the push gets exactly the five objects, whatever the order of rows. -/
theorem app_clone : ∃ (pack out : Bytes) (st' : PushState Db) (file : Bytes) (ms : List MetaData),
    httpReceivePack (mysqlPush polyExt demoSql 2) { caps := [], commands := [], path := ascii "/app", db := Db.empty }
      (Spec.pushBody appCmd [] (ascii "report-status") pack) = .ok (out, st') ∧
    getFullPack polyExt demoSqlRev 2 st'.db (ascii "/app") = .ok file ∧ PackHas polyExt file ms ∧ ∀ m, m ∈ ms ↔ m ∈ appObjects := by
  obtain ⟨pack, p, out, st', h1, h2, h3, h4, q6, objs, ⟨r, hr, _, e3⟩, _⟩ := app_after (ascii "/app") (ascii "/app")
  have inv := storeRun_inv q6 (app_unique objs)
  obtain ⟨file, ms, c1, c2, _, _⟩ := C49_clone_partial polyExt demoSqlRev (ascii "/app") st'.db q6 (app_unique objs) demoFold_hash (app_fits objs) 2
    (fun r _ c _ => app_nested objs inv.id c.treeId)
    (List.ne_nil_of_mem (commitsAt_mem.2 ⟨hr, by rw [e3]⟩))
  obtain ⟨p', ms', r1, r2, r3⟩ := C72_push_then_clone_partial polyExt demoSql (ascii "/app") Db.empty .empty demoFold_hash 2 appCmd appCmd_ok
    (ascii "report-status") (by decide) (by decide) pack h1 (fun _ _ => rfl) out st' h4 (app_unique objs) (app_fits objs) demoSqlRev rfl 2 file c1
  rw [h2] at r1
  cases r1
  refine ⟨pack, out, st', file, ms', h4, c1, r2, fun m => ?_⟩
  have none_before : ∀ o, ¬ InRepo demoSql.fold Db.empty (ascii "/app") o := by
    intro o ho
    cases inRepo_stored ho with
    | inl h => obtain ⟨n, hn, _⟩ := h; cases hn
    | inr h => obtain ⟨n, hn, _⟩ := h; cases hn
  rw [r3]
  constructor
  · rintro (⟨o, ho, _⟩ | ⟨hm, _⟩)
    · exact (none_before o ho).elim
    · exact ((h3 _ _).1 hm).1
  · intro hm
    exact .inr ⟨(h3 _ _).2 ⟨hm, rfl⟩, app_reached (fun m hm => (h3 _ _).2 ⟨appThin_sub m hm, rfl⟩) hm⟩

/-- **C49 is false** for paths which differ in case only: nothing but a push to `/app` happened; a clone of `/APP` is answered and contains the commit. -/
theorem C49_other_path_false : ∃ (E : SqlExt) (pack out : Bytes) (st' : PushState Db) (file : Bytes) (ms : List MetaData),
    httpReceivePack (mysqlPush polyExt E 2) { caps := [], commands := [], path := ascii "/app", db := Db.empty }
      (Spec.pushBody appCmd [] (ascii "report-status") pack) = .ok (out, st') ∧
    getFullPack polyExt E 2 st'.db (ascii "/APP") = .ok file ∧ PackHas polyExt file ms ∧ metaOf polyExt (.commit, appCommit.encode) ∈ ms := by
  obtain ⟨pack, p, out, st', h1, h2, h3, h4, q6, objs, ⟨r, hr, ed, e3⟩, _⟩ := app_after (ascii "/APP") (ascii "/app")
  have inv := storeRun_inv q6 (app_unique objs)
  have hc : r ∈ commitsAt demoFold st'.db.commits (ascii "/APP") := commitsAt_mem.2 ⟨hr, by rw [e3]; decide⟩
  obtain ⟨file, ms, c1, c2, c3, _⟩ := C49_clone_partial polyExt demoSql (ascii "/APP") st'.db q6 (app_unique objs) demoFold_hash (app_fits objs) 2
    (fun r _ c _ => app_nested objs inv.id c.treeId) (List.ne_nil_of_mem hc)
  refine ⟨demoSql, pack, out, st', file, ms, h4, c1, c2, (c3 _).2 ⟨_, .commit r hc, ?_⟩⟩
  rw [ed]

/-- **C50 is false**: a client that wants the pushed commit and has nothing gets the other four objects, but not the commit. -/
theorem C50_wanted_commit_false : ∃ (pack out : Bytes) (st' : PushState Db) (file : Bytes) (ms : List MetaData),
    httpReceivePack (mysqlPush polyExt demoSql 2) { caps := [], commands := [], path := ascii "/app", db := Db.empty }
      (Spec.pushBody appCmd [] (ascii "report-status") pack) = .ok (out, st') ∧
    getIncPack polyExt demoSql 2 st'.db (ascii "/app") [appCmd.new] [] = .ok file ∧ PackHas polyExt file ms ∧
    (∀ m, m ∈ ms ↔ m ∈ appObjects ∧ m.t ≠ .commit) := by
  obtain ⟨pack, p, out, st', h1, h2, h3, h4, q6, objs, ⟨r, hr, ed, e3⟩, reach⟩ := app_after (ascii "/app") (ascii "/app")
  have inv := storeRun_inv q6 (app_unique objs)
  have hc : r ∈ commitsAt demoFold st'.db.commits (ascii "/app") := commitsAt_mem.2 ⟨hr, by rw [e3]⟩
  have hw : Hash.toPlainStr (idOf polyExt (.commit, r.data)) ∈ [appCmd.new] := by rw [ed]; exact List.mem_singleton.2 rfl
  obtain ⟨file, ms, c1, c2, c3⟩ := C50_sent_partial polyExt demoSql (ascii "/app") st'.db q6 (app_unique objs) demoFold_hash (app_fits objs) 2
    (fun r _ c _ => app_nested objs inv.id c.treeId) [appCmd.new] [] r hc hw
  refine ⟨pack, out, st', file, ms, h4, c1, c2, fun m => ?_⟩
  rw [c3]
  constructor
  · rintro ⟨o, ⟨_, _, _, n, _, _, _, _, hn, _⟩, rfl⟩
    refine ⟨objs _ (.inl ⟨n, hn, rfl⟩), ?_⟩
    show (nodeObj n).1 ≠ .commit
    unfold nodeObj
    split <;> simp
  · rintro ⟨hm, ht⟩
    have there : ∀ m ∈ appThin, p.result.hashObject m.id = some m := fun m hm => (h3 _ _).2 ⟨appThin_sub m hm, rfl⟩
    obtain hre := (app_reached there hm).resolve_left ht
    -- everything reachable in the pack is reachable in storage
    have down : ∀ x, Spec.PackReach p.result.hashObject x → StoreReach st'.db.nodes appCommit.treeId x := by
      intro x hx
      induction hx with
      | commit o c ho ht hd =>
        have hmem := ((h3 _ _).1 ho).1
        simp only [appObjects, appThin, List.mem_append, List.mem_cons, List.not_mem_nil, or_false] at hmem
        rcases hmem with (rfl | rfl | rfl | rfl) | rfl
        · rw [show Commit.decode (metaOf polyExt (.commit, appCommit.encode)).data = .ok appCommit from appCommit_decode] at hd
          cases hd
          exact .refl
        all_goals cases ht
      | item o items i hre ho ht hd hi ih =>
        obtain ⟨n, hn, e⟩ := reach o.id hre
        have hid := inv.id n hn
        have hmem := objs _ (.inl ⟨n, hn, rfl⟩)
        have : metaOf polyExt (nodeObj n) = o := List.inj_on_of_nodup_map appObjects_ids hmem ((h3 _ _).1 ho).1 (by
          show idOf polyExt (nodeObj n) = o.id
          rw [hid] at e
          exact Hash.toPlainStr_injective e)
        have htree : n.nodeType = ascii "tree" := by
          by_contra hb
          rw [nodeObj_blob hb] at this
          rw [← this] at ht
          cases ht
        rw [nodeObj_tree htree] at this
        exact .item n o.id items i ih hn e htree (by rw [← this] at hd; exact hd) hi
    obtain ⟨n, hn, e⟩ := reach m.id hre
    refine ⟨nodeObj n, .node r appCommit m.id n hc hw (by rw [ed]; exact appCommit_decode) (down _ hre) hn e, ?_⟩
    refine (List.inj_on_of_nodup_map appObjects_ids (objs _ (.inl ⟨n, hn, rfl⟩)) hm ?_).symm
    show idOf polyExt (nodeObj n) = m.id
    rw [inv.id n hn] at e
    exact Hash.toPlainStr_injective e

/-- C71: after the push, the root directory of the commit is stored. -/
example : ∃ db r, StoreRun polyExt demoFold (ascii "/app") db ∧ r ∈ commitsAt demoFold db.commits (ascii "/app") ∧
    ∃ n ∈ db.nodes, n.gitId = Hash.toPlainStr (idOf polyExt (.tree, encodeTree appItems)) ∧ n.nodeType = ascii "tree" := by
  obtain ⟨pack, p, out, st', h1, h2, h3, h4, q6, objs, ⟨r, hr, ed, e3⟩, reach⟩ := app_after (ascii "/app") (ascii "/app")
  have hc : r ∈ commitsAt demoFold st'.db.commits (ascii "/app") := commitsAt_mem.2 ⟨hr, by rw [e3]⟩
  obtain ⟨c, k1, k2, _⟩ := C71_complete q6 (app_unique objs) r hc
  rw [ed, appCommit_decode] at k1
  cases k1
  exact ⟨st'.db, r, q6, hc, k2⟩

/-- C73: pushing the same objects to `/lib` as well does not change `/app`, also if the push fails half-way. -/
example (E : SqlExt) (hE : E.fold = demoFold) (fuel : Nat) : ∃ (db : Db) (pack : Bytes) (p : Pack), StoreRun polyExt demoFold (ascii "/app") db ∧
    decodePack polyExt (getHashObject polyExt E db) (fuel + 1) pack = .ok p ∧
    InRepo demoFold db (ascii "/app") (.commit, appCommit.encode) ∧
    (UniqueIds polyExt (savePackfile E (fuel + 1) p (ascii "/lib") db).2 → ∀ o,
      InRepo demoFold (savePackfile E (fuel + 1) p (ascii "/lib") db).2 (ascii "/app") o ↔ InRepo demoFold db (ascii "/app") o) := by
  obtain ⟨_, _, _, st', _, _, _, _, q6, objs, ⟨r, hr, ed, e3⟩, _⟩ := app_after (ascii "/app") (ascii "/app")
  have hc : r ∈ commitsAt demoFold st'.db.commits (ascii "/app") := commitsAt_mem.2 ⟨hr, by rw [e3]⟩
  obtain ⟨pack, p, _, _, h2, _⟩ := app_pack (getHashObject polyExt E st'.db) appObjects (fun _ h => h) (by decide) (by decide) (by decide +kernel) fuel
  refine ⟨st'.db, pack, p, q6, h2, by rw [← ed]; exact .commit r hc, fun hu o => ?_⟩
  exact C73_isolated q6 E hE (fuel + 1) pack p h2 (ascii "/lib") (by decide) hu o

/-- An annotated tag. -/
def appTag : MetaData := metaOf polyExt (.tag, (exampleTag (ascii "\nRelease\n")).encode)

theorem appTag_decode : Tag.decode appTag.data = .ok (exampleTag (ascii "\nRelease\n")) :=
  C11_tag_roundtrip_partial _ (exampleTag_ok _ (utf8Valid_ascii _ (by decide))) (ascii "Release\n") (by simp only [exampleTag]; decide)

theorem tag_reach {find find' : Hash → Option MetaData} (h : ∀ o, find' o.id = some o → find o.id = some o ∨ o.t = .tag) {x : Hash}
    (hx : Spec.PackReach find' x) : Spec.PackReach find x := by
  induction hx with
  | commit o c ho ht hd =>
    rcases h o ho with h | h
    · exact .commit o c h ht hd
    · rw [h] at ht; cases ht
  | item o items i _ ho ht hd hi ih =>
    rcases h o ho with h | h
    · exact .item o items i ih h ht hd hi
    · rw [h] at ht; cases ht

/-- Adding readable tags. -/
theorem tag_selfContained {find find' : Hash → Option MetaData} (hs : Spec.SelfContained find) (hm : ∀ x o, find x = some o → find' x = some o)
    (h : ∀ o, find' o.id = some o → find o.id = some o ∨ o.t = .tag ∧ ∃ g, Tag.decode o.data = .ok g) : Spec.SelfContained find' := by
  have hr : ∀ x, Spec.PackReach find' x → Spec.PackReach find x := fun x => tag_reach (fun o ho => (h o ho).imp id And.left)
  refine ⟨?_, ?_, ?_, ?_, ?_, ?_⟩
  · intro o ho
    rcases h o ho with h | ⟨h, _⟩
    · exact hs.kinds o h
    · exact .inr (.inr (.inr h))
  · intro o ho ht
    rcases h o ho with h | ⟨h, _⟩
    · obtain ⟨c, hc, t, h1, h2⟩ := hs.commits o h ht
      exact ⟨c, hc, t, hm _ _ h1, h2⟩
    · rw [h] at ht; cases ht
  · intro o ho ht
    rcases h o ho with h | ⟨h, _⟩
    · exact hs.trees o h ht
    · rw [h] at ht; cases ht
  · intro o ho ht
    rcases h o ho with h | ⟨_, h⟩
    · exact hs.tags o h ht
    · exact h
  · intro o items i hre ho ht hd hi
    rcases h o ho with h | ⟨h, _⟩
    · obtain ⟨x, h1, h2⟩ := hs.items o items i (hr _ hre) h ht hd hi
      exact ⟨x, hm _ _ h1, h2⟩
    · rw [h] at ht; cases ht
  · intro o items hre ho ht hd
    rcases h o ho with h | ⟨h, _⟩
    · exact hs.names o items (hr _ hre) h ht hd
    · rw [h] at ht; cases ht

/-- **C72 is false** for annotated tags: a pack with a commit and a tag is pushed and stored, and no clone answered afterwards, ever, contains a tag. -/
theorem C72_tags_lost_false : ∃ (pack : Bytes) (p : Pack) (db1 : Db), decodePack polyExt (getHashObject polyExt demoSql Db.empty) 2 pack = .ok p ∧
    (∀ h m, p.result.hashObject h = some m ↔ m ∈ appObjects ++ [appTag] ∧ m.id = h) ∧ appTag.t = .tag ∧ savePackfile demoSql 2 p (ascii "/app") Db.empty = (.ok (), db1) ∧
    StoreRun polyExt demoFold (ascii "/app") db1 ∧
    ∀ (X : Ext) (fold : Bytes → Bytes) (path : Bytes) (db : Db), StoreRun X fold path db → UniqueIds X db →
      (∀ a b : Hash, fold (Hash.toPlainStr a) = fold (Hash.toPlainStr b) → a = b) → FitsPack X db →
      ∀ (E : SqlExt) (fuel : Nat) (file : Bytes), E.fold = fold → getFullPack X E fuel db path = .ok file → ∃ ms, PackHas X file ms ∧ ∀ m ∈ ms, m.t ≠ .tag := by
  have ids : ((appObjects ++ [appTag]).map MetaData.id).Nodup := by decide +kernel
  obtain ⟨body, pack, p, _, _, h2, h3⟩ := C27_pack_roundtrip polyExt (getHashObject polyExt demoSql Db.empty) (appObjects ++ [appTag])
    (by
      intro m hm
      rcases List.mem_append.1 hm with hm | hm
      · exact appObjects_new m hm
      · rw [List.mem_singleton.1 hm]
        exact new_metaOf polyExt (.tag, _) rfl)
    (fun a ha b hb e => List.inj_on_of_nodup_map ids ha hb e) (by decide +kernel) (by decide) (by decide) (by decide +kernel) 1
  have h4 : ∀ h m, p.result.hashObject h = some m ↔ m ∈ appObjects ++ [appTag] ∧ m.id = h := h3.byId
  obtain ⟨hist, e, _⟩ := decodePack_hist h2
  classical
  -- the pack without the tag
  obtain ⟨find, hfind⟩ : ∃ find : Hash → Option MetaData, ∀ h m, find h = some m ↔ m ∈ appObjects ∧ m.id = h := by
    obtain ⟨_, q, _, _, _, hq⟩ := app_pack (fun _ => none) appObjects (fun _ h => h) (by decide) (by decide) (by decide +kernel) 1
    exact ⟨_, hq⟩
  have split : ∀ o, p.result.hashObject o.id = some o → find o.id = some o ∨ o.t = .tag ∧ ∃ g, Tag.decode o.data = .ok g := by
    intro o ho
    rcases List.mem_append.1 ((h4 _ _).1 ho).1 with hm | hm
    · exact .inl ((hfind _ _).2 ⟨hm, rfl⟩)
    · rw [List.mem_singleton.1 hm]
      exact .inr ⟨rfl, _, appTag_decode⟩
  have hs : Spec.SelfContained p.result.hashObject := tag_selfContained (app_selfContained hfind) (fun x o ho => by
    obtain ⟨a, b⟩ := (hfind _ _).1 ho
    exact (h4 _ _).2 ⟨List.mem_append_left _ a, b⟩) split
  obtain ⟨db1, h5⟩ := C48_push_succeeds_partial (by rw [e]; exact PackCache.keyed_run hist) hs appRank 2 (by
      intro o items i _ ho ht hd hi hty
      rcases List.mem_append.1 ((h4 _ _).1 ho).1 with this | hm
      · simp only [appObjects, appThin, List.mem_append, List.mem_cons, List.not_mem_nil, or_false] at this
        rcases this with (rfl | rfl | rfl | rfl) | rfl
        · cases ht
        · rw [show decodeTree (metaOf polyExt (.tree, encodeTree appItems)).data = .ok appItems from appItems_decode] at hd
          cases hd
          simp only [appItems, List.mem_cons, List.not_mem_nil, or_false] at hi
          rcases hi with rfl | rfl
          · cases hty
          · show appRank (idOf polyExt (.tree, encodeTree srcA)) < appRank (idOf polyExt (.tree, encodeTree appItems))
            decide +kernel
        · rw [show decodeTree (metaOf polyExt (.tree, encodeTree srcA)).data = .ok srcA from srcA_decode] at hd
          cases hd
          simp only [srcA, List.mem_cons, List.not_mem_nil, or_false] at hi
          subst hi
          cases hty
        · cases ht
        · cases ht
      · rw [List.mem_singleton.1 hm] at ht
        cases ht) (fun o c _ _ _ => appRank_small _) demoSql (fun _ _ => rfl) (ascii "/app") Db.empty
  have r1 := StoreRun.push (path := ascii "/app") demoSql 2 pack p (ascii "/app") Db.empty .empty rfl h2
  rw [h5] at r1
  refine ⟨pack, p, db1, h2, h4, rfl, h5, r1, ?_⟩
  intro X fold path db hrun hu hfold hfit E fuel file hf hclone
  obtain ⟨ms, m1, m2⟩ := clone_has hrun hu hfold hfit hf hclone
  refine ⟨ms, m1, fun m hm => ?_⟩
  obtain ⟨o, ho, rfl⟩ := (m2 m).1 hm
  show o.1 ≠ .tag
  rcases inRepo_kind ho with h | h | h <;> rw [h] <;> simp

end Gust

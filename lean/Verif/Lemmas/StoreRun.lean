import Verif.Lemmas.Clone
import Verif.Props.Nodes
import Verif.Props.Durable

/-! # Histories of the storage -/

namespace Gust

open Spec (nodeObj StoreReach commitsAt InRepo)

/-- Storage after any history of: pushes of any packs to any paths, which may also fail half-way or lose inserts; changes of refs; HEAD
requests for other paths than the one looked at, or for this one too when nothing is generated. Every step has its own database behaviour, with the same comparison of strings. -/
inductive StoreRun (X : Ext) (fold : Bytes → Bytes) (path : Bytes) : Db → Prop
  | empty : StoreRun X fold path Db.empty
  | push (E : SqlExt) (fuel : Nat) (file : Bytes) (p : Pack) (repo : Bytes) (db : Db) : StoreRun X fold path db → E.fold = fold →
      decodePack X (getHashObject X E db) fuel file = .ok p → StoreRun X fold path (savePackfile E fuel p repo db).2
  | ref (E : SqlExt) (cmd : RefCommand) (repo : Bytes) (db : Db) : StoreRun X fold path db → E.fold = fold → StoreRun X fold path (handleRefs E cmd repo db).2
  | head (E : SqlExt) (repo : Bytes) (db : Db) : StoreRun X fold path db → E.fold = fold →
      fold repo ≠ fold path ∨ (getHeadObjectId X E db repo).2 = db → StoreRun X fold path (getHeadObjectId X E db repo).2

/-- Ids of stored objects are unique (no SHA-1 collision among them). -/
def UniqueIds (X : Ext) (db : Db) : Prop := ∀ a b, StoredObj db a → StoredObj db b → idOf X a = idOf X b → a = b

/-- What holds at all times. -/
structure StoreInv (X : Ext) (fold : Bytes → Bytes) (path : Bytes) (db : Db) : Prop where
  type : ∀ n ∈ db.nodes, n.nodeType = ascii "tree" ∨ n.nodeType = ascii "blob"
  id : ∀ n ∈ db.nodes, n.gitId = Hash.toPlainStr (idOf X (nodeObj n))
  tree : ∀ n ∈ db.nodes, n.nodeType = ascii "tree" → ∃ items, decodeTree n.data = .ok items
  commits : ∀ r ∈ commitsAt fold db.commits path, ∃ c, Commit.decode r.data = .ok c ∧
    (∃ n ∈ db.nodes, n.gitId = Hash.toPlainStr c.treeId ∧ n.nodeType = ascii "tree") ∧
    ∀ h, StoreReach db.nodes c.treeId h → ∃ n ∈ db.nodes, n.gitId = Hash.toPlainStr h
  acyclic : ∀ r ∈ commitsAt fold db.commits path, ∀ c, Commit.decode r.data = .ok c → Acc (NodeChild db.nodes) c.treeId

/-- A step only adds rows of nodes and commits. -/
structure Extends (db db' : Db) : Prop where
  nodes : ∀ n ∈ db.nodes, n ∈ db'.nodes
  commits : ∀ c ∈ db.commits, c ∈ db'.commits

theorem Extends.stored {db db' : Db} (h : Extends db db') {o : Spec.Obj} (ho : StoredObj db o) : StoredObj db' o := by
  rcases ho with ⟨n, hn, e⟩ | ⟨c, hc, e⟩
  · exact .inl ⟨n, h.nodes n hn, e⟩
  · exact .inr ⟨c, h.commits c hc, e⟩

theorem Extends.unique {X : Ext} {db db' : Db} (h : Extends db db') (hu : UniqueIds X db') : UniqueIds X db :=
  fun a b ha hb => hu a b (h.stored ha) (h.stored hb)

theorem insertCommits_mem (E : SqlExt) : ∀ (bs : List (List CommitRow)) (db : Db),
    (∀ r ∈ db.commits, r ∈ (insertCommits E bs db).commits) ∧ ∀ r ∈ (insertCommits E bs db).commits, r ∈ db.commits ∨ r ∈ bs.flatten
  | [], db => ⟨fun _ h => h, fun _ h => .inl h⟩
  | b :: bs, db => by
    obtain ⟨h1, h2⟩ := insertCommits_mem E bs { db with
      commits := if E.acceptCommits db.inserts b then db.commits ++ b else db.commits, inserts := db.inserts + 1 }
    rw [insertCommits]
    constructor
    · intro r hr
      apply h1
      show r ∈ if E.acceptCommits db.inserts b then db.commits ++ b else db.commits
      split
      · exact List.mem_append_left _ hr
      · exact hr
    · intro r hr
      rcases h2 r hr with h | h
      · have h' : r ∈ if E.acceptCommits db.inserts b then db.commits ++ b else db.commits := h
        split at h'
        · rcases List.mem_append.1 h' with h | h
          · exact .inl h
          · exact .inr (by rw [List.flatten_cons]; exact List.mem_append_left _ h)
        · exact .inl h'
      · exact .inr (by rw [List.flatten_cons]; exact List.mem_append_right _ h)

theorem saveCommits_mem (E : SqlExt) (cs : List CommitObj) (path : Bytes) (db : Db) :
    (∀ r ∈ db.commits, r ∈ (saveCommits E cs path db).commits) ∧
      ∀ r ∈ (saveCommits E cs path db).commits, r ∈ db.commits ∨ r ∈ cs.map (fun c => c.row path) := by
  obtain ⟨h1, h2⟩ := insertCommits_mem E (chunks 100 cs.length (cs.map (fun c => c.row path))) db
  refine ⟨h1, fun r hr => ?_⟩
  rw [chunks_flatten 100 (by simp) _ _ (by simp)] at h2
  exact h2 r hr

theorem buildCommits_roots {R : Repo} {fuel : Nat} : ∀ (cs : List CommitObj) (cache : List Hash) (rows : List NodeRow),
    buildCommits R fuel cs cache = .ok rows → ∀ c ∈ cs, ∃ t, R.treeMap c.commit.treeId = some t
  | [], _, _, _ => by simp
  | c :: cs, cache, rows, h => by
    simp only [buildCommits, Res.bind_eq_ok, Res.unwrapOpt_eq_ok] at h
    obtain ⟨t, ht, ⟨root, cache1⟩, _, rest, hrest, _⟩ := h
    intro x hx
    rcases List.mem_cons.1 hx with rfl | hx
    · exact ⟨t, ht⟩
    · exact buildCommits_roots cs cache1 rest hrest x hx

/-- What a push, successful or not, did to the storage. -/
theorem push_effect {X : Ext} {St : ObjectSource} {file : Bytes} {fuel0 : Nat} {p : Pack} (hdec : decodePack X St fuel0 file = .ok p)
    (E : SqlExt) (fuel : Nat) (path : Bytes) (db : Db) :
    ∃ rows, (savePackfile E fuel p path db).2.nodes = db.nodes ++ rows ∧
      (∀ r ∈ rows, ∃ o, p.result.hashObject o.id = some o ∧ o = metaOf X (nodeObj r) ∧ r.gitId = Hash.toPlainStr o.id ∧
        (r.nodeType = ascii "tree" ∧ (∃ items, decodeTree r.data = .ok items) ∨ r.nodeType = ascii "blob")) ∧
      (∀ c ∈ db.commits, c ∈ (savePackfile E fuel p path db).2.commits) ∧
      ∀ r ∈ (savePackfile E fuel p path db).2.commits, r ∈ db.commits ∨
        (r.repoPath = path ∧ (∀ x, Spec.PackReach p.result.hashObject x → ∃ n ∈ rows, n.gitId = Hash.toPlainStr x) ∧
          ∃ o c, p.result.hashObject o.id = some o ∧ o.t = .commit ∧ r.data = o.data ∧ Commit.decode o.data = .ok c ∧
            ∃ n ∈ rows, n.gitId = Hash.toPlainStr c.treeId ∧ n.nodeType = ascii "tree") := by
  obtain ⟨hist, ehist, hok⟩ := decodePack_hist hdec
  have objs : ∀ o, p.result.hashObject o.id = some o → metaOf X (o.t, o.data) = o := by
    intro o ho
    rw [ehist, PackCache.hashObject_run] at ho
    obtain ⟨q, hq, rfl⟩ := Option.map_eq_some_iff.1 ho
    exact (metaOf_of_new (hok q (PackCache.lastWith_some hq).1).2).2
  cases hp : E.pool p.result with
  | ok D =>
    have hH : D.Holds p.result := C36_each_object_once hdec (by have := E.pool_outcome p.result; rwa [hp] at this)
    cases hb : buildNodeTree fuel D with
    | ok rows =>
      obtain ⟨r1, r2⟩ := buildCommits_ok (repo_faithful hH) (repo_disjoint hH) D.commits [] rows (by intro h hh; cases hh) hb
      have rowsOk : ∀ r ∈ rows, ∃ o, p.result.hashObject o.id = some o ∧ o = metaOf X (nodeObj r) ∧ r.gitId = Hash.toPlainStr o.id ∧
          (r.nodeType = ascii "tree" ∧ (∃ items, decodeTree r.data = .ok items) ∨ r.nodeType = ascii "blob") := by
        intro r hr
        cases r1 r hr with
        | tree x t _ a b c d =>
          obtain ⟨hm, _⟩ := (repo_tree hH x t).1 a
          obtain ⟨q1, q2⟩ := (hH.trees t.base).1 (List.mem_map_of_mem hm)
          refine ⟨t.base, q2, ?_, b, .inl ⟨c, t.items, by rw [d]; exact hH.treeItems t hm⟩⟩
          rw [nodeObj_tree c, d, ← q1, objs _ q2]
        | blob x t _ a b c d =>
          obtain ⟨hm, _⟩ := (repo_blob hH x t).1 a
          obtain ⟨q1, q2⟩ := (hH.blobs t.base).1 (List.mem_map_of_mem hm)
          refine ⟨t.base, q2, ?_, b, .inr c⟩
          rw [nodeObj_blob (by rw [c]; decide), d, ← q1, objs _ q2]
      rcases hs : saveNodes E rows db with ⟨r, db1⟩
      cases r with
      | ok u =>
        obtain ⟨s1, s2, _⟩ := saveNodes_ok hs
        have e : savePackfile E fuel p path db = (.ok (), saveCommits E D.commits path db1) := by
          unfold savePackfile
          rw [hp]
          simp only
          rw [hb]
          simp only
          rw [hs]
        rw [e]
        obtain ⟨c1, _, _⟩ := saveCommits_eq E D.commits path db1
        obtain ⟨m1, m2⟩ := saveCommits_mem E D.commits path db1
        refine ⟨rows, by rw [c1, s1], rowsOk, fun c hc => m1 c (by rw [s2]; exact hc), fun r hr => ?_⟩
        rcases m2 r hr with h | h
        · exact .inl (by rw [← s2]; exact h)
        · obtain ⟨co, hm, rfl⟩ := List.mem_map.1 h
          obtain ⟨q1, q2⟩ := (hH.commits co.base).1 (List.mem_map_of_mem hm)
          have below : ∀ x, Below (Repo.of D) (D.commits.map (fun c => c.commit.treeId)) x → ∃ n ∈ rows, n.gitId = Hash.toPlainStr x := by
            intro x hx
            rcases r2 x hx with hh | hh
            · cases hh
            · exact hh
          refine .inr ⟨rfl, fun x hx => below x ((repo_below hH x).2 hx), co.base, co.commit, q2, q1, rfl, hH.commitFields co hm, ?_⟩
          obtain ⟨n, hn, e⟩ := below co.commit.treeId (.root _ (List.mem_map_of_mem hm))
          obtain ⟨t, ht⟩ := buildCommits_roots D.commits [] rows hb co hm
          refine ⟨n, hn, e, ?_⟩
          cases r1 n hn with
          | tree x t _ a b c d => exact c
          | blob x t' _ a b c d =>
            have := ((repo_blob hH x t').1 a).2
            rw [b, this] at e
            rw [Hash.toPlainStr_injective e] at a
            exact (repo_disjoint hH _ _ _ ht a).elim
      | err e =>
        obtain ⟨bs, b1, _, _, k, b4, b5, _, b7⟩ := C51_batches_partial E rows db
        rw [hs] at b7
        rcases b7 with ⟨h, _⟩ | ⟨h, _⟩ <;> cases h
      | spin =>
        obtain ⟨bs, b1, _, _, k, b4, b5, _, b7⟩ := C51_batches_partial E rows db
        rw [hs] at b7
        rcases b7 with ⟨h, _⟩ | ⟨h, _⟩ <;> cases h
      | panic =>
        obtain ⟨bs, b1, _, _, k, b4, b5, _, b7⟩ := C51_batches_partial E rows db
        rw [hs] at b4 b5
        have e : savePackfile E fuel p path db = (.panic, db1) := by
          unfold savePackfile
          rw [hp]
          simp only
          rw [hb]
          simp only
          rw [hs]
        rw [e]
        refine ⟨(bs.take k).flatten, b4, fun r hr => ?_, fun c hc => by rw [b5]; exact hc, fun r hr => .inl (by rw [← b5]; exact hr)⟩
        apply rowsOk r
        rw [← b1]
        obtain ⟨l, hl, hr⟩ := List.mem_flatten.1 hr
        exact List.mem_flatten.2 ⟨l, List.mem_of_mem_take hl, hr⟩
    | _ =>
      have e : (savePackfile E fuel p path db).2 = db := by
        unfold savePackfile
        rw [hp]
        simp only
        rw [hb]
      rw [e]
      exact ⟨[], by simp, by simp, fun _ h => h, fun _ h => .inl h⟩
  | _ =>
    have e : (savePackfile E fuel p path db).2 = db := by
      unfold savePackfile
      rw [hp]
    rw [e]
    exact ⟨[], by simp, by simp, fun _ h => h, fun _ h => .inl h⟩

/-- The ids listed in a tree of a pack. -/
def PackChild (find : Hash → Option MetaData) (a b : Hash) : Prop :=
  ∃ o, find b = some o ∧ o.id = b ∧ o.t = .tree ∧ ∃ items, decodeTree o.data = .ok items ∧ ∃ i ∈ items, a = i.id

theorem buildNodeTree_acyclic {D : ObjDecodedMap} {c : PackCache} (hH : D.Holds c) {fuel : Nat} {rows : List NodeRow} (hb : buildNodeTree fuel D = .ok rows) :
    ∀ co ∈ D.commits, Acc (PackChild c.hashObject) co.commit.treeId := by
  intro co hco
  refine Subrelation.accessible ?_ (((buildCommits_built (repo_faithful hH) (repo_disjoint hH) D.commits [] rows (by intro h hh; cases hh) hb).1 co hco).acc (repo_disjoint hH))
  rintro a b ⟨o, h1, rfl, h2, items, h3, i, hi, rfl⟩
  obtain ⟨t, ht, _, e⟩ := repo_tree_of hH h1 h2
  rw [h3] at e
  cases e
  exact ⟨t, ht, i, hi, rfl⟩

/-- Directories do not contain themselves: such a push fails before any commit is stored. -/
theorem push_acyclic {X : Ext} {St : ObjectSource} {file : Bytes} {fuel0 : Nat} {p : Pack} (hdec : decodePack X St fuel0 file = .ok p)
    (E : SqlExt) (fuel : Nat) (path : Bytes) (db : Db) :
    ∀ r ∈ (savePackfile E fuel p path db).2.commits, r ∈ db.commits ∨ ∀ c, Commit.decode r.data = .ok c → Acc (PackChild p.result.hashObject) c.treeId := by
  unfold savePackfile
  cases hp : E.pool p.result with
  | ok D =>
    have hH : D.Holds p.result := C36_each_object_once hdec (by have := E.pool_outcome p.result; rwa [hp] at this)
    simp only
    cases hb : buildNodeTree fuel D with
    | ok rows =>
      simp only
      rcases hs : saveNodes E rows db with ⟨r, db1⟩
      have hold : db1.commits = db.commits := by
        obtain ⟨bs, b1, _, _, k, b4, b5, _, b7⟩ := C51_batches_partial E rows db
        rw [hs] at b5
        exact b5
      cases r with
      | ok u =>
        intro r hr
        rcases (saveCommits_mem E D.commits path db1).2 r hr with h | h
        · exact .inl (by rw [← hold]; exact h)
        · obtain ⟨co, hm, rfl⟩ := List.mem_map.1 h
          refine .inr fun c hc => ?_
          have := hH.commitFields co hm
          have hc : Commit.decode co.base.data = .ok c := hc
          rw [this] at hc
          cases hc
          exact buildNodeTree_acyclic hH hb co hm
      | err e => exact fun r hr => .inl (by rw [← hold]; exact hr)
      | spin => exact fun r hr => .inl (by rw [← hold]; exact hr)
      | panic => exact fun r hr => .inl (by rw [← hold]; exact hr)
    | _ => exact fun r hr => .inl hr
  | _ => exact fun r hr => .inl hr

theorem handleRefs_only (E : SqlExt) (cmd : RefCommand) (path : Bytes) (db : Db) :
    (handleRefs E cmd path db).2.nodes = db.nodes ∧ (handleRefs E cmd path db).2.commits = db.commits := by
  unfold handleRefs
  cases cmd.commandType with
  | create => exact ⟨(saveRefs_eq E cmd path db).1, (saveRefs_eq E cmd path db).2.1⟩
  | delete => exact ⟨rfl, rfl⟩
  | update =>
    simp only [updateRefs]
    split
    · split <;> exact ⟨rfl, rfl⟩
    · exact ⟨rfl, rfl⟩

theorem generateChild_only (X : Ext) (E : SqlExt) (ref : RefRow) (path : Bytes) (db : Db) :
    (generateChild X E ref path db).2.nodes = db.nodes ∧ (∀ c ∈ db.commits, c ∈ (generateChild X E ref path db).2.commits) ∧
      ∀ c ∈ (generateChild X E ref path db).2.commits, c ∈ db.commits ∨ c.repoPath = path := by
  have same : db.nodes = db.nodes ∧ (∀ c ∈ db.commits, c ∈ db.commits) ∧ ∀ c ∈ db.commits, c ∈ db.commits ∨ c.repoPath = path :=
    ⟨rfl, fun _ h => h, fun _ h => .inl h⟩
  unfold generateChild
  split
  · exact same
  · split
    · split
      · rename_i child _
        simp only
        obtain ⟨i1, i2, _⟩ := insertRefs_only E (chunks 100 1 [({ repoPath := path, refName := ref.refName, refGitId := Hash.toPlainStr child.base.id } : RefRow)])
          (saveCommits E [child] path db)
        obtain ⟨m1, m2⟩ := saveCommits_mem E [child] path db
        rw [i1, i2]
        refine ⟨(saveCommits_eq E [child] path db).1, m1, fun c hc => ?_⟩
        rcases m2 c hc with h | h
        · exact .inl h
        · rw [List.map_singleton, List.mem_singleton] at h
          exact .inr (by rw [h]; rfl)
      · exact same
      · exact same
    · exact same
    · exact same
    · exact same

theorem getHead_only (X : Ext) (E : SqlExt) (path : Bytes) (db : Db) :
    (getHeadObjectId X E db path).2.nodes = db.nodes ∧ (∀ c ∈ db.commits, c ∈ (getHeadObjectId X E db path).2.commits) ∧
      ∀ c ∈ (getHeadObjectId X E db path).2.commits, c ∈ db.commits ∨ c.repoPath = path := by
  unfold getHeadObjectId
  split
  · exact ⟨rfl, fun _ h => h, fun _ h => .inl h⟩
  · split
    · exact generateChild_only X E _ path db
    · exact ⟨rfl, fun _ h => h, fun _ h => .inl h⟩

/-- More rows do not make more reachable from a complete root. -/
theorem reach_back {X : Ext} {nodes nodes' : List NodeRow} (hsub : ∀ n ∈ nodes, n ∈ nodes')
    (hsame : ∀ a ∈ nodes', ∀ b ∈ nodes', a.gitId = b.gitId → nodeObj a = nodeObj b) {root : Hash}
    (hall : ∀ h, StoreReach nodes root h → ∃ n ∈ nodes, n.gitId = Hash.toPlainStr h) {h : Hash} (hr : StoreReach nodes' root h) :
    StoreReach nodes root h := by
  induction hr with
  | refl => exact .refl
  | item n t items i _ h1 h2 h3 h4 h5 ih =>
    obtain ⟨n0, hn0, e0⟩ := hall t ih
    have e := hsame n0 (hsub n0 hn0) n h1 (by rw [e0, h2])
    have ht := tree_of_obj e h3
    rw [nodeObj_tree ht, nodeObj_tree h3] at e
    exact .item n0 t items i ih hn0 e0 ht (by rw [(Prod.mk.inj e).2]; exact h4) h5

/-- A complete root stays without cycles when rows are added. -/
theorem acyclic_extends {X : Ext} {nodes nodes' : List NodeRow} (hsub : ∀ n ∈ nodes, n ∈ nodes')
    (hsame : ∀ a ∈ nodes', ∀ b ∈ nodes', a.gitId = b.gitId → nodeObj a = nodeObj b) {root : Hash} (hac : Acc (NodeChild nodes) root)
    (hall : ∀ h, StoreReach nodes root h → ∃ n ∈ nodes, n.gitId = Hash.toPlainStr h) : Acc (NodeChild nodes') root := by
  induction hac with
  | intro x _ ih =>
    constructor
    rintro y ⟨n, hn, e1, e2, items, e3, i, hi, rfl⟩
    obtain ⟨n0, hn0, e0⟩ := hall x .refl
    have e := hsame n0 (hsub n0 hn0) n hn (by rw [e0, e1])
    have ht := tree_of_obj e e2
    rw [nodeObj_tree ht, nodeObj_tree e2] at e
    have hd : decodeTree n0.data = .ok items := by rw [(Prod.mk.inj e).2]; exact e3
    exact ih _ ⟨n0, hn0, e0, ht, items, hd, i, hi, rfl⟩
      (fun h hr => hall h (StoreReach.trans (.item n0 x items i .refl hn0 e0 ht hd hi) hr))

/-- Nothing below the tree of a commit contains itself when this is so in the pack it came from. -/
theorem acyclic_of_pack {X : Ext} {nodes : List NodeRow} {find : Hash → Option MetaData}
    (hsame : ∀ a ∈ nodes, ∀ b ∈ nodes, a.gitId = b.gitId → nodeObj a = nodeObj b)
    (hall : ∀ x, Spec.PackReach find x → ∃ n ∈ nodes, ∃ o, find o.id = some o ∧ o.id = x ∧ o = metaOf X (nodeObj n) ∧ n.gitId = Hash.toPlainStr x)
    {root : Hash} (hac : Acc (PackChild find) root) (hr : Spec.PackReach find root) : Acc (NodeChild nodes) root := by
  induction hac with
  | intro x _ ih =>
    constructor
    rintro y ⟨n, hn, e1, e2, items, e3, i, hi, rfl⟩
    obtain ⟨n0, hn0, o, ho, rfl, eo, e0⟩ := hall x hr
    have e := hsame n0 hn0 n hn (by rw [e0, e1])
    rw [e, nodeObj_tree e2] at eo
    have ht : o.t = .tree := by rw [eo]; rfl
    have hd : decodeTree o.data = .ok items := by rw [eo]; exact e3
    exact ih _ ⟨o, ho, rfl, ht, items, hd, i, hi, rfl⟩ (.item o items i hr ho ht hd hi)

theorem storeRun_inv {X : Ext} {fold : Bytes → Bytes} {path : Bytes} {db : Db} (h : StoreRun X fold path db) (hu : UniqueIds X db) :
    StoreInv X fold path db := by
  induction h with
  | empty =>
    refine ⟨?_, ?_, ?_, ?_, ?_⟩
    · intro n h; cases h
    · intro n h; cases h
    · intro n h; cases h
    · intro n h; cases h
    · intro n h; cases h
  | ref E cmd repo db _ _ ih =>
    obtain ⟨h1, h2⟩ := handleRefs_only E cmd repo db
    have inv := ih (Extends.unique ⟨fun n hn => by rw [h1]; exact hn, fun c hc => by rw [h2]; exact hc⟩ hu)
    exact ⟨by rw [h1]; exact inv.type, by rw [h1]; exact inv.id, by rw [h1]; exact inv.tree, by rw [h1, h2]; exact inv.commits, by rw [h1, h2]; exact inv.acyclic⟩
  | head E repo db _ hf hne ih =>
    obtain ⟨h1, h2, h3⟩ := getHead_only X E repo db
    have inv := ih (Extends.unique ⟨fun n hn => by rw [h1]; exact hn, h2⟩ hu)
    refine ⟨by rw [h1]; exact inv.type, by rw [h1]; exact inv.id, by rw [h1]; exact inv.tree, ?_, ?_⟩
    all_goals
      rw [h1]
      intro r hr
      obtain ⟨q1, q2⟩ := commitsAt_mem.1 hr
      have old : r ∈ commitsAt fold db.commits path := by
        rcases h3 r q1 with h | h
        · exact commitsAt_mem.2 ⟨h, q2⟩
        · rcases hne with hne | hne
          · rw [h] at q2
            exact absurd q2 hne
          · rw [hne] at q1
            exact commitsAt_mem.2 ⟨q1, q2⟩
    · exact inv.commits r old
    · exact inv.acyclic r old
  | push E fuel file p repo db _ hf hdec ih =>
    obtain ⟨rows, h1, h2, h3, h4⟩ := push_effect hdec E fuel repo db
    have ext : Extends db (savePackfile E fuel p repo db).2 := ⟨fun n hn => by rw [h1]; exact List.mem_append_left _ hn, h3⟩
    have inv := ih (ext.unique hu)
    have hid : ∀ n ∈ (savePackfile E fuel p repo db).2.nodes, n.gitId = Hash.toPlainStr (idOf X (nodeObj n)) := by
      rw [h1]
      intro n hn
      rcases List.mem_append.1 hn with hn | hn
      · exact inv.id n hn
      · obtain ⟨o, _, e1, e2, _⟩ := h2 n hn
        rw [e2, e1]
        rfl
    have hsame : ∀ a ∈ (savePackfile E fuel p repo db).2.nodes, ∀ b ∈ (savePackfile E fuel p repo db).2.nodes, a.gitId = b.gitId → nodeObj a = nodeObj b := by
      intro a ha b hb e
      rw [hid a ha, hid b hb] at e
      exact hu _ _ (.inl ⟨a, ha, rfl⟩) (.inl ⟨b, hb, rfl⟩) (Hash.toPlainStr_injective e)
    refine ⟨?_, hid, ?_, ?_, ?_⟩
    · rw [h1]
      intro n hn
      rcases List.mem_append.1 hn with hn | hn
      · exact inv.type n hn
      · obtain ⟨o, _, _, _, h | h⟩ := h2 n hn
        · exact .inl h.1
        · exact .inr h
    · rw [h1]
      intro n hn ht
      rcases List.mem_append.1 hn with hn | hn
      · exact inv.tree n hn ht
      · obtain ⟨o, _, _, _, h | h⟩ := h2 n hn
        · exact h.2
        · rw [ht] at h; exact absurd h (by decide)
    · intro r hr
      obtain ⟨q1, q2⟩ := commitsAt_mem.1 hr
      rcases h4 r q1 with hold | ⟨_, hall, o, c, ho, ht, hd, hdc, n, hn, e1, e2⟩
      · obtain ⟨c, k1, ⟨n, hn, k2, k3⟩, k4⟩ := inv.commits r (commitsAt_mem.2 ⟨hold, q2⟩)
        refine ⟨c, k1, ⟨n, ext.nodes n hn, k2, k3⟩, fun x hx => ?_⟩
        obtain ⟨n', hn', e'⟩ := k4 x (reach_back (X := X) ext.nodes hsame k4 hx)
        exact ⟨n', ext.nodes n' hn', e'⟩
      · have reach : ∀ x, StoreReach (savePackfile E fuel p repo db).2.nodes c.treeId x → Spec.PackReach p.result.hashObject x := by
          intro x hx
          induction hx with
          | refl => exact .commit o c ho ht hdc
          | item n t items i _ g1 g2 g3 g4 g5 ih =>
            obtain ⟨n0, hn0, e0⟩ := hall t ih
            obtain ⟨o', ho', eo, eg, _⟩ := h2 n0 hn0
            have e := hsame n0 (by rw [h1]; exact List.mem_append_right _ hn0) n g1 (by rw [e0, g2])
            have et : o'.id = t := Hash.toPlainStr_injective (by rw [← eg, e0])
            rw [e, nodeObj_tree g3] at eo
            refine .item o' items i (by rw [et]; exact ih) ho' (by rw [eo]; rfl) (by rw [eo]; exact g4) g5
        refine ⟨c, by rw [hd]; exact hdc, ⟨n, by rw [h1]; exact List.mem_append_right _ hn, e1, e2⟩, fun x hx => ?_⟩
        obtain ⟨n', hn', e'⟩ := hall x (reach x hx)
        exact ⟨n', by rw [h1]; exact List.mem_append_right _ hn', e'⟩
    · intro r hr c hdc
      obtain ⟨q1, q2⟩ := commitsAt_mem.1 hr
      by_cases hold : r ∈ db.commits
      · obtain ⟨c', k1, _, k4⟩ := inv.commits r (commitsAt_mem.2 ⟨hold, q2⟩)
        rw [hdc] at k1
        cases k1
        exact acyclic_extends (X := X) ext.nodes hsame (inv.acyclic r (commitsAt_mem.2 ⟨hold, q2⟩) c hdc) k4
      · rcases push_acyclic hdec E fuel repo db r q1 with h | hac
        · exact absurd h hold
        · rcases h4 r q1 with h | ⟨_, hall, o, c', ho, ht, hd, hdc', _⟩
          · exact absurd h hold
          · rw [hd, hdc'] at hdc
            cases hdc
            refine acyclic_of_pack (X := X) hsame (fun x hx => ?_) (hac c (by rw [hd]; exact hdc')) (.commit o c ho ht hdc')
            obtain ⟨n, hn, e⟩ := hall x hx
            obtain ⟨o', ho', eo, eg, _⟩ := h2 n hn
            exact ⟨n, by rw [h1]; exact List.mem_append_right _ hn, o', ho', Hash.toPlainStr_injective (by rw [← eg, e]), eo, e⟩

/-- Directories are not nested deeper than there are rows. -/
theorem StoreInv.nested {X : Ext} {fold : Bytes → Bytes} {path : Bytes} {db : Db} (inv : StoreInv X fold path db) {r : CommitRow}
    (hr : r ∈ commitsAt fold db.commits path) {c : Commit} (hc : Commit.decode r.data = .ok c) {fuel : Nat} (hfuel : db.nodes.length ≤ fuel) :
    Spec.NestedWithin db.nodes fuel c.treeId := by
  have hac := inv.acyclic r hr c hc
  obtain ⟨c', hc', ⟨n, hn, e, _⟩, _⟩ := inv.commits r hr
  rw [hc] at hc'
  cases hc'
  exact nested_of_acyclic fuel _ hac (Nat.lt_of_lt_of_le (below_card hac ⟨n, hn, e⟩) hfuel)

/-- The hypotheses of the clone theorems hold after every history. -/
theorem storeRun_ok {X : Ext} {fold : Bytes → Bytes} {path : Bytes} {db : Db} (h : StoreRun X fold path db) (hu : UniqueIds X db)
    {E : SqlExt} (hf : E.fold = fold) (hfold : ∀ a b : Hash, fold (Hash.toPlainStr a) = fold (Hash.toPlainStr b) → a = b) :
    StoreOk X E db ∧ RootsOk E db path := by
  have inv := storeRun_inv h hu
  refine ⟨⟨inv.type, inv.id, hu, by rw [hf]; exact hfold, inv.tree⟩, ?_⟩
  intro r hr
  rw [hf] at hr
  obtain ⟨c, h1, h2, _⟩ := inv.commits r hr
  exact ⟨c, h1, h2⟩

end Gust

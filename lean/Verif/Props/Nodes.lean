import Verif.Spec.Storage
import Verif.Lemmas.Nodes
import Verif.Lemmas.DemoSql
import Verif.Props.ObjMap
import Verif.Props.Storage
import Verif.Lemmas.DemoRepo

/-! # C48: what a push stores -/

namespace Gust

/-- The objects of a decoded map, looked up the way `Repo` does. -/
theorem repo_tree {D : ObjDecodedMap} {c : PackCache} (h : D.Holds c) (x : Hash) (t : TreeObj) :
    (Repo.of D).treeMap x = some t ↔ t ∈ D.trees ∧ t.base.id = x := by
  have uniq : ∀ a ∈ D.trees, ∀ b ∈ D.trees, a.base.id = b.base.id → a = b := by
    intro a ha b hb e
    have h1 := ((h.trees a.base).1 (List.mem_map_of_mem ha)).2
    have h2 := ((h.trees b.base).1 (List.mem_map_of_mem hb)).2
    rw [e, h2] at h1
    exact List.inj_on_of_nodup_map h.treesOnce ha hb (by simpa using h1.symm)
  constructor
  · intro hf
    have := List.mem_of_find?_eq_some hf
    have e := List.find?_some hf
    exact ⟨by simpa using this, eq_of_beq e⟩
  · rintro ⟨hm, rfl⟩
    show D.trees.reverse.find? (fun t' => t'.base.id == t.base.id) = some t
    cases hf : D.trees.reverse.find? (fun t' => t'.base.id == t.base.id) with
    | none =>
      have := List.find?_eq_none.1 hf t (by simpa using hm)
      simp at this
    | some t' =>
      have hm' := List.mem_of_find?_eq_some hf
      have e := List.find?_some hf
      rw [uniq t' (by simpa using hm') t hm (eq_of_beq e)]

theorem repo_blob {D : ObjDecodedMap} {c : PackCache} (h : D.Holds c) (x : Hash) (t : BlobObj) :
    (Repo.of D).blobMap x = some t ↔ t ∈ D.blobs ∧ t.base.id = x := by
  have uniq : ∀ a ∈ D.blobs, ∀ b ∈ D.blobs, a.base.id = b.base.id → a = b := by
    intro a ha b hb e
    have h1 := ((h.blobs a.base).1 (List.mem_map_of_mem ha)).2
    have h2 := ((h.blobs b.base).1 (List.mem_map_of_mem hb)).2
    rw [e, h2] at h1
    exact List.inj_on_of_nodup_map h.blobsOnce ha hb (by simpa using h1.symm)
  constructor
  · intro hf
    have := List.mem_of_find?_eq_some hf
    have e := List.find?_some hf
    exact ⟨by simpa using this, eq_of_beq e⟩
  · rintro ⟨hm, rfl⟩
    show D.blobs.reverse.find? (fun t' => t'.base.id == t.base.id) = some t
    cases hf : D.blobs.reverse.find? (fun t' => t'.base.id == t.base.id) with
    | none =>
      have := List.find?_eq_none.1 hf t (by simpa using hm)
      simp at this
    | some t' =>
      have hm' := List.mem_of_find?_eq_some hf
      have e := List.find?_some hf
      rw [uniq t' (by simpa using hm') t hm (eq_of_beq e)]

theorem repo_faithful {D : ObjDecodedMap} {c : PackCache} (h : D.Holds c) : (Repo.of D).Faithful :=
  ⟨fun x t ht => ((repo_tree h x t).1 ht).2, fun x t ht => ((repo_blob h x t).1 ht).2⟩

theorem repo_disjoint {D : ObjDecodedMap} {c : PackCache} (h : D.Holds c) :
    ∀ x t b, (Repo.of D).treeMap x = some t → (Repo.of D).blobMap x = some b → False := by
  intro x t b ht hb
  obtain ⟨h1, e1⟩ := (repo_tree h x t).1 ht
  obtain ⟨h2, e2⟩ := (repo_blob h x b).1 hb
  have a := (h.trees t.base).1 (List.mem_map_of_mem h1)
  have b' := (h.blobs b.base).1 (List.mem_map_of_mem h2)
  have a2 := a.2
  rw [e1, ← e2, b'.2] at a2
  have := congrArg MetaData.t (Option.some.inj a2)
  rw [a.1, b'.1] at this
  cases this

/-- A tree object of the pack, as `Repo` finds it. -/
theorem repo_tree_of {D : ObjDecodedMap} {c : PackCache} (h : D.Holds c) {o : MetaData} (ho : c.hashObject o.id = some o) (ht : o.t = .tree) :
    ∃ t, (Repo.of D).treeMap o.id = some t ∧ t.base = o ∧ decodeTree o.data = .ok t.items := by
  obtain ⟨t, hm, e⟩ := List.mem_map.1 ((h.trees o).2 ⟨ht, ho⟩)
  refine ⟨t, (repo_tree h _ _).2 ⟨hm, by rw [e]⟩, e, ?_⟩
  rw [← e]
  exact h.treeItems t hm

theorem repo_below {D : ObjDecodedMap} {c : PackCache} (h : D.Holds c) (x : Hash) :
    Below (Repo.of D) (D.commits.map (fun c => c.commit.treeId)) x ↔ Spec.PackReach c.hashObject x := by
  constructor
  · intro hb
    induction hb with
    | root x hm =>
      obtain ⟨co, hco, rfl⟩ := List.mem_map.1 hm
      obtain ⟨a, b⟩ := (h.commits co.base).1 (List.mem_map_of_mem hco)
      exact .commit co.base co.commit b a (h.commitFields co hco)
    | item x t i _ ht hi ih =>
      obtain ⟨hm, rfl⟩ := (repo_tree h x t).1 ht
      obtain ⟨a, b⟩ := (h.trees t.base).1 (List.mem_map_of_mem hm)
      exact .item t.base t.items i ih b a (h.treeItems t hm) hi
  · intro hr
    induction hr with
    | commit o cm ho ht hd =>
      obtain ⟨co, hm, e⟩ := List.mem_map.1 ((h.commits o).2 ⟨ht, ho⟩)
      have := h.commitFields co hm
      rw [e, hd] at this
      refine .root _ (List.mem_map.2 ⟨co, hm, ?_⟩)
      rw [Res.ok.inj this]
    | item o items i _ ho ht hd hi ih =>
      obtain ⟨t, h1, h2, h3⟩ := repo_tree_of h ho ht
      rw [hd] at h3
      exact .item o.id t i ih h1 (by rw [← Res.ok.inj h3]; exact hi)

/-- How a successful `save_packfile` ended. -/
theorem savePackfile_ok {E : SqlExt} {fuel : Nat} {p : Pack} {path : Bytes} {db db' : Db} (h : savePackfile E fuel p path db = (.ok (), db')) :
    ∃ D rows db1, E.pool p.result = .ok D ∧ buildNodeTree fuel D = .ok rows ∧ saveNodes E rows db = (.ok (), db1) ∧
      db' = saveCommits E D.commits path db1 := by
  unfold savePackfile at h
  cases hp : E.pool p.result with
  | ok D =>
    rw [hp] at h
    simp only at h
    cases hb : buildNodeTree fuel D with
    | ok rows =>
      rw [hb] at h
      simp only at h
      cases hs : saveNodes E rows db with
      | mk r db1 =>
        rw [hs] at h
        cases r with
        | ok u => simp only [Prod.mk.injEq, true_and] at h; exact ⟨D, rows, db1, rfl, hb, hs, h.symm⟩
        | err e => simp at h
        | panic => simp at h
        | spin => simp at h
    | err e => rw [hb] at h; simp at h
    | panic => rw [hb] at h; simp at h
    | spin => rw [hb] at h; simp at h
  | err e => rw [hp] at h; simp at h
  | panic => rw [hp] at h; simp at h
  | spin => rw [hp] at h; simp at h

theorem saveNodes_ok {E : SqlExt} {rows : List NodeRow} {db db' : Db} (h : saveNodes E rows db = (.ok (), db')) :
    db'.nodes = db.nodes ++ rows ∧ db'.commits = db.commits ∧ db'.refs = db.refs := by
  obtain ⟨bs, h1, _, _, k, h2, h3, h4, h5⟩ := C51_batches_partial E rows db
  rw [h] at h2 h3 h4 h5
  rcases h5 with ⟨_, h5⟩ | ⟨h5, _⟩
  · exact ⟨h5, h3, h4⟩
  · cases h5

theorem insertCommits_only (E : SqlExt) : ∀ (bs : List (List CommitRow)) (db : Db),
    (insertCommits E bs db).nodes = db.nodes ∧ (insertCommits E bs db).refs = db.refs ∧
      ((∀ n rows, E.acceptCommits n rows = true) → (insertCommits E bs db).commits = db.commits ++ bs.flatten)
  | [], db => ⟨rfl, rfl, fun _ => by simp [insertCommits]⟩
  | b :: bs, db => by
    obtain ⟨h1, h2, h3⟩ := insertCommits_only E bs { db with
      commits := if E.acceptCommits db.inserts b then db.commits ++ b else db.commits, inserts := db.inserts + 1 }
    refine ⟨h1, h2, fun ha => ?_⟩
    rw [insertCommits, h3 ha]
    simp [ha]

theorem chunks_flatten {α : Type} [DecidableEq α] (n : Nat) (hn : 0 < n) : ∀ (fuel : Nat) (l : List α), l.length ≤ fuel →
    (chunks n fuel l).flatten = l
  | 0, l, h => by
    have : l = [] := by simpa using h
    simp [chunks, this]
  | fuel + 1, l, h => by
    rw [chunks]
    split
    · rename_i e; simp [e]
    · rename_i e
      have : 0 < l.length := List.length_pos_iff.2 e
      rw [List.flatten_cons, chunks_flatten n hn fuel (l.drop n) (by simp; omega), List.take_append_drop]

theorem saveCommits_eq (E : SqlExt) (cs : List CommitObj) (path : Bytes) (db : Db) :
    (saveCommits E cs path db).nodes = db.nodes ∧ (saveCommits E cs path db).refs = db.refs ∧
      ((∀ n rows, E.acceptCommits n rows = true) → (saveCommits E cs path db).commits = db.commits ++ cs.map (fun c => c.row path)) := by
  obtain ⟨h1, h2, h3⟩ := insertCommits_only E (chunks 100 cs.length (cs.map (fun c => c.row path))) db
  refine ⟨h1, h2, fun ha => ?_⟩
  rw [saveCommits, h3 ha, chunks_flatten 100 (by simp) _ _ (by simp)]

/-- **C48 (partial)** After a successful push, for every schedule of the worker threads and every behaviour of the database: rows were only added; each new row
has type, id and content of a tree or blob of the pack; every id reachable from the pushed commits has such a row. (Missing
from the full claim: pushes that leave out objects which the server has fail, see `C48_unchanged_objects_false`.) -/
theorem C48_stored_partial {X : Ext} {St : ObjectSource} {file : Bytes} {fuel : Nat} {p : Pack} (hdec : decodePack X St fuel file = .ok p)
    (E : SqlExt) (f : Nat) (path : Bytes) (db db' : Db) (h : savePackfile E f p path db = (.ok (), db')) :
    ∃ rows, db'.nodes = db.nodes ++ rows ∧ db'.refs = db.refs ∧
      (∀ r ∈ rows, ∃ o, p.result.hashObject o.id = some o ∧ r.gitId = Hash.toPlainStr o.id ∧ r.data = o.data ∧
        (o.t = .tree ∧ r.nodeType = ascii "tree" ∨ o.t = .blob ∧ r.nodeType = ascii "blob")) ∧
      (∀ x, Spec.PackReach p.result.hashObject x → ∃ r ∈ rows, r.gitId = Hash.toPlainStr x) := by
  obtain ⟨D, rows, db1, h1, h2, h3, rfl⟩ := savePackfile_ok h
  have hH : D.Holds p.result := C36_each_object_once hdec (by have := E.pool_outcome p.result; rwa [h1] at this)
  obtain ⟨n1, _, n3⟩ := saveNodes_ok h3
  obtain ⟨c1, c2, _⟩ := saveCommits_eq E D.commits path db1
  obtain ⟨r1, r2⟩ := buildCommits_ok (repo_faithful hH) (repo_disjoint hH) D.commits [] rows (by intro h hh; cases hh) h2
  refine ⟨rows, by rw [c1, n1], by rw [c2, n3], ?_, ?_⟩
  · intro r hr
    cases r1 r hr with
    | tree x t _ a b c d =>
      obtain ⟨hm, _⟩ := (repo_tree hH x t).1 a
      obtain ⟨q1, q2⟩ := (hH.trees t.base).1 (List.mem_map_of_mem hm)
      exact ⟨t.base, q2, b, d, .inl ⟨q1, c⟩⟩
    | blob x t _ a b c d =>
      obtain ⟨hm, _⟩ := (repo_blob hH x t).1 a
      obtain ⟨q1, q2⟩ := (hH.blobs t.base).1 (List.mem_map_of_mem hm)
      exact ⟨t.base, q2, b, d, .inr ⟨q1, c⟩⟩
  · intro x hx
    rcases r2 x ((repo_below hH x).2 hx) with hh | hh
    · cases hh
    · exact hh

theorem decode_readable {find : Hash → Option MetaData} (hs : Spec.SelfContained find) {o : MetaData} (ho : find o.id = some o) :
    ∃ d, decodeObject o = .ok d := by
  rcases hs.kinds o ho with ht | ht | ht | ht
  · obtain ⟨c, hc, _⟩ := hs.commits o ho ht
    exact ⟨_, by simp only [decodeObject, ht, hc, Res.unwrap_ok, Res.bind_ok]; rfl⟩
  · obtain ⟨c, hc⟩ := hs.trees o ho ht
    exact ⟨_, by simp only [decodeObject, ht, hc, Res.unwrap_ok, Res.bind_ok]; rfl⟩
  · exact ⟨_, by simp only [decodeObject, ht]; rfl⟩
  · obtain ⟨c, hc⟩ := hs.tags o ho ht
    exact ⟨_, by simp only [decodeObject, ht, hc, Res.unwrap_ok, Res.bind_ok]; rfl⟩

theorem saveNodes_accepts {E : SqlExt} (ha : ∀ n rows, E.acceptNodes n rows = true) (rows : List NodeRow) (db : Db) :
    ∃ db', saveNodes E rows db = (.ok (), db') := by
  have : ∀ (bs : List (List NodeRow)) (db : Db), ∃ db', insertNodes E bs db = (.ok (), db') := by
    intro bs
    induction bs with
    | nil => exact fun db => ⟨db, rfl⟩
    | cons b bs ih => intro db; rw [insertNodes, if_pos (ha _ _)]; exact ih _
  exact this _ db

/-- **C48 (partial)** A pack that can be read and contains everything reachable from its commits is stored, for every schedule of the worker threads, whatever the
server already has (`rank` decreases from directories to sub-directories: there are no cycles, and the recursion does not go deeper than `fuel`). -/
theorem C48_push_succeeds_partial {p : Pack} (hk : p.result.Keyed) (hs : Spec.SelfContained p.result.hashObject)
    (rank : Hash → Nat) (fuel : Nat)
    (hrank : ∀ o items i, Spec.PackReach p.result.hashObject o.id → p.result.hashObject o.id = some o → o.t = .tree →
      decodeTree o.data = .ok items → i ∈ items → i.itemType = .tree → rank i.id < rank o.id)
    (hfuel : ∀ o c, p.result.hashObject o.id = some o → o.t = .commit → Commit.decode o.data = .ok c → rank c.treeId < fuel)
    (E : SqlExt) (ha : ∀ n rows, E.acceptNodes n rows = true) (path : Bytes) (db : Db) :
    ∃ db', savePackfile E fuel p path db = (.ok (), db') := by
  obtain ⟨D, hD⟩ : ∃ D, E.pool p.result = .ok D := by
    have hu := E.pool_outcome p.result
    rcases update_outcomes hu with hp | ⟨D, hD⟩
    · obtain ⟨m, hm, hm'⟩ := ((C36_fails_iff hk).2 _ hu).1 hp
      obtain ⟨d, hd⟩ := decode_readable hs hm
      rw [hd] at hm'; cases hm'
    · exact ⟨D, hD⟩
  have hH : D.Holds p.result := update_holds hk (by have := E.pool_outcome p.result; rwa [hD] at this)
  have hroots : ∀ x ∈ D.commits.map (fun c => c.commit.treeId), ∃ o c, p.result.hashObject o.id = some o ∧ o.t = .commit ∧
      Commit.decode o.data = .ok c ∧ c.treeId = x := by
    intro x hx
    obtain ⟨co, hm, rfl⟩ := List.mem_map.1 hx
    obtain ⟨a, b⟩ := (hH.commits co.base).1 (List.mem_map_of_mem hm)
    exact ⟨co.base, co.commit, b, a, hH.commitFields co hm, rfl⟩
  have treeAt : ∀ x t, (Repo.of D).treeMap x = some t → p.result.hashObject t.base.id = some t.base ∧ t.base.t = .tree ∧
      decodeTree t.base.data = .ok t.items ∧ t.base.id = x := by
    intro x t ht
    obtain ⟨hm, e⟩ := (repo_tree hH x t).1 ht
    obtain ⟨a, b⟩ := (hH.trees t.base).1 (List.mem_map_of_mem hm)
    exact ⟨b, a, hH.treeItems t hm, e⟩
  have hC : Complete (Repo.of D) (D.commits.map (fun c => c.commit.treeId)) := by
    refine ⟨?_, ?_, ?_⟩
    · intro x hx
      obtain ⟨o, c, h1, h2, h3, rfl⟩ := hroots x hx
      obtain ⟨c', h4, t, h5, h6, h7⟩ := hs.commits o h1 h2
      rw [h3] at h4; cases h4
      rw [← h6] at h5 ⊢
      obtain ⟨t', h8, _⟩ := repo_tree_of hH h5 h7
      exact ⟨t', h8⟩
    · intro x t i hb ht hi
      obtain ⟨a, b, c, e⟩ := treeAt x t ht
      have hr := (repo_below hH x).1 hb
      obtain ⟨y, h1, h2, h3⟩ := hs.items t.base t.items i (by rw [e]; exact hr) a b c hi
      split
      · rename_i hty
        rw [if_pos hty] at h3
        rw [← h2] at h1 ⊢
        obtain ⟨t', h4, _⟩ := repo_tree_of hH h1 h3
        exact ⟨t', h4⟩
      · rename_i hty
        rw [if_neg hty] at h3
        rw [← h2] at h1 ⊢
        obtain ⟨b', hm, e'⟩ := List.mem_map.1 ((hH.blobs y).2 ⟨h3, h1⟩)
        exact ⟨b', (repo_blob hH _ _).2 ⟨hm, by rw [e']⟩⟩
    · intro x t hb ht
      obtain ⟨a, b, c, e⟩ := treeAt x t ht
      exact hs.names t.base t.items (by rw [e]; exact (repo_below hH x).1 hb) a b c
  obtain ⟨rows, hrows⟩ := buildCommits_succeeds hC rank (by
      intro x t i hb ht hi hty
      obtain ⟨a, b, c, e⟩ := treeAt x t ht
      have := hrank t.base t.items i (by rw [e]; exact (repo_below hH x).1 hb) a b c hi hty
      rwa [e] at this) (fuel := fuel) (by
      intro x hx
      obtain ⟨o, c, h1, h2, h3, rfl⟩ := hroots x hx
      exact hfuel o c h1 h2 h3) D.commits [] (fun c hc => List.mem_map_of_mem hc)
  obtain ⟨db1, hdb⟩ := saveNodes_accepts ha rows db
  refine ⟨saveCommits E D.commits path db1, ?_⟩
  unfold savePackfile
  rw [hD]
  simp only
  rw [show buildNodeTree fuel D = .ok rows from hrows]
  simp only
  rw [hdb]

/-- **C48 is false**: if anything reachable from a pushed commit is not in the pack itself, the push fails, even if the server has all the missing objects. -/
theorem C48_missing_object_fails {p : Pack} (hk : p.result.Keyed) (x : Hash) (hx : Spec.PackReach p.result.hashObject x)
    (hn : p.result.hashObject x = none) (E : SqlExt) (fuel : Nat) (path : Bytes) (db : Db) :
    (savePackfile E fuel p path db).1 = .panic ∨ (savePackfile E fuel p path db).1 = .spin := by
  have key : ∀ db', savePackfile E fuel p path db ≠ (.ok (), db') := by
    intro db' h
    obtain ⟨D, rows, db1, h1, h2, h3, rfl⟩ := savePackfile_ok h
    have hH : D.Holds p.result := update_holds hk (by have := E.pool_outcome p.result; rwa [h1] at this)
    obtain ⟨r1, r2⟩ := buildCommits_ok (repo_faithful hH) (repo_disjoint hH) D.commits [] rows (by intro h hh; cases hh) h2
    rcases r2 x ((repo_below hH x).2 hx) with hh | ⟨r, hr, e⟩
    · cases hh
    · cases r1 r hr with
      | tree y t _ a b c d =>
        obtain ⟨hm, _⟩ := (repo_tree hH y t).1 a
        obtain ⟨_, q2⟩ := (hH.trees t.base).1 (List.mem_map_of_mem hm)
        rw [e] at b
        rw [← Hash.toPlainStr_injective b, hn] at q2
        cases q2
      | blob y t _ a b c d =>
        obtain ⟨hm, _⟩ := (repo_blob hH y t).1 a
        obtain ⟨_, q2⟩ := (hH.blobs t.base).1 (List.mem_map_of_mem hm)
        rw [e] at b
        rw [← Hash.toPlainStr_injective b, hn] at q2
        cases q2
  cases h : savePackfile E fuel p path db with
  | mk r db' =>
    cases r with
    | ok u => exact absurd h (key db')
    | err e =>
      exfalso
      unfold savePackfile at h
      split at h
      · split at h
        · split at h <;> simp at h
        · simp at h
        · simp at h
      · simp at h
      · simp at h
    | panic => exact .inl rfl
    | spin => exact .inr rfl

/-! ## A repository with `b` and `src/a` -/

theorem app_root : ∀ {find : Hash → Option MetaData}, (∀ m ∈ appThin, find m.id = some m) → Spec.PackReach find (idOf polyExt (.tree, encodeTree appItems)) :=
  fun h => .commit (metaOf polyExt (.commit, appCommit.encode)) appCommit (h _ (by simp [appThin])) rfl appCommit_decode

theorem app_src {find : Hash → Option MetaData} (h : ∀ m ∈ appThin, find m.id = some m) : Spec.PackReach find (idOf polyExt (.tree, encodeTree srcA)) :=
  .item (metaOf polyExt (.tree, encodeTree appItems)) appItems (dirItem "src" _) (app_root h) (h _ (by simp [appThin])) rfl appItems_decode
    (.tail _ (.head _))

/-- The file `src/a` is reachable. -/
theorem app_blob {find : Hash → Option MetaData} (h : ∀ m ∈ appThin, find m.id = some m) : Spec.PackReach find appBlob.id := by
  refine (show appBlob.id = (fileItem "a" (polyId .blob (ascii "one"))).id by decide +kernel) ▸
    Spec.PackReach.item (metaOf polyExt (.tree, encodeTree srcA)) srcA (fileItem "a" (polyId .blob (ascii "one"))) (app_src h) (h _ (by simp [appThin])) rfl
      srcA_decode (by simp [srcA])

theorem app_selfContained {find : Hash → Option MetaData} (hf : ∀ h m, find h = some m ↔ m ∈ appObjects ∧ m.id = h) :
    Spec.SelfContained find := by
  have mem : ∀ o, find o.id = some o → o = metaOf polyExt (.commit, appCommit.encode) ∨ o = metaOf polyExt (.tree, encodeTree appItems) ∨
      o = metaOf polyExt (.tree, encodeTree srcA) ∨ o = metaOf polyExt (.blob, ascii "two") ∨ o = appBlob := by
    intro o ho
    have := ((hf _ _).1 ho).1
    simp only [appObjects, appThin, List.mem_append, List.mem_cons, List.not_mem_nil, or_false] at this
    rcases this with (rfl | rfl | rfl | rfl) | rfl <;> simp
  refine ⟨?_, ?_, ?_, ?_, ?_, ?_⟩
  · intro o ho
    rcases mem o ho with rfl | rfl | rfl | rfl | rfl <;> simp [metaOf, appBlob]
  · intro o ho ht
    rcases mem o ho with rfl | rfl | rfl | rfl | rfl
    · exact ⟨appCommit, appCommit_decode, metaOf polyExt (.tree, encodeTree appItems), (hf _ _).2 ⟨by simp [appObjects, appThin], rfl⟩, rfl, rfl⟩
    all_goals cases ht
  · intro o ho ht
    rcases mem o ho with rfl | rfl | rfl | rfl | rfl
    · cases ht
    · exact ⟨_, appItems_decode⟩
    · exact ⟨_, srcA_decode⟩
    all_goals cases ht
  · intro o ho ht
    rcases mem o ho with rfl | rfl | rfl | rfl | rfl <;> cases ht
  · intro o items i _ ho ht hd hi
    rcases mem o ho with rfl | rfl | rfl | rfl | rfl
    · cases ht
    · rw [show decodeTree (metaOf polyExt (.tree, encodeTree appItems)).data = .ok appItems from appItems_decode] at hd
      cases hd
      simp only [appItems, List.mem_cons, List.not_mem_nil, or_false] at hi
      rcases hi with rfl | rfl
      · exact ⟨metaOf polyExt (.blob, ascii "two"), (hf _ _).2 ⟨by simp [appObjects, appThin], rfl⟩, rfl, rfl⟩
      · exact ⟨metaOf polyExt (.tree, encodeTree srcA), (hf _ _).2 ⟨by simp [appObjects, appThin], rfl⟩, rfl, rfl⟩
    · rw [show decodeTree (metaOf polyExt (.tree, encodeTree srcA)).data = .ok srcA from srcA_decode] at hd
      cases hd
      simp only [srcA, List.mem_cons, List.not_mem_nil, or_false] at hi
      subst hi
      exact ⟨appBlob, (hf _ _).2 ⟨by simp [appObjects], by decide +kernel⟩, by decide +kernel, rfl⟩
    all_goals cases ht
  · intro o items _ ho ht hd
    rcases mem o ho with rfl | rfl | rfl | rfl | rfl
    · cases ht
    · rw [show decodeTree (metaOf polyExt (.tree, encodeTree appItems)).data = .ok appItems from appItems_decode] at hd
      cases hd
      decide +kernel
    · rw [show decodeTree (metaOf polyExt (.tree, encodeTree srcA)).data = .ok srcA from srcA_decode] at hd
      cases hd
      decide +kernel
    all_goals cases ht

/-- Depth of the directories. -/
def appRank (h : Hash) : Nat := if h = idOf polyExt (.tree, encodeTree appItems) then 1 else 0

/-- The pack of the whole repository is stored, for any database content and any order of the threads. -/
theorem app_stored {p : Pack} (hk : p.result.Keyed) (hf : ∀ h m, p.result.hashObject h = some m ↔ m ∈ appObjects ∧ m.id = h)
    (E : SqlExt) (ha : ∀ n rows, E.acceptNodes n rows = true) (fuel : Nat) (path : Bytes) (db : Db) :
    ∃ db', savePackfile E (fuel + 2) p path db = (.ok (), db') := by
  have mem : ∀ o, p.result.hashObject o.id = some o → o ∈ appObjects := fun o ho => ((hf _ _).1 ho).1
  refine C48_push_succeeds_partial hk (app_selfContained hf) appRank (fuel + 2) ?_ ?_ E ha path db
  · intro o items i _ ho ht hd hi hty
    have := mem o ho
    simp only [appObjects, appThin, List.mem_append, List.mem_cons, List.not_mem_nil, or_false] at this
    rcases this with (rfl | rfl | rfl | rfl) | rfl
    · cases ht
    · rw [show decodeTree (metaOf polyExt (.tree, encodeTree appItems)).data = .ok appItems from appItems_decode] at hd
      cases hd
      simp only [appItems, List.mem_cons, List.not_mem_nil, or_false] at hi
      rcases hi with rfl | rfl
      · cases hty
      · show appRank (idOf polyExt (.tree, encodeTree srcA)) < appRank (idOf polyExt (.tree, encodeTree appItems))
        decide +kernel
    · rw [show decodeTree (metaOf polyExt (.tree, encodeTree srcA)).data = .ok srcA from srcA_decode] at hd
      cases hd
      simp only [srcA, List.mem_cons, List.not_mem_nil, or_false] at hi
      subst hi
      cases hty
    · cases ht
    · cases ht
  · intro o c _ _ _
    unfold appRank
    split <;> omega

/-- A pushed repository: everything reachable is stored; here, the file `src/a`. -/
example : ∃ file p db', decodePack polyExt (fun _ => none) 2 file = .ok p ∧
    savePackfile demoSql 2 p (ascii "/app") Db.empty = (.ok (), db') ∧
    ∃ r ∈ db'.nodes, r.gitId = Hash.toPlainStr appBlob.id := by
  obtain ⟨file, p, _, _, h2, h3⟩ := app_pack (fun _ => none) appObjects (fun _ h => h) (by decide) (by decide) (by decide +kernel) 1
  obtain ⟨hist, e, _⟩ := decodePack_hist h2
  obtain ⟨db', h4⟩ := app_stored (by rw [e]; exact PackCache.keyed_run hist) h3 demoSql (fun _ _ => rfl) 0 (ascii "/app") Db.empty
  obtain ⟨rows, h5, _, _, h6⟩ := C48_stored_partial h2 demoSql 2 (ascii "/app") Db.empty db' h4
  obtain ⟨r, hr, e⟩ := h6 appBlob.id (app_blob (fun m hm => (h3 _ _).2 ⟨appThin_sub m hm, rfl⟩))
  exact ⟨file, p, db', h2, h4, r, by rw [h5]; exact List.mem_append_right _ hr, e⟩

/-- The server already has the file `src/a`. -/
def appServer : Db :=
  { Db.empty with nodes := [{ gitId := Hash.toPlainStr appBlob.id, nodeType := ascii "blob", name := ascii "a", mode := ascii "100644", data := appBlob.data }] }

/-- Creation of `master`. -/
def appCmd : Spec.PushCmd := { old := zeroId, new := Hash.toPlainStr (metaOf polyExt (.commit, appCommit.encode)).id, name := ascii "refs/heads/master" }

theorem appCmd_ok : appCmd.Ok := by
  refine ⟨by decide, by decide, by decide +kernel, by decide +kernel, by decide, by decide, by decide⟩

/-- **C48 is false** for pushes that leave out what the server has: the server has the file `src/a`, the pack has the commit and everything
else; the push ends without an answer, for every schedule and database. -/
theorem C48_unchanged_objects_false : ∃ file : Bytes,
    (∀ St fuel, ∃ p, decodePack polyExt St (fuel + 1) file = .ok p ∧ ∀ x, Spec.PackReach p.result.hashObject x →
      (p.result.hashObject x).isSome ∨ ∃ r ∈ appServer.nodes, r.gitId = Hash.toPlainStr x) ∧
    ∀ (E : SqlExt) (fuel : Nat) (path caps : Bytes), caps.length ≤ 4000 → (∀ x ∈ caps, x.toNat < 128) →
      httpReceivePack (mysqlPush polyExt E (fuel + 1)) { caps := [], commands := [], path := path, db := appServer }
        (Spec.pushBody appCmd [] caps file) = .panic ∨
      httpReceivePack (mysqlPush polyExt E (fuel + 1)) { caps := [], commands := [], path := path, db := appServer }
        (Spec.pushBody appCmd [] caps file) = .spin := by
  have key : ∀ St fuel, ∃ file p, (ascii "PACK").isPrefixOf file = true ∧ (∃ r, encodePack polyExt appThin = .ok (r, file)) ∧
      decodePack polyExt St (fuel + 1) file = .ok p ∧ ∀ h m, p.result.hashObject h = some m ↔ m ∈ appThin ∧ m.id = h :=
    fun St fuel => app_pack St appThin appThin_sub (by decide) (by decide) (by decide +kernel) fuel
  obtain ⟨file, p0, hmagic, ⟨r0, he0⟩, _, _⟩ := key (fun _ => none) 0
  have key2 : ∀ St fuel, ∃ p, decodePack polyExt St (fuel + 1) file = .ok p ∧ ∀ h m, p.result.hashObject h = some m ↔ m ∈ appThin ∧ m.id = h := by
    intro St fuel
    obtain ⟨file', p, _, ⟨r, he⟩, h1, h2⟩ := key St fuel
    rw [he0] at he
    obtain ⟨_, rfl⟩ := Prod.mk.inj (Res.ok.inj he)
    exact ⟨p, h1, h2⟩
  refine ⟨file, fun St fuel => ?_, ?_⟩
  · obtain ⟨p, h1, h2⟩ := key2 St fuel
    refine ⟨p, h1, fun x hx => ?_⟩
    have there : ∀ m ∈ appThin, (p.result.hashObject m.id).isSome := fun m hm => by rw [(h2 _ _).2 ⟨hm, rfl⟩]; rfl
    have mem : ∀ o, p.result.hashObject o.id = some o → o ∈ appThin := fun o ho => ((h2 _ _).1 ho).1
    cases hx with
    | commit o c ho ht hd =>
      have := mem o ho
      simp only [appThin, List.mem_cons, List.not_mem_nil, or_false] at this
      rcases this with rfl | rfl | rfl | rfl
      · rw [show Commit.decode (metaOf polyExt (.commit, appCommit.encode)).data = .ok appCommit from appCommit_decode] at hd
        cases hd
        exact .inl (there (metaOf polyExt (.tree, encodeTree appItems)) (by simp [appThin]))
      all_goals cases ht
    | item o items i _ ho ht hd hi =>
      have := mem o ho
      simp only [appThin, List.mem_cons, List.not_mem_nil, or_false] at this
      rcases this with rfl | rfl | rfl | rfl
      · cases ht
      · rw [show decodeTree (metaOf polyExt (.tree, encodeTree appItems)).data = .ok appItems from appItems_decode] at hd
        cases hd
        simp only [appItems, List.mem_cons, List.not_mem_nil, or_false] at hi
        rcases hi with rfl | rfl
        · exact .inl (there (metaOf polyExt (.blob, ascii "two")) (by simp [appThin]))
        · exact .inl (there (metaOf polyExt (.tree, encodeTree srcA)) (by simp [appThin]))
      · rw [show decodeTree (metaOf polyExt (.tree, encodeTree srcA)).data = .ok srcA from srcA_decode] at hd
        cases hd
        simp only [srcA, List.mem_cons, List.not_mem_nil, or_false] at hi
        subst hi
        exact .inr ⟨_, .head _, by decide +kernel⟩
      · cases ht
  · intro E fuel path caps hc hu
    rw [push_answer _ path appServer appCmd appCmd_ok caps hc hu file hmagic]
    obtain ⟨p, h1, h2⟩ := key2 (getHashObject polyExt E appServer) fuel
    obtain ⟨hist, e, _⟩ := decodePack_hist h1
    have hn : p.result.hashObject appBlob.id = none := by
      cases hh : p.result.hashObject appBlob.id with
      | none => rfl
      | some m =>
        obtain ⟨hm, e⟩ := (h2 _ _).1 hh
        have : ∀ m ∈ appThin, m.id ≠ appBlob.id := by decide +kernel
        exact absurd e (this m hm)
    have := C48_missing_object_fails (by rw [e]; exact PackCache.keyed_run hist) appBlob.id (app_blob (fun m hm => (h2 _ _).2 ⟨hm, rfl⟩)) hn E
      (fuel + 1) path appServer
    unfold receiveData
    simp only [List.getLast?_singleton, mysqlPush, h1]
    rcases hs : savePackfile E (fuel + 1) p path appServer with ⟨r, db'⟩
    rw [hs] at this
    rcases this with rfl | rfl
    · exact .inl rfl
    · exact .inr rfl

end Gust

import Verif.Lemmas.ObjMap
import Verif.Props.Idx
import Verif.Props.Codec

/-! # C36, C37: sorting decoded objects by kind, completeness, writing back -/

namespace Gust

/-- The decoded objects are exactly those of the cache: each once, in the collection of its type, with its decoded form. -/
structure ObjDecodedMap.Holds (D : ObjDecodedMap) (c : PackCache) : Prop where
  blobsOnce : (D.blobs.map BlobObj.base).Nodup
  treesOnce : (D.trees.map TreeObj.base).Nodup
  commitsOnce : (D.commits.map CommitObj.base).Nodup
  tagsOnce : (D.tags.map TagObj.base).Nodup
  blobs : ∀ m, m ∈ D.blobs.map BlobObj.base ↔ m.t = .blob ∧ c.hashObject m.id = some m
  trees : ∀ m, m ∈ D.trees.map TreeObj.base ↔ m.t = .tree ∧ c.hashObject m.id = some m
  commits : ∀ m, m ∈ D.commits.map CommitObj.base ↔ m.t = .commit ∧ c.hashObject m.id = some m
  tags : ∀ m, m ∈ D.tags.map TagObj.base ↔ m.t = .tag ∧ c.hashObject m.id = some m
  treeItems : ∀ t ∈ D.trees, decodeTree t.base.data = .ok t.items
  commitFields : ∀ x ∈ D.commits, Commit.decode x.base.data = .ok x.commit
  tagFields : ∀ x ∈ D.tags, Tag.decode x.base.data = .ok x.tag

/-- Same objects, possibly in another order. -/
structure ObjDecodedMap.Same (D E : ObjDecodedMap) : Prop where
  blobs : D.blobs.Perm E.blobs
  trees : D.trees.Perm E.trees
  commits : D.commits.Perm E.commits
  tags : D.tags.Perm E.tags

theorem update_holds {self D : ObjDecodedMap} {c : PackCache} (hc : c.Keyed) (h : UpdateFromCache self c (.ok D)) :
    D.Holds c := by
  obtain ⟨ts, hd, _, _, pb, pt, pc, pg⟩ := update_ok h
  have hf := decodeAll_ok hd
  obtain ⟨b1, b2⟩ := forall₂_extract .blob Decoded.asBlob BlobObj.base (fun b => b.filename = [])
    (fun m d => decodeObject_blob) hf
  obtain ⟨t1, t2⟩ := forall₂_extract .tree Decoded.asTree TreeObj.base (fun b => decodeTree b.base.data = .ok b.items ∧ b.name = [])
    (fun m d => decodeObject_tree) hf
  obtain ⟨c1, c2⟩ := forall₂_extract .commit Decoded.asCommit CommitObj.base (fun b => Commit.decode b.base.data = .ok b.commit)
    (fun m d => decodeObject_commit) hf
  obtain ⟨g1, g2⟩ := forall₂_extract .tag Decoded.asTag TagObj.base (fun b => Tag.decode b.base.data = .ok b.tag)
    (fun m d => decodeObject_tag) hf
  have qb := pb.map BlobObj.base; rw [b1] at qb
  have qt := pt.map TreeObj.base; rw [t1] at qt
  have qc := pc.map CommitObj.base; rw [c1] at qc
  have qg := pg.map TagObj.base; rw [g1] at qg
  have hn := hc.nodup
  have mem : ∀ k m, m ∈ (c.byHash.map Prod.snd).filter (fun m => decide (m.t = k)) ↔ m.t = k ∧ c.hashObject m.id = some m := by
    intro k m
    rw [List.mem_filter, hc.mem]
    simp only [decide_eq_true_eq]
    exact and_comm
  exact {
    blobsOnce := qb.nodup_iff.2 (hn.filter _)
    treesOnce := qt.nodup_iff.2 (hn.filter _)
    commitsOnce := qc.nodup_iff.2 (hn.filter _)
    tagsOnce := qg.nodup_iff.2 (hn.filter _)
    blobs := fun m => qb.mem_iff.trans (mem _ m)
    trees := fun m => qt.mem_iff.trans (mem _ m)
    commits := fun m => qc.mem_iff.trans (mem _ m)
    tags := fun m => qg.mem_iff.trans (mem _ m)
    treeItems := fun t ht => (t2 t (pt.mem_iff.1 ht)).1
    commitFields := fun t ht => c2 t (pc.mem_iff.1 ht)
    tagFields := fun t ht => g2 t (pg.mem_iff.1 ht) }

/-- **C36** Whatever pack was decoded and however the worker threads are interleaved, every object of the decoded pack ends up
exactly once in the collection of its type, and nothing else does. -/
theorem C36_each_object_once {X : Ext} {St : ObjectSource} {file : Bytes} {fuel : Nat} {pack : Pack}
    (h : decodePack X St fuel file = .ok pack) {self D : ObjDecodedMap} (hu : UpdateFromCache self pack.result (.ok D)) :
    D.Holds pack.result := by
  obtain ⟨hist, e, _⟩ := decodePack_hist h
  rw [e] at hu ⊢
  exact update_holds (PackCache.keyed_run hist) hu

/-- **C36** Two runs with different schedules on the same objects give the same collections (up to order), or both fail. -/
theorem C36_schedule_independent {self : ObjDecodedMap} {c : PackCache} {r r' : Res ObjDecodedMap}
    (h : UpdateFromCache self c r) (h' : UpdateFromCache self c r') :
    (r = .panic ∧ r' = .panic) ∨ ∃ D D', r = .ok D ∧ r' = .ok D' ∧ D.Same D' := by
  rcases update_outcomes h with rfl | ⟨D, rfl⟩ <;> rcases update_outcomes h' with rfl | ⟨D', rfl⟩
  · exact .inl ⟨rfl, rfl⟩
  · obtain ⟨ts, hd, _⟩ := update_ok h'
    cases h with
    | panic hp => rw [hd] at hp; cases hp
  · obtain ⟨ts, hd, _⟩ := update_ok h
    cases h' with
    | panic hp => rw [hd] at hp; cases hp
  · obtain ⟨ts, hd, _, _, pb, pt, pc, pg⟩ := update_ok h
    obtain ⟨ts', hd', _, _, pb', pt', pc', pg'⟩ := update_ok h'
    rw [hd] at hd'
    cases hd'
    exact .inr ⟨D, D', rfl, rfl, pb.trans pb'.symm, pt.trans pt'.symm, pc.trans pc'.symm, pg.trans pg'.symm⟩

/-- **C36** No schedule deadlocks or runs forever: in any reachable state that is not final some thread can make a step, there
are at most four steps per object, and when no step is left all objects are in their collection. Two threads are never inside
the same collection at a time. -/
theorem C36_always_completes {α : Type} (tasks : List (ObjectType × α)) (n : Nat) (s : PoolState α)
    (h : PoolRun tasks (PoolState.init α) n s) :
    n ≤ 4 * tasks.length ∧ (s.final tasks ∨ ∃ s', PoolStep tasks s s') ∧
      (s.final tasks → n = 4 * tasks.length ∧
        ∀ k, (s.coll k).Perm ((tasks.filter (fun p => decide (p.1 = k))).map Prod.snd)) ∧
      ∀ i j k v w, tasks[i]? = some (k, v) → tasks[j]? = some (k, w) → (s.phase i).holds = true →
        (s.phase j).holds = true → i = j := by
  have hi := (PoolInv.init tasks).run h
  have hl := h.left
  have h0 : (PoolState.init α).left tasks = 4 * tasks.length := by
    simp only [PoolState.left, PoolState.init, Phase.left]
    generalize tasks.length = l
    induction l with
    | zero => rfl
    | succ l ih =>
      rw [List.range_succ, List.map_append, List.sum_append, ih]
      simp only [List.map_cons, List.map_nil, List.sum_cons, List.sum_nil]
      omega
  refine ⟨by omega, ?_, ?_, ?_⟩
  · by_cases hf : s.final tasks
    · exact .inl hf
    · exact .inr (hi.progress hf)
  · intro hf
    refine ⟨?_, hi.done hf⟩
    have : s.left tasks = 0 := by
      unfold PoolState.left
      apply List.sum_eq_zero
      intro x hx
      obtain ⟨i, hi', rfl⟩ := List.mem_map.1 hx
      rw [hf i (List.mem_range.1 hi')]
      rfl
    omega
  · intro i j k v w h1 h2 h3 h4
    exact hi.unique h1 h2 h3 h4

/-- **C36** The call fails exactly when some object cannot be decoded, independently of the schedule; otherwise it succeeds. -/
theorem C36_fails_iff {self : ObjDecodedMap} {c : PackCache} (hc : c.Keyed) :
    (∃ r, UpdateFromCache self c r) ∧
    ∀ r, UpdateFromCache self c r → (r = .panic ↔ ∃ m, c.hashObject m.id = some m ∧ decodeObject m = .panic) := by
  refine ⟨update_exists self c, ?_⟩
  intro r h
  have key : decodeAll (c.byHash.map Prod.snd) = .panic ↔ ∃ m, c.hashObject m.id = some m ∧ decodeObject m = .panic := by
    rw [decodeAll_panic]
    constructor
    · rintro ⟨m, hm, hp⟩
      exact ⟨m, (hc.mem m).1 hm, hp⟩
    · rintro ⟨m, hm, hp⟩
      exact ⟨m, (hc.mem m).2 hm, hp⟩
  cases h with
  | panic hp => simp only [true_iff]; exact key.1 hp
  | ok tasks n s hd _ _ =>
    simp only [reduceCtorEq, false_iff]
    intro hk
    rw [key.2 hk] at hd
    cases hd

/-! ## A concrete complete set: a blob and a tree that contains it -/

/-- A blob. -/
def mapBlob : MetaData := metaOf demoExt (.blob, ascii "hello")

/-- Its entry in a tree. -/
def mapItem : TreeItem := { mode := ascii "100644", itemType := .blob, id := mapBlob.id, filename := ascii "a.txt" }

/-- The tree. -/
def mapTree : MetaData := metaOf demoExt (.tree, encodeTree [mapItem])

/-- The cache with both. -/
def mapCache : PackCache := PackCache.empty.run [(mapBlob, 12), (mapTree, 30)]

theorem mapCache_byHash : (mapCache.byHash.map Prod.snd).Perm [mapBlob, mapTree] := by decide +kernel

theorem mapTree_decode : decodeTree mapTree.data = .ok [mapItem] := by
  refine C08_tree_roundtrip [mapItem] ?_
  intro i hi
  rw [List.mem_singleton.1 hi]
  unfold Spec.TreeEntryOk
  decide +kernel

theorem mapCache_updates : ∃ D, UpdateFromCache ObjDecodedMap.default mapCache (.ok D) := by
  obtain ⟨⟨r, hr⟩, hiff⟩ := C36_fails_iff (self := ObjDecodedMap.default) (PackCache.keyed_run [(mapBlob, 12), (mapTree, 30)])
  rcases update_outcomes hr with rfl | ⟨D, rfl⟩
  · obtain ⟨m, hm, hp⟩ := (hiff _ hr).1 rfl
    have h1 := ((PackCache.keyed_run [(mapBlob, 12), (mapTree, 30)]).mem m).2 hm
    have h2 := mapCache_byHash.mem_iff.1 h1
    rcases List.mem_cons.1 h2 with rfl | h2
    · exact absurd hp (by rw [decodeObject]; simp [mapBlob, metaOf])
    · obtain rfl := List.mem_singleton.1 h2
      rw [decodeObject] at hp
      simp only [show mapTree.t = .tree from rfl, mapTree_decode, Res.unwrap_ok, Res.bind_ok, Res.pure_eq, reduceCtorEq] at hp
  · exact ⟨D, hr⟩

example : ∃ D, UpdateFromCache ObjDecodedMap.default mapCache (.ok D) ∧ D.blobs.map BlobObj.base = [mapBlob] ∧
    D.trees.map TreeObj.base = [mapTree] ∧ D.commits = [] := by
  obtain ⟨D, hD⟩ := mapCache_updates
  obtain ⟨ts, hd, _, _, pb, pt, pc, pg⟩ := update_ok hD
  have hk : mapCache.Keyed := PackCache.keyed_run _
  have h := update_holds hk hD
  have single : ∀ (l : List MetaData) (x : MetaData), l.Nodup → (∀ m, m ∈ l ↔ m = x) → l = [x] := by
    intro l x hn hm
    have hx := (hm x).2 rfl
    obtain ⟨a, b, rfl⟩ := List.append_of_mem hx
    match a, b with
    | [], [] => rfl
    | y :: a, b =>
      obtain rfl := (hm y).1 (by simp)
      simp at hn
    | [], y :: b =>
      obtain rfl := (hm y).1 (by simp)
      simp at hn
  have mem : ∀ m, mapCache.hashObject m.id = some m ↔ m = mapBlob ∨ m = mapTree := by
    intro m
    rw [← hk.mem m]
    exact mapCache_byHash.mem_iff.trans (by simp)
  refine ⟨D, hD, single _ _ h.blobsOnce ?_, single _ _ h.treesOnce ?_, ?_⟩
  · intro m
    refine (h.blobs m).trans ?_
    rw [mem m]
    constructor
    · rintro ⟨h1, rfl | rfl⟩
      · rfl
      · cases h1
    · rintro rfl; exact ⟨rfl, .inl rfl⟩
  · intro m
    refine (h.trees m).trans ?_
    rw [mem m]
    constructor
    · rintro ⟨h1, rfl | rfl⟩
      · cases h1
      · rfl
    · rintro rfl; exact ⟨rfl, .inr rfl⟩
  · cases hc : D.commits with
    | nil => rfl
    | cons x xs =>
      have h1 := (h.commits x.base).1 (by rw [hc]; simp)
      rcases (mem x.base).1 h1.2 with e | e
      · rw [e] at h1; cases h1.1
      · rw [e] at h1; cases h1.1

/-! ## C37 -/

/-- **C37** What the check does for an arbitrary table of known ids: it accepts exactly when every entry of every tree is in the
table, and then the set keeps its objects and each blob that some tree refers to gets the name of such an entry. Missing from
the full claim: the table is never filled (`C37_check_false`), the trees of commits are not looked at
(`C37_commit_tree_unchecked`), and writing never works (`C37_write_never_succeeds`). -/
theorem C37_check_partial (D : ObjDecodedMap) :
    ((∃ D', D.checkCompleteness = .ok D') ↔ ∀ t ∈ D.trees, ∀ i ∈ t.items, D.mapHash i.id = true) ∧
    ((¬ ∃ D', D.checkCompleteness = .ok D') → D.checkCompleteness = .err .other) ∧
    ∀ D', D.checkCompleteness = .ok D' →
      (D'.blobs.map BlobObj.base).Perm (D.blobs.map BlobObj.base) ∧
      (D'.trees.map (fun t => (t.base, t.items))).Perm (D.trees.map (fun t => (t.base, t.items))) ∧
      D'.commits.Perm D.commits ∧ D'.tags.Perm D.tags ∧
      ∀ b ∈ D'.blobs, (∃ t ∈ D.trees, ∃ i ∈ t.items, i.id = b.base.id ∧ b.filename = i.filename) ∨
        ∀ t ∈ D.trees, ∀ i ∈ t.items, i.id ≠ b.base.id := by
  have hc : D.checkCompleteness = (ObjDecodedMap.checkTrees D.mapHash D.trees D.nameMap >>= fun names => .ok _) := rfl
  refine ⟨?_, ?_, ?_⟩
  · rw [← ObjDecodedMap.checkTrees_ok D.mapHash D.trees D.nameMap]
    constructor
    · rintro ⟨D', h⟩
      rw [hc, Res.bind_eq_ok] at h
      obtain ⟨n, h1, _⟩ := h
      exact ⟨n, h1⟩
    · rintro ⟨n, h1⟩
      rw [hc, h1]
      exact ⟨_, rfl⟩
  · intro h
    rcases ObjDecodedMap.checkTrees_err D.mapHash D.trees D.nameMap with ⟨n, h1⟩ | h1
    · exact absurd ⟨_, by rw [hc, h1]; rfl⟩ h
    · rw [hc, h1]; rfl
  · intro D' h
    rw [hc, Res.bind_eq_ok] at h
    obtain ⟨n, h1, h2⟩ := h
    obtain rfl := Res.ok.inj h2
    refine ⟨?_, ?_, List.mergeSort_perm _ _, List.mergeSort_perm _ _, ?_⟩
    · refine ((List.mergeSort_perm _ _).map _).trans (List.Perm.of_eq ?_)
      rw [List.map_map]
      rfl
    · refine ((List.mergeSort_perm _ _).map _).trans (List.Perm.of_eq ?_)
      rw [List.map_map]
      rfl
    · intro b hb
      obtain ⟨b0, _, rfl⟩ := List.mem_map.1 ((List.mergeSort_perm _ _).mem_iff.1 hb)
      rcases ObjDecodedMap.checkTrees_names _ _ _ _ b0.base.id h1 with ⟨t, ht, i, hi, h3, h4⟩ | ⟨h3, _⟩
      · exact .inl ⟨t, ht, i, hi, h3, by simp only [h4, Option.getD_some]⟩
      · exact .inr h3

/-- **C37 is false**: after decoding, the check accepts only sets whose trees are all empty. -/
theorem C37_accepts_only_empty_trees {c : PackCache} (hc : c.Keyed) {D : ObjDecodedMap}
    (h : UpdateFromCache ObjDecodedMap.default c (.ok D)) :
    (∃ D', D.checkCompleteness = .ok D') ↔ ∀ m, c.hashObject m.id = some m → m.t = .tree → m.data = [] := by
  obtain ⟨ts, _, hm, _⟩ := update_ok h
  have hh := update_holds hc h
  rw [(C37_check_partial D).1, hm]
  constructor
  · intro h1 m hm1 ht
    obtain ⟨t, ht', rfl⟩ := List.mem_map.1 ((hh.trees m).2 ⟨ht, hm1⟩)
    have h2 := hh.treeItems t ht'
    have h3 : t.items = [] := by
      cases hi : t.items with
      | nil => rfl
      | cons i is =>
        have := h1 t ht' i (by rw [hi]; simp)
        cases this
    rw [h3] at h2
    exact ((C08_tree_reencode demoExt _ _ h2).1).symm
  · intro h1 t ht i hi
    have h2 := (hh.trees t.base).1 (List.mem_map.2 ⟨t, ht, rfl⟩)
    have h3 := hh.treeItems t ht
    rw [h1 t.base h2.2 h2.1, decodeTree_nil] at h3
    rw [← Res.ok.inj h3] at hi
    cases hi

/-- **C37 is false**: a set in which everything referred to is present (a blob and a tree with that blob) is rejected, however
the threads were scheduled. -/
theorem C37_check_false : ∃ c : PackCache, c.Keyed ∧
    (∀ m items, c.hashObject m.id = some m → m.t = .tree → decodeTree m.data = .ok items →
      ∀ i ∈ items, (c.hashObject i.id).isSome = true) ∧
    (∃ D, UpdateFromCache ObjDecodedMap.default c (.ok D)) ∧
    ∀ D, UpdateFromCache ObjDecodedMap.default c (.ok D) → D.checkCompleteness = .err .other := by
  have hk : mapCache.Keyed := PackCache.keyed_run _
  have htree : mapCache.hashObject mapTree.id = some mapTree :=
    (hk.mem mapTree).1 (mapCache_byHash.mem_iff.2 (by simp))
  have hblob : mapCache.hashObject mapBlob.id = some mapBlob :=
    (hk.mem mapBlob).1 (mapCache_byHash.mem_iff.2 (by simp))
  refine ⟨mapCache, hk, ?_, mapCache_updates, ?_⟩
  · intro m items hm ht hd i hi
    have h1 := mapCache_byHash.mem_iff.1 ((hk.mem m).2 hm)
    simp only [List.mem_cons, List.not_mem_nil, or_false] at h1
    rcases h1 with rfl | rfl
    · cases ht
    · rw [mapTree_decode] at hd
      obtain rfl := Res.ok.inj hd
      obtain rfl := List.mem_singleton.1 hi
      show (mapCache.hashObject mapBlob.id).isSome = true
      rw [hblob]; rfl
  · intro D hD
    apply (C37_check_partial D).2.1
    rw [C37_accepts_only_empty_trees hk hD]
    intro h
    have := h mapTree htree rfl
    exact absurd this (by decide +kernel)

/-- **C37 is false**: even with a filled table, a commit whose tree is missing is accepted. -/
theorem C37_commit_tree_unchecked (x : CommitObj) : ∃ D : ObjDecodedMap, D.commits = [x] ∧ D.trees = [] ∧ D.blobs = [] ∧
    (∀ h, D.mapHash h = true ↔ h = x.base.id) ∧ ∃ D', D.checkCompleteness = .ok D' := by
  refine ⟨{ ObjDecodedMap.default with commits := [x], mapHash := fun h => decide (h = x.base.id) }, rfl, rfl, rfl, ?_, ?_⟩
  · intro h; simp
  · rw [(C37_check_partial _).1]
    intro t ht
    cases ht

/-- **C37 is false**: no object set whatsoever can be written. -/
theorem C37_write_never_succeeds (X : Ext) (p : Profile) (Df : Differ) (D : ObjDecodedMap) :
    ObjDecodedMap.packWrite X p Df D = .panic := by
  unfold ObjDecodedMap.packWrite
  by_cases h : ∃ D', D.checkCompleteness = .ok D'
  · obtain ⟨D', h⟩ := h
    rw [h]
    simp only [Res.unwrap_ok, Res.bind_ok, ObjDecodedMap.vecSlidingWindow]
    rcases ObjDecodedMap.unwrapAll_cases (D'.commits.map CommitObj.base) with ⟨_, e1⟩ | e1 <;> rw [e1] <;>
      simp only [Res.bind_ok, Res.bind_panic]
    rcases ObjDecodedMap.unwrapAll_cases (D'.tags.map TagObj.base) with ⟨_, e2⟩ | e2 <;> rw [e2] <;>
      simp only [Res.bind_ok, Res.bind_panic]
    rcases ObjDecodedMap.unwrapAll_cases (D'.trees.map TreeObj.base) with ⟨_, e3⟩ | e3 <;> rw [e3] <;>
      simp only [Res.bind_ok, Res.bind_panic]
    rcases ObjDecodedMap.unwrapAll_cases (D'.blobs.map BlobObj.base) with ⟨_, e4⟩ | e4 <;> rw [e4] <;>
      simp only [Res.bind_ok, Res.bind_panic, Res.pure_eq]
    rfl
  · rw [(C37_check_partial D).2.1 h]
    rfl

/-- The check accepts a tree whose blob is in the table, and names the blob. -/
example : (ObjDecodedMap.checkCompleteness
    { ObjDecodedMap.default with
      mapHash := fun h => decide (h = mapBlob.id)
      blobs := [{ filename := [], base := mapBlob }]
      trees := [{ base := mapTree, items := [mapItem], name := [] }] }).unwrap.halts ∧
    ∃ D', ObjDecodedMap.checkCompleteness
      { ObjDecodedMap.default with
        mapHash := fun h => decide (h = mapBlob.id)
        blobs := [{ filename := [], base := mapBlob }]
        trees := [{ base := mapTree, items := [mapItem], name := [] }] } = .ok D' ∧
      D'.blobs = [{ filename := ascii "a.txt", base := mapBlob }] := by
  have hi : ObjDecodedMap.checkItems (fun h => decide (h = mapBlob.id)) [mapItem] (fun _ => none) =
      .ok (setAt (fun _ => none) mapBlob.id (some (ascii "a.txt"))) := by
    simp only [ObjDecodedMap.checkItems, show mapItem.id = mapBlob.id from rfl, decide_true, if_true]
    rfl
  have ht : ObjDecodedMap.checkTrees (fun h => decide (h = mapBlob.id))
      [{ base := mapTree, items := [mapItem], name := [] }] (fun _ => none) =
      .ok (setAt (fun _ => none) mapBlob.id (some (ascii "a.txt"))) := by
    rw [ObjDecodedMap.checkTrees, hi]
    rfl
  refine ⟨?_, ?_⟩
  · simp only [ObjDecodedMap.checkCompleteness, ObjDecodedMap.default, ht, Res.bind_ok, Res.pure_eq, Res.unwrap_ok]
    trivial
  · simp only [ObjDecodedMap.checkCompleteness, ObjDecodedMap.default, ht, Res.bind_ok, Res.pure_eq]
    refine ⟨_, rfl, ?_⟩
    simp [setAt]

end Gust

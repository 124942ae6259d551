import Verif.Lemmas.Pool
import Verif.Lemmas.Halt

/-! # Further decoding of cached objects -/

namespace Gust

open Res

theorem slice_halts {α : Type} (d : List α) (a b : Nat) : (slice d a b).halts := by unfold slice; split <;> trivial

theorem sliceFrom_halts {α : Type} (d : List α) (a : Nat) : (sliceFrom d a).halts := by unfold sliceFrom; split <;> trivial

theorem toStr_halts (s : Bytes) : (toStr s).halts := by unfold toStr; split <;> trivial

theorem authorSign_halts (d : Bytes) : (AuthorSign.decode d).halts := by
  unfold AuthorSign.decode
  repeat' first
    | exact halts_unwrapOpt _
    | exact slice_halts _ _ _
    | exact sliceFrom_halts _ _
    | exact toStr_halts _
    | trivial
    | refine halts_bind ?_ (fun _ _ => ?_)
    | split

theorem parentLoop_halts (d : Bytes) (a i : Nat) : (parentLoop d a i).halts := by
  induction hn : a - i using Nat.strongRecOn generalizing i with
  | _ n ih =>
    rw [parentLoop]
    split
    · split
      · refine halts_bind (slice_halts _ _ _) (fun _ _ => halts_bind (halts_unwrapOpt _) (fun _ _ => ?_))
        exact halts_bind (ih _ (by omega) _ rfl) (fun _ _ => trivial)
      · trivial
    · trivial

theorem decodeParents_halts (d : Bytes) (a : Nat) : (decodeParents d a).halts := by
  unfold decodeParents
  split
  · exact parentLoop_halts _ _ _
  · trivial

theorem commit_halts (d : Bytes) : (Commit.decode d).halts := by
  unfold Commit.decode
  repeat' first
    | exact halts_unwrapOpt _
    | exact slice_halts _ _ _
    | exact sliceFrom_halts _ _
    | exact toStr_halts _
    | exact authorSign_halts _
    | exact decodeParents_halts _ _
    | trivial
    | refine halts_bind ?_ (fun _ _ => ?_)

theorem fromString_halts (s : Bytes) : (ObjectType.fromString s).halts := by
  unfold ObjectType.fromString
  repeat' first
    | trivial
    | split

theorem tag_halts (d : Bytes) : (Tag.decode d).halts := by
  unfold Tag.decode
  repeat' first
    | exact halts_unwrapOpt _
    | exact slice_halts _ _ _
    | exact sliceFrom_halts _ _
    | exact toStr_halts _
    | exact authorSign_halts _
    | exact halts_unwrap (fromString_halts _)
    | trivial
    | refine halts_bind ?_ (fun _ _ => ?_)

theorem fromMode_halts (m : Bytes) : (TreeItemType.fromMode m).halts := by
  unfold TreeItemType.fromMode
  repeat' first
    | trivial
    | split

theorem fromRow_halts' (r : Bytes) : (Hash.fromRow r).halts := by
  unfold Hash.fromRow; split <;> trivial

theorem treeItem_halts (d : Bytes) : (decodeTreeItem d).halts := by
  unfold decodeTreeItem
  repeat' first
    | exact halts_unwrapOpt _
    | exact slice_halts _ _ _
    | exact fromRow_halts' _
    | exact halts_unwrap (fromMode_halts _)
    | trivial
    | refine halts_bind ?_ (fun _ _ => ?_)
    | split

theorem tree_halts (d : Bytes) : (decodeTree d).halts := by
  induction hn : d.length using Nat.strongRecOn generalizing d with
  | _ n ih =>
    rw [decodeTree]
    split
    · trivial
    · split
      · rename_i r h
        exact halts_bind (ih _ (by rw [← hn]; exact decodeTreeItem_shrinks h) _ rfl) (fun _ _ => trivial)
      · trivial
      · trivial
      · rename_i h
        have := treeItem_halts d
        rw [h] at this
        exact this

theorem unwrap_cases {α : Type} {x : Res α} (h : x.halts) : x.unwrap = .panic ∨ ∃ a, x = .ok a := by
  cases x with
  | ok a => exact .inr ⟨a, rfl⟩
  | err e => exact .inl rfl
  | panic => exact .inl rfl
  | spin => exact absurd h id

/-- Decoding one object gives a value or panics. -/
theorem decodeObject_cases (m : MetaData) : decodeObject m = .panic ∨ ∃ d, decodeObject m = .ok d := by
  unfold decodeObject
  split
  · exact .inr ⟨_, rfl⟩
  · rcases unwrap_cases (commit_halts m.data) with h | ⟨a, h⟩
    · left; rw [h]; rfl
    · right; rw [h]; exact ⟨_, rfl⟩
  · rcases unwrap_cases (tag_halts m.data) with h | ⟨a, h⟩
    · left; rw [h]; rfl
    · right; rw [h]; exact ⟨_, rfl⟩
  · rcases unwrap_cases (tree_halts m.data) with h | ⟨a, h⟩
    · left; rw [h]; rfl
    · right; rw [h]; exact ⟨_, rfl⟩
  · exact .inl rfl

theorem decodeAll_cases : ∀ ms : List MetaData, decodeAll ms = .panic ∨ ∃ ts, decodeAll ms = .ok ts
  | [] => .inr ⟨[], rfl⟩
  | m :: ms => by
    unfold decodeAll
    rcases decodeObject_cases m with h | ⟨d, h⟩
    · left; rw [h]; rfl
    · rw [h]
      rcases decodeAll_cases ms with h' | ⟨ts, h'⟩
      · left; rw [h']; rfl
      · right; rw [h']; exact ⟨_, rfl⟩

theorem decodeAll_ok : ∀ {ms : List MetaData} {ts : List (ObjectType × Decoded)}, decodeAll ms = .ok ts →
    List.Forall₂ (fun m p => p.1 = m.t ∧ decodeObject m = .ok p.2) ms ts
  | [], ts, h => by
    cases h
    exact .nil
  | m :: ms, ts, h => by
    simp only [decodeAll, Res.bind_eq_ok, Res.pure_eq, Res.ok.injEq] at h
    obtain ⟨d, h1, ds, h2, rfl⟩ := h
    exact .cons ⟨rfl, h1⟩ (decodeAll_ok h2)

theorem decodeAll_panic {ms : List MetaData} : decodeAll ms = .panic ↔ ∃ m ∈ ms, decodeObject m = .panic := by
  induction ms with
  | nil => simp [decodeAll]
  | cons m ms ih =>
    unfold decodeAll
    rcases decodeObject_cases m with h | ⟨d, h⟩
    · rw [h]
      simp [h]
    · rw [h]
      rcases decodeAll_cases ms with h' | ⟨ts, h'⟩
      · rw [h']
        obtain ⟨x, hx, hp⟩ := ih.1 h'
        simp only [Res.bind_ok, Res.bind_panic, true_iff]
        exact ⟨x, List.mem_cons_of_mem _ hx, hp⟩
      · rw [h'] at ih ⊢
        simp only [reduceCtorEq, false_iff, not_exists, not_and] at ih
        simp only [Res.bind_ok, Res.pure_eq, reduceCtorEq, List.mem_cons, false_iff, not_exists, not_and]
        rintro x (rfl | hx)
        · rw [h]; simp
        · exact ih x hx

/-- The values of one kind, extracted, belong to the objects of that kind, in the same order. -/
theorem forall₂_extract {β : Type} {ms : List MetaData} {ts : List (ObjectType × Decoded)} (k : ObjectType)
    (as : Decoded → Option β) (base : β → MetaData) (P : β → Prop)
    (hk : ∀ m d, m.t = k → decodeObject m = .ok d → ∃ b, as d = some b ∧ base b = m ∧ P b)
    (h : List.Forall₂ (fun m (p : ObjectType × Decoded) => p.1 = m.t ∧ decodeObject m = .ok p.2) ms ts) :
    (((ts.filter (fun p => decide (p.1 = k))).map Prod.snd).filterMap as).map base = ms.filter (fun m => decide (m.t = k)) ∧
      ∀ b ∈ ((ts.filter (fun p => decide (p.1 = k))).map Prod.snd).filterMap as, P b := by
  induction h with
  | nil => simp
  | cons hmp htail ih =>
    rename_i m p ms ts
    obtain ⟨h1, h2⟩ := hmp
    by_cases hm : m.t = k
    · obtain ⟨b, e1, e2, e3⟩ := hk m p.2 hm h2
      rw [List.filter_cons_of_pos (by simp [h1, hm]), List.filter_cons_of_pos (by simp [hm])]
      simp only [List.map_cons, List.filterMap_cons, e1, e2, ih.1, List.mem_cons, true_and]
      rintro x (rfl | hx)
      · exact e3
      · exact ih.2 x hx
    · rw [List.filter_cons_of_neg (by simp [h1, hm]), List.filter_cons_of_neg (by simp [hm])]
      exact ih

/-- Outcome of a successful update: each vector is a permutation of the decoded objects of its kind. -/
theorem update_ok {self D : ObjDecodedMap} {cache : PackCache} (h : UpdateFromCache self cache (.ok D)) :
    ∃ ts, decodeAll (cache.byHash.map Prod.snd) = .ok ts ∧ D.mapHash = self.mapHash ∧ D.nameMap = self.nameMap ∧
      D.blobs.Perm (((ts.filter (fun p => decide (p.1 = .blob))).map Prod.snd).filterMap Decoded.asBlob) ∧
      D.trees.Perm (((ts.filter (fun p => decide (p.1 = .tree))).map Prod.snd).filterMap Decoded.asTree) ∧
      D.commits.Perm (((ts.filter (fun p => decide (p.1 = .commit))).map Prod.snd).filterMap Decoded.asCommit) ∧
      D.tags.Perm (((ts.filter (fun p => decide (p.1 = .tag))).map Prod.snd).filterMap Decoded.asTag) := by
  cases h with
  | ok tasks n s hd hr hf =>
    have hi := (PoolInv.init tasks).run hr
    exact ⟨tasks, hd, rfl, rfl, (hi.done hf _).filterMap _, (hi.done hf _).filterMap _, (hi.done hf _).filterMap _,
      (hi.done hf _).filterMap _⟩

theorem update_outcomes {self : ObjDecodedMap} {cache : PackCache} {r : Res ObjDecodedMap}
    (h : UpdateFromCache self cache r) : r = .panic ∨ ∃ D, r = .ok D := by
  cases h with
  | panic _ => exact .inl rfl
  | ok tasks n s _ _ _ => exact .inr ⟨_, rfl⟩

theorem update_exists (self : ObjDecodedMap) (cache : PackCache) : ∃ r, UpdateFromCache self cache r := by
  rcases decodeAll_cases (cache.byHash.map Prod.snd) with h | ⟨ts, h⟩
  · exact ⟨_, .panic h⟩
  · obtain ⟨n, s, h1, h2⟩ := PoolInv.finishes (tasks := ts) _ (Nat.le_refl _) (.refl (PoolState.init Decoded))
      (PoolInv.init ts)
    exact ⟨_, .ok ts n s h h1 h2⟩

theorem decodeObject_blob {m : MetaData} {d : Decoded} (ht : m.t = .blob) (h : decodeObject m = .ok d) :
    ∃ b, d.asBlob = some b ∧ b.base = m ∧ b.filename = [] := by
  simp only [decodeObject, ht, Res.ok.injEq] at h
  subst h
  exact ⟨_, rfl, rfl, rfl⟩

theorem decodeObject_tree {m : MetaData} {d : Decoded} (ht : m.t = .tree) (h : decodeObject m = .ok d) :
    ∃ b, d.asTree = some b ∧ b.base = m ∧ (decodeTree b.base.data = .ok b.items ∧ b.name = []) := by
  simp only [decodeObject, ht, Res.bind_eq_ok, Res.pure_eq, Res.ok.injEq, unwrap_eq_ok] at h
  obtain ⟨i, h1, rfl⟩ := h
  exact ⟨_, rfl, rfl, h1, rfl⟩

theorem decodeObject_commit {m : MetaData} {d : Decoded} (ht : m.t = .commit) (h : decodeObject m = .ok d) :
    ∃ b, d.asCommit = some b ∧ b.base = m ∧ Commit.decode b.base.data = .ok b.commit := by
  simp only [decodeObject, ht, Res.bind_eq_ok, Res.pure_eq, Res.ok.injEq, unwrap_eq_ok] at h
  obtain ⟨i, h1, rfl⟩ := h
  exact ⟨_, rfl, rfl, h1⟩

theorem decodeObject_tag {m : MetaData} {d : Decoded} (ht : m.t = .tag) (h : decodeObject m = .ok d) :
    ∃ b, d.asTag = some b ∧ b.base = m ∧ Tag.decode b.base.data = .ok b.tag := by
  simp only [decodeObject, ht, Res.bind_eq_ok, Res.pure_eq, Res.ok.injEq, unwrap_eq_ok] at h
  obtain ⟨i, h1, rfl⟩ := h
  exact ⟨_, rfl, rfl, h1⟩

namespace ObjDecodedMap

theorem checkItems_ok (mh : Hash → Bool) : ∀ (items : List TreeItem) (names : Hash → Option Bytes),
    (∃ n', checkItems mh items names = .ok n') ↔ ∀ i ∈ items, mh i.id = true
  | [], names => by simp [checkItems]
  | i :: is, names => by
    unfold checkItems
    by_cases h : mh i.id = true
    · rw [if_pos h, checkItems_ok mh is]
      simp [h]
    · rw [if_neg h]
      simp [h]

theorem checkTrees_ok (mh : Hash → Bool) : ∀ (ts : List TreeObj) (names : Hash → Option Bytes),
    (∃ n', checkTrees mh ts names = .ok n') ↔ ∀ t ∈ ts, ∀ i ∈ t.items, mh i.id = true
  | [], names => by simp [checkTrees]
  | t :: ts, names => by
    simp only [checkTrees, Res.bind_eq_ok, List.forall_mem_cons]
    constructor
    · rintro ⟨n', n1, h1, h2⟩
      exact ⟨(checkItems_ok mh t.items names).1 ⟨_, h1⟩, (checkTrees_ok mh ts n1).1 ⟨_, h2⟩⟩
    · rintro ⟨h1, h2⟩
      obtain ⟨n1, g1⟩ := (checkItems_ok mh t.items names).2 h1
      obtain ⟨n2, g2⟩ := (checkTrees_ok mh ts n1).2 h2
      exact ⟨n2, n1, g1, g2⟩

theorem checkItems_err (mh : Hash → Bool) : ∀ (items : List TreeItem) (names : Hash → Option Bytes),
    (∃ n', checkItems mh items names = .ok n') ∨ checkItems mh items names = .err .other
  | [], names => .inl ⟨_, rfl⟩
  | i :: is, names => by
    unfold checkItems
    split
    · exact checkItems_err mh is _
    · exact .inr rfl

theorem checkTrees_err (mh : Hash → Bool) : ∀ (ts : List TreeObj) (names : Hash → Option Bytes),
    (∃ n', checkTrees mh ts names = .ok n') ∨ checkTrees mh ts names = .err .other
  | [], names => .inl ⟨_, rfl⟩
  | t :: ts, names => by
    unfold checkTrees
    rcases checkItems_err mh t.items names with ⟨n', h⟩ | h
    · rw [h]; exact checkTrees_err mh ts n'
    · rw [h]; exact .inr rfl

/-- After the loop over the items of a tree an id has the name of one of the items with that id, if there is one. -/
theorem checkItems_names (mh : Hash → Bool) : ∀ (items : List TreeItem) (names n' : Hash → Option Bytes) (h : Hash),
    checkItems mh items names = .ok n' →
    (∃ i ∈ items, i.id = h ∧ n' h = some i.filename) ∨ ((∀ i ∈ items, i.id ≠ h) ∧ n' h = names h)
  | [], names, n', h, e => by
    cases e
    exact .inr ⟨by simp, rfl⟩
  | i :: is, names, n', h, e => by
    unfold checkItems at e
    split at e
    · rcases checkItems_names mh is _ n' h e with ⟨j, hj, h1, h2⟩ | ⟨h1, h2⟩
      · exact .inl ⟨j, List.mem_cons_of_mem _ hj, h1, h2⟩
      · by_cases hi : i.id = h
        · subst hi
          rw [setAt_same] at h2
          exact .inl ⟨i, List.mem_cons_self, rfl, h2⟩
        · rw [setAt_other _ _ (fun e => hi e.symm)] at h2
          exact .inr ⟨List.forall_mem_cons.2 ⟨hi, h1⟩, h2⟩
    · cases e

theorem checkTrees_names (mh : Hash → Bool) : ∀ (ts : List TreeObj) (names n' : Hash → Option Bytes) (h : Hash),
    checkTrees mh ts names = .ok n' →
    (∃ t ∈ ts, ∃ i ∈ t.items, i.id = h ∧ n' h = some i.filename) ∨ ((∀ t ∈ ts, ∀ i ∈ t.items, i.id ≠ h) ∧ n' h = names h)
  | [], names, n', h, e => by
    cases e
    exact .inr ⟨by simp, rfl⟩
  | t :: ts, names, n', h, e => by
    simp only [checkTrees, Res.bind_eq_ok] at e
    obtain ⟨n1, e1, e2⟩ := e
    rcases checkTrees_names mh ts n1 n' h e2 with ⟨u, hu, h1⟩ | ⟨h1, h2⟩
    · exact .inl ⟨u, List.mem_cons_of_mem _ hu, h1⟩
    · rcases checkItems_names mh t.items names n1 h e1 with ⟨i, hi, h3, h4⟩ | ⟨h3, h4⟩
      · exact .inl ⟨t, List.mem_cons_self, i, hi, h3, h2.trans h4⟩
      · exact .inr ⟨List.forall_mem_cons.2 ⟨h3, h1⟩, h2.trans h4⟩

theorem unwrapAll_cases : ∀ ms : List MetaData, (ms = [] ∧ unwrapAll ms = .ok []) ∨ unwrapAll ms = .panic
  | [] => .inl ⟨rfl, rfl⟩
  | _ :: _ => .inr rfl

end ObjDecodedMap

/-- Objects of a cache are stored under their own id. -/
def PackCache.Keyed (c : PackCache) : Prop := HashMap.Sorted c.byHash ∧ ∀ p ∈ c.byHash, p.2.id = p.1

theorem PackCache.keyed_run (hist : List (MetaData × Nat)) : (PackCache.empty.run hist).Keyed := by
  refine ⟨PackCache.sorted_run hist, ?_⟩
  rintro ⟨k, m⟩ hp
  have := (HashMap.mem_iff_get (PackCache.sorted_run hist) k m).1 hp
  have h2 := PackCache.hashObject_run hist k
  unfold PackCache.hashObject at h2
  rw [this] at h2
  obtain ⟨a, ha, rfl⟩ := Option.map_eq_some_iff.1 h2.symm
  exact of_decide_eq_true (PackCache.lastWith_some ha).2

theorem PackCache.Keyed.nodup {c : PackCache} (h : c.Keyed) : (c.byHash.map Prod.snd).Nodup := by
  apply List.Nodup.of_map MetaData.id
  rw [List.map_map]
  have : c.byHash.map (MetaData.id ∘ Prod.snd) = c.byHash.map Prod.fst := by
    apply List.map_congr_left
    intro p hp
    exact h.2 p hp
  rw [this]
  exact HashMap.sorted_nodup h.1

theorem PackCache.Keyed.mem {c : PackCache} (h : c.Keyed) (m : MetaData) :
    m ∈ c.byHash.map Prod.snd ↔ c.hashObject m.id = some m := by
  unfold PackCache.hashObject
  rw [← HashMap.mem_iff_get h.1]
  constructor
  · intro hm
    obtain ⟨p, hp, rfl⟩ := List.mem_map.1 hm
    rw [h.2 p hp]
    exact hp
  · intro hm
    exact List.mem_map.2 ⟨_, hm, rfl⟩

end Gust

import Verif.Lemmas.Fetch

/-! # `get_full_pack_data` collects exactly the repository -/

namespace Gust

open Spec (nodeObj StoreReach commitsAt InRepo)

section
variable {X : Ext} {E : SqlExt} {db : Db}

/-- The tree of every commit of a path is stored, as a tree. -/
def RootsOk (E : SqlExt) (db : Db) (path : Bytes) : Prop :=
  ∀ r ∈ commitsAt E.fold db.commits path, ∃ c, Commit.decode r.data = .ok c ∧
    ∃ n ∈ db.nodes, n.gitId = Hash.toPlainStr c.treeId ∧ n.nodeType = ascii "tree"

theorem commitsAt_mem {fold : Bytes → Bytes} {cs : List CommitRow} {path : Bytes} {r : CommitRow} :
    r ∈ commitsAt fold cs path ↔ r ∈ cs ∧ fold r.repoPath = fold path := by
  simp [commitsAt, List.mem_filter]

theorem mem_commitsByPath (E : SqlExt) (db : Db) (path : Bytes) (r : CommitRow) :
    r ∈ commitsByPath E db path ↔ r ∈ commitsAt E.fold db.commits path := (E.order_perm _).mem_iff

theorem loadCommits_eq : ∀ {rs : List CommitRow} {cs : List CommitObj}, loadCommits X rs = .ok cs →
    (∀ r ∈ rs, ∃ co ∈ cs, co.base = metaOf X (.commit, r.data) ∧ Commit.decode r.data = .ok co.commit) ∧
    (∀ co ∈ cs, ∃ r ∈ rs, co.base = metaOf X (.commit, r.data) ∧ Commit.decode r.data = .ok co.commit)
  | [], cs, h => by
    simp only [loadCommits, Res.ok.injEq] at h
    subst h
    simp
  | r :: rs, cs, h => by
    simp only [loadCommits] at h
    rw [new_metaOf X (.commit, r.data) rfl] at h
    simp only [Res.bind_ok, Res.bind_eq_ok, Res.unwrap_eq_ok, Res.pure_eq, Res.ok.injEq] at h
    obtain ⟨c, hc, cs', h1, rfl⟩ := h
    obtain ⟨i1, i2⟩ := loadCommits_eq h1
    constructor
    · intro x hx
      rcases List.mem_cons.1 hx with rfl | hx
      · exact ⟨_, .head _, rfl, hc⟩
      · obtain ⟨co, hco, e⟩ := i1 x hx
        exact ⟨co, .tail _ hco, e⟩
    · intro co hco
      rcases List.mem_cons.1 hco with rfl | hco
      · exact ⟨r, .head _, rfl, hc⟩
      · obtain ⟨r', hr', e⟩ := i2 co hco
        exact ⟨r', .tail _ hr', e⟩

theorem loadCommits_total : ∀ (rs : List CommitRow), (∀ r ∈ rs, ∃ c, Commit.decode r.data = .ok c) → ∃ cs, loadCommits X rs = .ok cs
  | [], _ => ⟨[], rfl⟩
  | r :: rs, h => by
    obtain ⟨cs, h1⟩ := loadCommits_total rs (fun r hr => h r (.tail _ hr))
    obtain ⟨c, hc⟩ := h r (.head _)
    refine ⟨{ base := metaOf X (.commit, r.data), commit := c } :: cs, ?_⟩
    rw [loadCommits, new_metaOf X (.commit, r.data) rfl, Res.bind_ok, show (metaOf X (ObjectType.commit, r.data)).data = r.data from rfl, hc,
      Res.unwrap_ok, Res.bind_ok, h1]
    rfl

theorem nodesByIds_ok (hS : StoreOk X E db) (ids : List Bytes) : ∃ f, nodesByIds E db ids = .ok f ∧
    (∀ h n, f h = some n → n ∈ db.nodes ∧ n.gitId = Hash.toPlainStr h) ∧
    (∀ h, Hash.toPlainStr h ∈ ids → (∃ n ∈ db.nodes, n.gitId = Hash.toPlainStr h) → ∃ n, f h = some n) := by
  unfold nodesByIds
  simp only
  rw [if_pos]
  · refine ⟨_, rfl, ?_, ?_⟩
    · intro h n hf
      have hm := List.mem_of_find?_eq_some hf
      have e := List.find?_some hf
      have hn : n ∈ db.nodes := (List.mem_filter.1 ((E.order_perm _).mem_iff.1 (List.mem_reverse.1 hm))).1
      refine ⟨hn, ?_⟩
      have e := eq_of_beq e
      rw [hS.id n hn, Hash.fromBytes_toPlainStr] at e
      rw [hS.id n hn, Option.some.inj e]
    · rintro h hid ⟨n, hn, e⟩
      cases hf : (E.order (db.nodes.filter (fun n => ids.any (fun k => E.fold n.gitId == E.fold k)))).reverse.find?
          (fun n => Hash.fromBytes n.gitId == some h) with
      | some n' => exact ⟨n', rfl⟩
      | none =>
        have := List.find?_eq_none.1 hf n (List.mem_reverse.2 ((E.order_perm _).mem_iff.2 (List.mem_filter.2 ⟨hn, by
          rw [List.any_eq_true]
          exact ⟨_, hid, by rw [e]; simp⟩⟩)))
        rw [e, Hash.fromBytes_toPlainStr] at this
        simp at this
  · rw [List.all_eq_true]
    intro n hn
    rw [hS.id n (List.mem_filter.1 ((E.order_perm _).mem_iff.1 hn)).1, Hash.fromBytes_toPlainStr]
    rfl

/-- The state of the loop over the commits. -/
structure Collected (X : Ext) (db : Db) (cs : List CommitObj) (hm hm' : HashMeta) : Prop where
  good : Good X db hm'
  closed : ClosedMap X db hm'
  mono : ∀ p ∈ hm, p ∈ hm'
  commits : ∀ c ∈ cs, (Hash.toPlainStr c.base.id, c.base) ∈ hm'
  roots : ∀ c ∈ cs, ∀ n ∈ db.nodes, n.gitId = Hash.toPlainStr c.commit.treeId → entryOf X (nodeObj n) ∈ hm'
  sound : ∀ p ∈ hm', p ∈ hm ∨ (∃ c ∈ cs, p = (Hash.toPlainStr c.base.id, c.base)) ∨
    ∃ c ∈ cs, ∃ n ∈ db.nodes, p = entryOf X (nodeObj n) ∧ StoreReach db.nodes c.commit.treeId (idOf X (nodeObj n))

theorem sameRow (hS : StoreOk X E db) {a b : NodeRow} (ha : a ∈ db.nodes) (hb : b ∈ db.nodes) (h : a.gitId = b.gitId) : nodeObj a = nodeObj b := by
  rw [hS.id a ha, hS.id b hb] at h
  exact hS.unique _ _ (.inl ⟨a, ha, rfl⟩) (.inl ⟨b, hb, rfl⟩) (Hash.toPlainStr_injective h)

theorem tree_of_obj {a b : NodeRow} (h : nodeObj a = nodeObj b) (hb : b.nodeType = ascii "tree") : a.nodeType = ascii "tree" := by
  by_contra hn
  rw [nodeObj_blob hn, nodeObj_tree hb] at h
  cases h

theorem fullLoop_ok (hS : StoreOk X E db) (fuel : Nat) (trees : Hash → Option NodeRow)
    (ht : ∀ h n, trees h = some n → n ∈ db.nodes ∧ n.gitId = Hash.toPlainStr h) : ∀ (cs : List CommitObj) (hm hm' : HashMeta),
    (∀ c ∈ cs, StoredObj db (.commit, c.base.data) ∧ c.base = metaOf X (.commit, c.base.data) ∧
      ∀ n ∈ db.nodes, n.gitId = Hash.toPlainStr c.commit.treeId → n.nodeType = ascii "tree") →
    Good X db hm → ClosedMap X db hm → fullLoop X E db fuel trees cs hm = .ok hm' → Collected X db cs hm hm'
  | [], hm, hm', _, hg, hcl, h => by
    simp only [fullLoop, Res.ok.injEq] at h
    subst h
    exact ⟨hg, hcl, fun _ h => h, by simp, by simp, fun _ h => .inl h⟩
  | c :: cs, hm, hm', hc, hg, hcl, h => by
    simp only [fullLoop] at h
    obtain ⟨h1, h2, h3⟩ := hc c (.head _)
    cases hr : trees c.commit.treeId with
    | none => rw [hr] at h; simp at h
    | some root =>
      rw [hr] at h
      simp only [Res.bind_eq_ok] at h
      obtain ⟨hm1, g1, g2⟩ := h
      obtain ⟨hrn, hre⟩ := ht _ _ hr
      have hty := h3 root hrn hre
      have hid : idOf X (nodeObj root) = c.commit.treeId := by
        rw [hS.id root hrn] at hre
        exact Hash.toPlainStr_injective hre
      have e0 : (Hash.toPlainStr c.base.id, c.base) = entryOf X (.commit, c.base.data) := by
        conv_lhs => rw [h2]
        rfl
      have e1 : entryInsert hm (Hash.toPlainStr c.base.id) c.base =
          entryInsert hm (Hash.toPlainStr (idOf X (.commit, c.base.data))) (metaOf X (.commit, c.base.data)) := by
        conv_lhs => rw [h2]
        rfl
      obtain ⟨gi, key⟩ := good_insert hS hg h1
      have ci : ClosedMap X db (entryInsert hm (Hash.toPlainStr (idOf X (.commit, c.base.data))) (metaOf X (.commit, c.base.data))) :=
        closed_insert hS hg hcl h1 (by
          intro n _ ht' e
          rw [nodeObj_tree ht'] at e
          cases e)
      rw [e1] at g1
      obtain ⟨w, ew⟩ := getChildTrees_walk hS fuel root _ hm1 hrn hty gi ci g1
      have rest := fullLoop_ok hS fuel trees ht cs hm1 hm' (fun c h => hc c (.tail _ h)) w.good w.closed g2
      refine ⟨rest.good, rest.closed, fun p hp => rest.mono p (w.mono p ((key p).2 (.inr hp))), ?_, ?_, ?_⟩
      · intro x hx
        rcases List.mem_cons.1 hx with rfl | hx
        · exact rest.mono _ (w.mono _ ((key _).2 (.inl e0)))
        · exact rest.commits x hx
      · intro x hx n hn e
        rcases List.mem_cons.1 hx with rfl | hx
        · rw [sameRow hS hn hrn (by rw [e, hre])]
          exact rest.mono _ ew
        · exact rest.roots x hx n hn e
      · intro p hp
        rcases rest.sound p hp with h | ⟨x, hx, e⟩ | ⟨x, hx, n, hn, e, hre'⟩
        · rcases w.sound p h with h | ⟨n, hn, e, r, hrm, hre'⟩
          · rcases (key p).1 h with rfl | h
            · exact .inr (.inl ⟨c, .head _, e0.symm⟩)
            · exact .inl h
          · rw [List.mem_singleton.1 hrm, hid] at hre'
            exact .inr (.inr ⟨c, .head _, n, hn, e, hre'⟩)
        · exact .inr (.inl ⟨x, .tail _ hx, e⟩)
        · exact .inr (.inr ⟨x, .tail _ hx, n, hn, e, hre'⟩)

theorem fullLoop_total (hS : StoreOk X E db)
    (fuel : Nat) (trees : Hash → Option NodeRow) : ∀ (cs : List CommitObj) (hm : HashMeta),
    (∀ c ∈ cs, Spec.NestedWithin db.nodes fuel c.commit.treeId ∧ ∃ n, trees c.commit.treeId = some n ∧ n ∈ db.nodes ∧ n.gitId = Hash.toPlainStr c.commit.treeId ∧
      n.nodeType = ascii "tree") → ∃ hm', fullLoop X E db fuel trees cs hm = .ok hm'
  | [], hm, _ => ⟨hm, rfl⟩
  | c :: cs, hm, h => by
    obtain ⟨h1, n, h2, h3, h4, h5⟩ := h c (.head _)
    have hid : idOf X (nodeObj n) = c.commit.treeId := by
      rw [hS.id n h3] at h4
      exact Hash.toPlainStr_injective h4
    obtain ⟨hm1, g1⟩ := getChildTrees_total hS fuel n (entryInsert hm (Hash.toPlainStr c.base.id) c.base) h3 h5 (by rw [hid]; exact h1)
    obtain ⟨hm2, g2⟩ := fullLoop_total hS fuel trees cs hm1 (fun c hc => h c (.tail _ hc))
    refine ⟨hm2, ?_⟩
    rw [fullLoop]
    simp only [h2]
    rw [g1, Res.bind_ok, g2]

/-- What `get_full_pack_data` collects. -/
theorem fullObjects_ok (hS : StoreOk X E db) {path : Bytes} (hroots : RootsOk E db path) {fuel : Nat} {hm : HashMeta}
    (h : fullObjects X E fuel db path = .ok hm) :
    (hm.map Prod.fst).Nodup ∧ ∀ p, p ∈ hm ↔ ∃ o, InRepo E.fold db path o ∧ p = entryOf X o := by
  simp only [fullObjects, Res.bind_eq_ok] at h
  obtain ⟨cs, h1, trees, h2, h3⟩ := h
  obtain ⟨l1, l2⟩ := loadCommits_eq h1
  obtain ⟨f, hf, t1, _⟩ := nodesByIds_ok hS (cs.map (fun c => Hash.toPlainStr c.commit.treeId))
  rw [h2] at hf
  obtain rfl := Res.ok.inj hf
  have hc : ∀ c ∈ cs, StoredObj db (.commit, c.base.data) ∧ c.base = metaOf X (.commit, c.base.data) ∧
      ∀ n ∈ db.nodes, n.gitId = Hash.toPlainStr c.commit.treeId → n.nodeType = ascii "tree" := by
    intro c hc
    obtain ⟨r, hr, e1, e2⟩ := l2 c hc
    rw [mem_commitsByPath] at hr
    have ed : c.base.data = r.data := by rw [e1]; rfl
    rw [ed]
    refine ⟨.inr ⟨r, (commitsAt_mem.1 hr).1, rfl⟩, e1, ?_⟩
    intro n hn e
    obtain ⟨c', hc', n', hn', e', ht'⟩ := hroots r hr
    rw [e2] at hc'
    cases hc'
    exact tree_of_obj (sameRow hS hn hn' (by rw [e, e'])) ht'
  have col := fullLoop_ok hS fuel trees t1 cs [] hm hc ⟨by simp, by simp⟩ (by intro n _ _ h; cases h) h3
  refine ⟨col.good.2, fun p => ⟨fun hp => ?_, ?_⟩⟩
  · rcases col.sound p hp with h | ⟨c, hcm, e⟩ | ⟨c, hcm, n, hn, e, hr⟩
    · cases h
    · obtain ⟨r, hr, e1, _⟩ := l2 c hcm
      rw [mem_commitsByPath] at hr
      exact ⟨_, .commit r hr, by rw [e, e1]; rfl⟩
    · obtain ⟨r, hr', e1, e2⟩ := l2 c hcm
      rw [mem_commitsByPath] at hr'
      exact ⟨_, .node r c.commit _ n hr' e2 hr hn (hS.id n hn), e⟩
  · rintro ⟨o, ho, rfl⟩
    cases ho with
    | commit r hr =>
      obtain ⟨c, hcm, e1, _⟩ := l1 r ((mem_commitsByPath E db path r).2 hr)
      have := col.commits c hcm
      rw [e1] at this
      exact this
    | node r c h n hr hd hre hn e =>
      obtain ⟨co, hcm, _, e2⟩ := l1 r ((mem_commitsByPath E db path r).2 hr)
      rw [hd] at e2
      have e2 := Res.ok.inj e2
      exact closed_reach hS col.closed (col.roots co hcm) (by rw [← e2]; exact hre) n hn e

theorem fullObjects_total (hS : StoreOk X E db) {path : Bytes} (hroots : RootsOk E db path)
    {fuel : Nat} (hdeep : ∀ r ∈ commitsAt E.fold db.commits path, ∀ c, Commit.decode r.data = .ok c → Spec.NestedWithin db.nodes fuel c.treeId) :
    ∃ hm, fullObjects X E fuel db path = .ok hm := by
  obtain ⟨cs, h1⟩ := loadCommits_total (X := X) (commitsByPath E db path) (by
    intro r hr
    obtain ⟨c, hc, _⟩ := hroots r ((mem_commitsByPath E db path r).1 hr)
    exact ⟨c, hc⟩)
  obtain ⟨_, l2⟩ := loadCommits_eq h1
  obtain ⟨f, hf, t1, t2⟩ := nodesByIds_ok hS (cs.map (fun c => Hash.toPlainStr c.commit.treeId))
  obtain ⟨hm, h2⟩ := fullLoop_total hS fuel f cs [] (by
    intro c hc
    obtain ⟨r, hr, _, e2⟩ := l2 c hc
    rw [mem_commitsByPath] at hr
    obtain ⟨c', hc', n', hn', e', ht'⟩ := hroots r hr
    have := hc'
    rw [e2] at this
    cases this
    obtain ⟨n, hn⟩ := t2 c.commit.treeId (List.mem_map_of_mem hc) ⟨n', hn', e'⟩
    obtain ⟨q1, q2⟩ := t1 _ _ hn
    exact ⟨hdeep r hr _ hc', n, hn, q1, q2, tree_of_obj (sameRow hS q1 hn' (by rw [q2, e'])) ht'⟩)
  exact ⟨hm, by rw [fullObjects, h1, Res.bind_ok, hf, Res.bind_ok, h2]⟩

end

end Gust

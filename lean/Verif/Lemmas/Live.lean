import Verif.Model.Concurrent
import Verif.Lemmas.StoreRun

/-! # Clones while other requests are served -/

namespace Gust

open Spec (nodeObj StoreReach commitsAt InRepo)

theorem StoreOk.sub {X : Ext} {E E' : SqlExt} {db db' : Db} (h : StoreOk X E db') (ext : Extends db db') (hf : E'.fold = E.fold) : StoreOk X E' db :=
  ⟨fun n hn => h.type n (ext.nodes n hn), fun n hn => h.id n (ext.nodes n hn), fun a b ha hb => h.unique a b (ext.stored ha) (ext.stored hb),
    by rw [hf]; exact h.fold, fun n hn => h.tree n (ext.nodes n hn)⟩

/-- What the queries of a clone see: at least what was there at the beginning, at most what is there in the end. -/
structure Views (E : SqlExt) (lo hi : Db) (V : Nat → SqlExt × Db) : Prop where
  lo : ∀ k, Extends lo (V k).2
  hi : ∀ k, Extends (V k).2 hi
  fold : ∀ k, (V k).1.fold = E.fold

/-- With a tree, everything listed in it that was stored at the beginning. -/
def ClosedLo (X : Ext) (lo hi : Db) (hm : HashMeta) : Prop :=
  ∀ n ∈ hi.nodes, n.nodeType = ascii "tree" → entryOf X (nodeObj n) ∈ hm → ∀ items, decodeTree n.data = .ok items → ∀ i ∈ items,
    ∀ n' ∈ lo.nodes, n'.gitId = Hash.toPlainStr i.id → entryOf X (nodeObj n') ∈ hm

section
variable {X : Ext} {E : SqlExt} {lo hi : Db}

theorem Views.ext {V : Nat → SqlExt × Db} (hV : Views E lo hi V) : Extends lo hi :=
  ⟨fun n h => (hV.hi 0).nodes n ((hV.lo 0).nodes n h), fun n h => (hV.hi 0).commits n ((hV.lo 0).commits n h)⟩

theorem closedLo_insert (hS : StoreOk X E hi) {hm : HashMeta} (hg : Good X hi hm) (hc : ClosedLo X lo hi hm) {o : Spec.Obj} (ho : StoredObj hi o)
    (h : ∀ n ∈ hi.nodes, n.nodeType = ascii "tree" → nodeObj n = o → ∀ items, decodeTree n.data = .ok items → ∀ i ∈ items,
      ∀ n' ∈ lo.nodes, n'.gitId = Hash.toPlainStr i.id → entryOf X (nodeObj n') ∈ hm) :
    ClosedLo X lo hi (entryInsert hm (Hash.toPlainStr (idOf X o)) (metaOf X o)) := by
  obtain ⟨_, key⟩ := good_insert hS hg ho
  intro n hn ht he items hd i hii n' hn' e
  rw [key] at he ⊢
  right
  rcases he with he | he
  · have : nodeObj n = o := hS.unique _ _ (.inl ⟨n, hn, rfl⟩) ho (Hash.toPlainStr_injective (congrArg Prod.fst he))
    exact h n hn ht this items hd i hii n' hn' e
  · exact hc n hn ht he items hd i hii n' hn' e

/-- What collecting below some rows does. -/
structure WalkedL (X : Ext) (lo hi : Db) (from_ : List Hash) (hm hm' : HashMeta) : Prop where
  good : Good X hi hm'
  closed : ClosedLo X lo hi hm'
  mono : ∀ p ∈ hm, p ∈ hm'
  sound : ∀ p ∈ hm', p ∈ hm ∨ ∃ n ∈ hi.nodes, p = entryOf X (nodeObj n) ∧ ∃ r ∈ from_, StoreReach hi.nodes r (idOf X (nodeObj n))

theorem WalkedL.trans {a b : List Hash} {h0 h1 h2 : HashMeta} (w : WalkedL X lo hi a h0 h1) (w' : WalkedL X lo hi b h1 h2) :
    WalkedL X lo hi (a ++ b) h0 h2 := by
  refine ⟨w'.good, w'.closed, fun p hp => w'.mono p (w.mono p hp), fun p hp => ?_⟩
  rcases w'.sound p hp with h | ⟨n, hn, e, r, hr, h⟩
  · rcases w.sound p h with h | ⟨n, hn, e, r, hr, h⟩
    · exact .inl h
    · exact .inr ⟨n, hn, e, r, List.mem_append_left _ hr, h⟩
  · exact .inr ⟨n, hn, e, r, List.mem_append_right _ hr, h⟩

/-- What one recursive call must do. -/
def RecWalksL (X : Ext) (lo hi : Db) (rec : NodeRow → HashMeta → Nat → Res (HashMeta × Nat)) : Prop :=
  ∀ root hm k hm' k', root ∈ hi.nodes → root.nodeType = ascii "tree" → Good X hi hm → ClosedLo X lo hi hm → rec root hm k = .ok (hm', k') →
    WalkedL X lo hi [idOf X (nodeObj root)] hm hm' ∧ entryOf X (nodeObj root) ∈ hm'

theorem childOneL_walk (hS : StoreOk X E hi) {rec : NodeRow → HashMeta → Nat → Res (HashMeta × Nat)} (hrec : RecWalksL X lo hi rec) {c : NodeRow}
    (hcn : c ∈ hi.nodes) {hm hm' : HashMeta} {k k' : Nat} (hg : Good X hi hm) (hcl : ClosedLo X lo hi hm) (h : childOneL X rec c hm k = .ok (hm', k')) :
    WalkedL X lo hi [idOf X (nodeObj c)] hm hm' ∧ entryOf X (nodeObj c) ∈ hm' := by
  unfold childOneL at h
  split at h
  · rename_i ht
    exact hrec c hm k hm' k' hcn ht hg hcl h
  · rename_i ht
    have hb := nodeObj_blob ht
    rw [new_metaOf X (.blob, c.data) rfl] at h
    simp only [Res.bind_ok, Res.pure_eq, Res.ok.injEq, Prod.mk.injEq] at h
    have ho : StoredObj hi (ObjectType.blob, c.data) := .inl ⟨c, hcn, hb⟩
    obtain ⟨g, key⟩ := good_insert hS hg ho
    have h' : hm' = entryInsert hm (Hash.toPlainStr (idOf X (ObjectType.blob, c.data))) (metaOf X (ObjectType.blob, c.data)) := h.1.symm
    subst h'
    rw [hb]
    refine ⟨⟨g, ?_, fun p hp => (key p).2 (.inr hp), fun p hp => ?_⟩, (key _).2 (.inl rfl)⟩
    · refine closedLo_insert hS hg hcl ho ?_
      intro n _ ht' e
      rw [nodeObj_tree ht'] at e
      cases e
    · rcases (key p).1 hp with rfl | hp
      · exact .inr ⟨c, hcn, by rw [hb], _, List.mem_singleton.2 rfl, by rw [hb]; exact .refl⟩
      · exact .inl hp

theorem childLoopL_walk (hS : StoreOk X E hi) {rec : NodeRow → HashMeta → Nat → Res (HashMeta × Nat)} (hrec : RecWalksL X lo hi rec) :
    ∀ (cs : List NodeRow) (hm : HashMeta) (k : Nat) (hm' : HashMeta) (k' : Nat), (∀ c ∈ cs, c ∈ hi.nodes) → Good X hi hm → ClosedLo X lo hi hm →
      childLoopL X rec cs hm k = .ok (hm', k') →
      WalkedL X lo hi (cs.map (fun c => idOf X (nodeObj c))) hm hm' ∧ ∀ c ∈ cs, entryOf X (nodeObj c) ∈ hm'
  | [], hm, k, hm', k', _, hg, hcl, h => by
    simp only [childLoopL, Res.ok.injEq, Prod.mk.injEq] at h
    obtain ⟨rfl, _⟩ := h
    exact ⟨⟨hg, hcl, fun _ hp => hp, fun _ hp => .inl hp⟩, by simp⟩
  | c :: cs, hm, k, hm', k', hn, hg, hcl, h => by
    simp only [childLoopL, Res.bind_eq_ok] at h
    obtain ⟨⟨hm1, k1⟩, h1, h2⟩ := h
    obtain ⟨w1, e1⟩ := childOneL_walk hS hrec (hn c (.head _)) hg hcl h1
    obtain ⟨w2, e2⟩ := childLoopL_walk hS hrec cs hm1 k1 hm' k' (fun c hc => hn c (.tail _ hc)) w1.good w1.closed h2
    refine ⟨w1.trans w2, ?_⟩
    intro x hx
    rcases List.mem_cons.1 hx with rfl | hx
    · exact w2.mono _ e1
    · exact e2 x hx

theorem getChildTreesL_walk (hS : StoreOk X E hi) {V : Nat → SqlExt × Db} (hV : Views E lo hi V) : ∀ fuel, RecWalksL X lo hi (getChildTreesL X V fuel)
  | 0 => by intro root hm k hm' k' _ _ _ _ h; cases h
  | fuel + 1 => by
    intro root hm k hm' k' hr ht hg hcl h
    have hb := nodeObj_tree ht
    simp only [getChildTreesL] at h
    rw [new_metaOf X (.tree, root.data) rfl] at h
    simp only [Res.bind_eq_ok, Res.pure_eq, Res.bind_ok, Res.unwrap_eq_ok, Res.ok.injEq] at h
    obtain ⟨items, hi', ⟨hm1, k1⟩, h1, h2⟩ := h
    simp only [Prod.mk.injEq] at h2
    have hmem := mem_childRows (hS.sub (hV.hi k) (hV.fold k)) items hm
    obtain ⟨w, e⟩ := childLoopL_walk hS (getChildTreesL_walk hS hV fuel) (childRows (V k).1 (V k).2 items hm) hm (k + 1) hm1 k1
      (fun c hc => (hV.hi k).nodes c ((hmem c).1 hc).1) hg hcl h1
    have ho : StoredObj hi (ObjectType.tree, root.data) := .inl ⟨root, hr, hb⟩
    obtain ⟨g, key⟩ := good_insert hS w.good ho
    have h' : hm' = entryInsert hm1 (Hash.toPlainStr (idOf X (ObjectType.tree, root.data))) (metaOf X (ObjectType.tree, root.data)) := h2.1.symm
    subst h'
    rw [hb]
    refine ⟨⟨g, ?_, fun p hp => (key p).2 (.inr (w.mono p hp)), fun p hp => ?_⟩, (key _).2 (.inl rfl)⟩
    · refine closedLo_insert hS w.good w.closed ho ?_
      intro n hn ht' e' items' hd i hii n' hn' eid
      rw [nodeObj_tree ht'] at e'
      have : n.data = root.data := (Prod.mk.inj e').2
      rw [this, hi'] at hd
      cases hd
      have hnh := hV.ext.nodes n' hn'
      by_cases hk : Hash.toPlainStr i.id ∈ hm.map Prod.fst
      · obtain ⟨p, hp, ep⟩ := List.mem_map.1 hk
        obtain ⟨o, ho, rfl⟩ := hg.1 p hp
        have hid : idOf X o = idOf X (nodeObj n') := by
          have h1 : Hash.toPlainStr (idOf X o) = Hash.toPlainStr i.id := ep
          rw [← eid, hS.id n' hnh] at h1
          exact Hash.toPlainStr_injective h1
        rw [← hS.unique o _ ho (.inl ⟨n', hnh, rfl⟩) hid]
        exact w.mono _ hp
      · exact e n' ((hmem n').2 ⟨(hV.lo k).nodes n' hn', i, hii, hk, eid⟩)
    · rcases (key p).1 hp with rfl | hp
      · exact .inr ⟨root, hr, by rw [hb], _, List.mem_singleton.2 rfl, by rw [hb]; exact .refl⟩
      · rcases w.sound p hp with h | ⟨n, hn, e1, r, hrm, h⟩
        · exact .inl h
        · refine .inr ⟨n, hn, e1, _, List.mem_singleton.2 rfl, ?_⟩
          obtain ⟨c, hc, rfl⟩ := List.mem_map.1 hrm
          obtain ⟨hcn, i, hii, _, eid⟩ := (hmem c).1 hc
          have hidc : idOf X (nodeObj c) = i.id := by
            rw [hS.id c ((hV.hi k).nodes c hcn)] at eid
            exact Hash.toPlainStr_injective eid
          refine StoreReach.trans ?_ h
          rw [hidc, ← hb]
          exact .item root _ items i .refl hr (by rw [hS.id root hr]) ht hi' hii

/-- The walk ends. -/
theorem getChildTreesL_total (hS : StoreOk X E hi) {V : Nat → SqlExt × Db} (hV : Views E lo hi V) :
    ∀ (fuel : Nat) (root : NodeRow) (hm : HashMeta) (k : Nat), root ∈ hi.nodes → root.nodeType = ascii "tree" →
      Spec.NestedWithin hi.nodes fuel (idOf X (nodeObj root)) →
      ∃ r, getChildTreesL X V fuel root hm k = .ok r
  | 0, root, hm, _, _, _, h => h.elim
  | fuel + 1, root, hm, k, hr, ht, h => by
    obtain ⟨items, hi'⟩ := hS.tree root hr ht
    have loop : ∀ (cs : List NodeRow) (hm : HashMeta) (k : Nat), (∀ c ∈ cs, c ∈ hi.nodes ∧ (c.nodeType = ascii "tree" → Spec.NestedWithin hi.nodes fuel (idOf X (nodeObj c)))) →
        ∃ r, childLoopL X (getChildTreesL X V fuel) cs hm k = .ok r := by
      intro cs
      induction cs with
      | nil => exact fun hm k _ => ⟨(hm, k), rfl⟩
      | cons c cs ih =>
        intro hm k hcs
        have one : ∃ r, childOneL X (getChildTreesL X V fuel) c hm k = .ok r := by
          unfold childOneL
          split
          · rename_i htc
            exact getChildTreesL_total hS hV fuel c hm k (hcs c (.head _)).1 htc ((hcs c (.head _)).2 htc)
          · rw [new_metaOf X (.blob, c.data) rfl]
            exact ⟨_, rfl⟩
        obtain ⟨⟨hm1, k1⟩, h1⟩ := one
        obtain ⟨r, h2⟩ := ih hm1 k1 (fun c hc => hcs c (.tail _ hc))
        exact ⟨r, by rw [childLoopL, h1, Res.bind_ok]; exact h2⟩
    obtain ⟨⟨hm1, k1⟩, h1⟩ := loop (childRows (V k).1 (V k).2 items hm) hm (k + 1) (by
      intro c hc
      obtain ⟨hcn, i, hii, _, eid⟩ := (mem_childRows (hS.sub (hV.hi k) (hV.fold k)) items hm c).1 hc
      have hcn := (hV.hi k).nodes c hcn
      refine ⟨hcn, ?_⟩
      have hidc : idOf X (nodeObj c) = i.id := by
        have := eid
        rw [hS.id c hcn] at this
        exact Hash.toPlainStr_injective this
      intro htc
      rw [hidc]
      exact h root hr (hS.id root hr) ht items hi' i hii ⟨c, hcn, eid, htc⟩)
    refine ⟨(entryInsert hm1 (Hash.toPlainStr (metaOf X (.tree, root.data)).id) (metaOf X (.tree, root.data)), k1), ?_⟩
    rw [getChildTreesL, new_metaOf X (.tree, root.data) rfl, Res.bind_ok, hi', Res.unwrap_ok, Res.bind_ok, h1, Res.bind_ok]
    rfl

/-- Everything that was stored below a collected root is collected. -/
theorem closedLo_reach (ext : Extends lo hi) {hm : HashMeta} (hcl : ClosedLo X lo hi hm) {root : Hash}
    (hroot : ∀ n ∈ lo.nodes, n.gitId = Hash.toPlainStr root → entryOf X (nodeObj n) ∈ hm) {h : Hash} (hr : StoreReach lo.nodes root h) :
    ∀ n ∈ lo.nodes, n.gitId = Hash.toPlainStr h → entryOf X (nodeObj n) ∈ hm := by
  induction hr with
  | refl => exact hroot
  | item n t items i _ h1 h2 h3 h4 h5 ih => exact hcl n (ext.nodes n h1) h3 (ih n h1 h2) items h4 i h5

/-- The state of the loop over the commits. -/
structure CollectedL (X : Ext) (lo hi : Db) (cs : List CommitObj) (hm hm' : HashMeta) : Prop where
  good : Good X hi hm'
  closed : ClosedLo X lo hi hm'
  mono : ∀ p ∈ hm, p ∈ hm'
  commits : ∀ c ∈ cs, (Hash.toPlainStr c.base.id, c.base) ∈ hm'
  roots : ∀ c ∈ cs, ∀ n ∈ hi.nodes, n.gitId = Hash.toPlainStr c.commit.treeId → entryOf X (nodeObj n) ∈ hm'
  sound : ∀ p ∈ hm', p ∈ hm ∨ (∃ c ∈ cs, p = (Hash.toPlainStr c.base.id, c.base)) ∨
    ∃ c ∈ cs, ∃ n ∈ hi.nodes, p = entryOf X (nodeObj n) ∧ StoreReach hi.nodes c.commit.treeId (idOf X (nodeObj n))

theorem fullLoopL_ok (hS : StoreOk X E hi) {V : Nat → SqlExt × Db} (hV : Views E lo hi V) (fuel : Nat) (trees : Hash → Option NodeRow)
    (ht : ∀ h n, trees h = some n → n ∈ hi.nodes ∧ n.gitId = Hash.toPlainStr h) : ∀ (cs : List CommitObj) (hm : HashMeta) (k : Nat) (hm' : HashMeta) (k' : Nat),
    (∀ c ∈ cs, StoredObj hi (.commit, c.base.data) ∧ c.base = metaOf X (.commit, c.base.data) ∧
      ∀ n ∈ hi.nodes, n.gitId = Hash.toPlainStr c.commit.treeId → n.nodeType = ascii "tree") →
    Good X hi hm → ClosedLo X lo hi hm → fullLoopL X V fuel trees cs hm k = .ok (hm', k') → CollectedL X lo hi cs hm hm'
  | [], hm, k, hm', k', _, hg, hcl, h => by
    simp only [fullLoopL, Res.ok.injEq, Prod.mk.injEq] at h
    obtain ⟨rfl, _⟩ := h
    exact ⟨hg, hcl, fun _ h => h, by simp, by simp, fun _ h => .inl h⟩
  | c :: cs, hm, k, hm', k', hc, hg, hcl, h => by
    simp only [fullLoopL] at h
    obtain ⟨h1, h2, h3⟩ := hc c (.head _)
    cases hr : trees c.commit.treeId with
    | none => rw [hr] at h; simp at h
    | some root =>
      rw [hr] at h
      simp only [Res.bind_eq_ok] at h
      obtain ⟨⟨hm1, k1⟩, g1, g2⟩ := h
      obtain ⟨hrn, hre⟩ := ht _ _ hr
      have hty := h3 root hrn hre
      have hid : idOf X (nodeObj root) = c.commit.treeId := by
        rw [hS.id root hrn] at hre
        exact Hash.toPlainStr_injective hre
      have e0 : (Hash.toPlainStr c.base.id, c.base) = entryOf X (.commit, c.base.data) := by
        conv_lhs => rw [h2]
        rfl
      have e1 : entryInsert hm (Hash.toPlainStr c.base.id) c.base =
          entryInsert hm (Hash.toPlainStr (idOf X (.commit, c.base.data))) (metaOf X (.commit, c.base.data)) := by
        conv_lhs => rw [h2]
        rfl
      obtain ⟨gi, key⟩ := good_insert hS hg h1
      have ci : ClosedLo X lo hi (entryInsert hm (Hash.toPlainStr (idOf X (.commit, c.base.data))) (metaOf X (.commit, c.base.data))) :=
        closedLo_insert hS hg hcl h1 (by
          intro n _ ht' e
          rw [nodeObj_tree ht'] at e
          cases e)
      rw [e1] at g1
      obtain ⟨w, ew⟩ := getChildTreesL_walk hS hV fuel root _ k hm1 k1 hrn hty gi ci g1
      have rest := fullLoopL_ok hS hV fuel trees ht cs hm1 k1 hm' k' (fun c h => hc c (.tail _ h)) w.good w.closed g2
      refine ⟨rest.good, rest.closed, fun p hp => rest.mono p (w.mono p ((key p).2 (.inr hp))), ?_, ?_, ?_⟩
      · intro x hx
        rcases List.mem_cons.1 hx with rfl | hx
        · exact rest.mono _ (w.mono _ ((key _).2 (.inl e0)))
        · exact rest.commits x hx
      · intro x hx n hn e
        rcases List.mem_cons.1 hx with rfl | hx
        · rw [sameRow hS hn hrn (by rw [e, hre])]
          exact rest.mono _ ew
        · exact rest.roots x hx n hn e
      · intro p hp
        rcases rest.sound p hp with h | ⟨x, hx, e⟩ | ⟨x, hx, n, hn, e, hre'⟩
        · rcases w.sound p h with h | ⟨n, hn, e, r, hrm, hre'⟩
          · rcases (key p).1 h with rfl | h
            · exact .inr (.inl ⟨c, .head _, e0.symm⟩)
            · exact .inl h
          · rw [List.mem_singleton.1 hrm, hid] at hre'
            exact .inr (.inr ⟨c, .head _, n, hn, e, hre'⟩)
        · exact .inr (.inl ⟨x, .tail _ hx, e⟩)
        · exact .inr (.inr ⟨x, .tail _ hx, n, hn, e, hre'⟩)

theorem fullLoopL_total (hS : StoreOk X E hi) {V : Nat → SqlExt × Db} (hV : Views E lo hi V)
    (fuel : Nat) (trees : Hash → Option NodeRow) : ∀ (cs : List CommitObj) (hm : HashMeta) (k : Nat),
    (∀ c ∈ cs, Spec.NestedWithin hi.nodes fuel c.commit.treeId ∧ ∃ n, trees c.commit.treeId = some n ∧ n ∈ hi.nodes ∧ n.gitId = Hash.toPlainStr c.commit.treeId ∧
      n.nodeType = ascii "tree") → ∃ r, fullLoopL X V fuel trees cs hm k = .ok r
  | [], hm, k, _ => ⟨(hm, k), rfl⟩
  | c :: cs, hm, k, h => by
    obtain ⟨h1, n, h2, h3, h4, h5⟩ := h c (.head _)
    have hid : idOf X (nodeObj n) = c.commit.treeId := by
      rw [hS.id n h3] at h4
      exact Hash.toPlainStr_injective h4
    obtain ⟨⟨hm1, k1⟩, g1⟩ := getChildTreesL_total hS hV fuel n (entryInsert hm (Hash.toPlainStr c.base.id) c.base) k h3 h5 (by rw [hid]; exact h1)
    obtain ⟨r, g2⟩ := fullLoopL_total hS hV fuel trees cs hm1 k1 (fun c hc => h c (.tail _ hc))
    refine ⟨r, ?_⟩
    rw [fullLoopL]
    simp only [h2]
    rw [g1, Res.bind_ok]
    exact g2

theorem inRepo_snapshot {fold : Bytes → Bytes} {path : Bytes} (inv : StoreInv X fold path lo) (hS : StoreOk X E hi) (ext : Extends lo hi)
    {r : CommitRow} (hr : r ∈ commitsAt fold lo.commits path) {c : Commit} (hd : Commit.decode r.data = .ok c) {n : NodeRow} (hn : n ∈ hi.nodes)
    (hre : StoreReach hi.nodes c.treeId (idOf X (nodeObj n))) : InRepo fold lo path (nodeObj n) := by
  obtain ⟨c', hc', _, hall⟩ := inv.commits r hr
  rw [hd] at hc'
  cases hc'
  have back := reach_back (X := X) ext.nodes (fun a ha b hb e => sameRow hS ha hb e) hall hre
  obtain ⟨n0, hn0, e0⟩ := hall _ back
  rw [sameRow hS hn (ext.nodes n0 hn0) (by rw [e0, hS.id n hn])]
  exact .node r c _ n0 hr hd back hn0 e0

/-- The roots, read later than the commits. -/
theorem rootsL (hS : StoreOk X E hi) (ext : Extends lo hi) {path : Bytes} (inv : StoreInv X E.fold path lo) {cs : List CommitObj}
    (l2 : ∀ co ∈ cs, ∃ r ∈ commitsAt E.fold lo.commits path, co.base = metaOf X (.commit, r.data) ∧ Commit.decode r.data = .ok co.commit) :
    ∀ c ∈ cs, StoredObj hi (.commit, c.base.data) ∧ c.base = metaOf X (.commit, c.base.data) ∧
      ∀ n ∈ hi.nodes, n.gitId = Hash.toPlainStr c.commit.treeId → n.nodeType = ascii "tree" := by
  intro c hc
  obtain ⟨r, hr, e1, e2⟩ := l2 c hc
  have ed : c.base.data = r.data := by rw [e1]; rfl
  rw [ed]
  refine ⟨.inr ⟨r, ext.commits r (commitsAt_mem.1 hr).1, rfl⟩, e1, ?_⟩
  intro n hn e
  obtain ⟨c', hc', ⟨n', hn', e', ht'⟩, _⟩ := inv.commits r hr
  rw [e2] at hc'
  cases hc'
  exact tree_of_obj (sameRow hS hn (ext.nodes n' hn') (by rw [e, e'])) ht'

/-- What `get_full_pack_data` collects: the repository at the moment of the first query. -/
theorem fullObjectsL_ok {V : Nat → SqlExt × Db} (hV : Views E (V 0).2 hi V) (hS : StoreOk X E hi) {path : Bytes}
    (inv : StoreInv X E.fold path (V 0).2) {fuel : Nat} {hm : HashMeta} {k : Nat} (h : fullObjectsL X V fuel path = .ok (hm, k)) :
    (hm.map Prod.fst).Nodup ∧ ∀ p, p ∈ hm ↔ ∃ o, InRepo E.fold (V 0).2 path o ∧ p = entryOf X o := by
  simp only [fullObjectsL, Res.bind_eq_ok] at h
  obtain ⟨cs, h1, trees, h2, h3⟩ := h
  obtain ⟨l1, l2⟩ := loadCommits_eq h1
  have ext := hV.ext
  have hcomm : ∀ r, r ∈ commitsByPath (V 0).1 (V 0).2 path ↔ r ∈ commitsAt E.fold (V 0).2.commits path := by
    intro r
    rw [mem_commitsByPath, hV.fold 0]
  obtain ⟨f, hf, t1, _⟩ := nodesByIds_ok (hS.sub (hV.hi 1) (hV.fold 1)) (cs.map (fun c => Hash.toPlainStr c.commit.treeId))
  rw [h2] at hf
  obtain rfl := Res.ok.inj hf
  have l2' : ∀ co ∈ cs, ∃ r ∈ commitsAt E.fold (V 0).2.commits path, co.base = metaOf X (.commit, r.data) ∧ Commit.decode r.data = .ok co.commit := by
    intro co hco
    obtain ⟨r, hr, e⟩ := l2 co hco
    exact ⟨r, (hcomm r).1 hr, e⟩
  have col := fullLoopL_ok hS hV fuel trees (fun h n e => ⟨(hV.hi 1).nodes n (t1 h n e).1, (t1 h n e).2⟩) cs [] 2 hm k (rootsL hS ext inv l2')
    ⟨by simp, by simp⟩ (by intro n _ _ h; cases h) h3
  refine ⟨col.good.2, fun p => ⟨fun hp => ?_, ?_⟩⟩
  · rcases col.sound p hp with h | ⟨c, hcm, e⟩ | ⟨c, hcm, n, hn, e, hr⟩
    · cases h
    · obtain ⟨r, hr, e1, _⟩ := l2' c hcm
      exact ⟨_, .commit r hr, by rw [e, e1]; rfl⟩
    · obtain ⟨r, hr', e1, e2⟩ := l2' c hcm
      exact ⟨_, inRepo_snapshot inv hS ext hr' e2 hn hr, e⟩
  · rintro ⟨o, ho, rfl⟩
    cases ho with
    | commit r hr =>
      obtain ⟨c, hcm, e1, _⟩ := l1 r ((hcomm r).2 hr)
      have := col.commits c hcm
      rw [e1] at this
      exact this
    | node r c h n hr hd hre hn e =>
      obtain ⟨co, hcm, _, e2⟩ := l1 r ((hcomm r).2 hr)
      rw [hd] at e2
      have e2 := Res.ok.inj e2
      exact closedLo_reach ext col.closed (fun n hn => col.roots co hcm n (ext.nodes n hn)) (by rw [← e2]; exact hre) n hn e

theorem fullObjectsL_total {V : Nat → SqlExt × Db} (hV : Views E (V 0).2 hi V) (hS : StoreOk X E hi) {path : Bytes}
    (inv : StoreInv X E.fold path (V 0).2)
    {fuel : Nat} (hdeep : ∀ r ∈ commitsAt E.fold (V 0).2.commits path, ∀ c, Commit.decode r.data = .ok c → Spec.NestedWithin hi.nodes fuel c.treeId) :
    ∃ r, fullObjectsL X V fuel path = .ok r := by
  have hcomm : ∀ r, r ∈ commitsByPath (V 0).1 (V 0).2 path ↔ r ∈ commitsAt E.fold (V 0).2.commits path := by
    intro r
    rw [mem_commitsByPath, hV.fold 0]
  obtain ⟨cs, h1⟩ := loadCommits_total (X := X) (commitsByPath (V 0).1 (V 0).2 path) (by
    intro r hr
    obtain ⟨c, hc, _⟩ := inv.commits r ((hcomm r).1 hr)
    exact ⟨c, hc⟩)
  obtain ⟨_, l2⟩ := loadCommits_eq h1
  obtain ⟨f, hf, t1, t2⟩ := nodesByIds_ok (hS.sub (hV.hi 1) (hV.fold 1)) (cs.map (fun c => Hash.toPlainStr c.commit.treeId))
  obtain ⟨r, h2⟩ := fullLoopL_total hS hV fuel f cs [] 2 (by
    intro c hc
    obtain ⟨r, hr, _, e2⟩ := l2 c hc
    rw [hcomm] at hr
    obtain ⟨c', hc', ⟨n', hn', e', ht'⟩, _⟩ := inv.commits r hr
    have := hc'
    rw [e2] at this
    cases this
    obtain ⟨n, hn⟩ := t2 c.commit.treeId (List.mem_map_of_mem hc) ⟨n', (hV.lo 1).nodes n' hn', e'⟩
    obtain ⟨q1, q2⟩ := t1 _ _ hn
    have q1 := (hV.hi 1).nodes n q1
    exact ⟨hdeep r hr _ hc', n, hn, q1, q2, tree_of_obj (sameRow hS q1 (hV.ext.nodes n' hn') (by rw [q2, e'])) ht'⟩)
  exact ⟨r, by rw [fullObjectsL, h1, Res.bind_ok, hf, Res.bind_ok, h2]⟩

end

end Gust

import Verif.Lemmas.Live
import Verif.Lemmas.Inc

/-! # Incremental fetches while other requests are served -/

namespace Gust

open Spec (nodeObj StoreReach commitsAt InRepo)

section
variable {X : Ext} {E : SqlExt} {lo hi : Db}

/-- The state of the loop. -/
structure IncCollectedL (X : Ext) (lo hi : Db) (want : List Bytes) (rs : List CommitRow) (hm hm' : HashMeta) : Prop where
  good : Good X hi hm'
  closed : ClosedLo X lo hi hm'
  mono : ∀ p ∈ hm, p ∈ hm'
  roots : ∀ r ∈ rs, Wanted X want r → ∃ c, Commit.decode r.data = .ok c ∧ ∀ n ∈ hi.nodes, n.gitId = Hash.toPlainStr c.treeId → entryOf X (nodeObj n) ∈ hm'
  sound : ∀ p ∈ hm', p ∈ hm ∨ ∃ r ∈ rs, Wanted X want r ∧ ∃ c, Commit.decode r.data = .ok c ∧
    ∃ n ∈ hi.nodes, p = entryOf X (nodeObj n) ∧ StoreReach hi.nodes c.treeId (idOf X (nodeObj n))

theorem incLoopL_ok (hS : StoreOk X E hi) {V : Nat → SqlExt × Db} (hV : Views E lo hi V) (fuel : Nat) (want : List Bytes) :
    ∀ (rs : List CommitRow) (hm : HashMeta) (k : Nat) (hm' : HashMeta) (k' : Nat),
    (∀ r ∈ rs, ∃ c, Commit.decode r.data = .ok c ∧ ∃ n ∈ lo.nodes, n.gitId = Hash.toPlainStr c.treeId ∧ n.nodeType = ascii "tree") →
    Good X hi hm → ClosedLo X lo hi hm → incLoopL X V fuel want rs hm k = .ok (hm', k') → IncCollectedL X lo hi want rs hm hm'
  | [], hm, k, hm', k', _, hg, hcl, h => by
    simp only [incLoopL, Res.ok.injEq, Prod.mk.injEq] at h
    obtain ⟨rfl, _⟩ := h
    exact ⟨hg, hcl, fun _ h => h, by simp, fun _ h => .inl h⟩
  | r :: rs, hm, k, hm', k', hr, hg, hcl, h => by
    simp only [incLoopL] at h
    rw [new_metaOf X (.commit, r.data) rfl, Res.bind_ok] at h
    obtain ⟨c, hc, nr, hnr, enr, tnr⟩ := hr r (.head _)
    split at h
    · rename_i hw
      simp only [Res.bind_eq_ok, Res.unwrap_eq_ok] at h
      obtain ⟨c', hc', h⟩ := h
      have hc' : Commit.decode r.data = .ok c' := hc'
      rw [hc] at hc'
      cases hc'
      cases hgn : getNodeById (V k).1 (V k).2 (Hash.toPlainStr c.treeId) with
      | none => rw [hgn] at h; simp at h
      | some root =>
        rw [hgn] at h
        simp only [Res.bind_eq_ok] at h
        obtain ⟨⟨hm1, k1⟩, g1, g2⟩ := h
        obtain ⟨hrn, hre⟩ := getNodeById_id (hS.sub (hV.hi k) (hV.fold k)) hgn
        have hrn := (hV.hi k).nodes root hrn
        have hty := tree_of_obj (sameRow hS hrn (hV.ext.nodes nr hnr) (by rw [hre, enr])) tnr
        have hid : idOf X (nodeObj root) = c.treeId := by
          rw [hS.id root hrn] at hre
          exact Hash.toPlainStr_injective hre
        obtain ⟨w, ew⟩ := getChildTreesL_walk hS hV fuel root _ (k + 1) hm1 k1 hrn hty hg hcl g1
        have rest := incLoopL_ok hS hV fuel want rs hm1 k1 hm' k' (fun c h => hr c (.tail _ h)) w.good w.closed g2
        refine ⟨rest.good, rest.closed, fun p hp => rest.mono p (w.mono p hp), ?_, ?_⟩
        · intro x hx hwx
          rcases List.mem_cons.1 hx with rfl | hx
          · refine ⟨c, hc, fun n hn e => ?_⟩
            rw [sameRow hS hn hrn (by rw [e, hre])]
            exact rest.mono _ ew
          · exact rest.roots x hx hwx
        · intro p hp
          rcases rest.sound p hp with h | ⟨x, hx, q⟩
          · rcases w.sound p h with h | ⟨n, hn, e, r', hrm, hre'⟩
            · exact .inl h
            · rw [List.mem_singleton.1 hrm, hid] at hre'
              exact .inr ⟨r, .head _, hw, c, hc, n, hn, e, hre'⟩
          · exact .inr ⟨x, .tail _ hx, q⟩
    · rename_i hw
      have rest := incLoopL_ok hS hV fuel want rs hm k hm' k' (fun c h => hr c (.tail _ h)) hg hcl h
      refine ⟨rest.good, rest.closed, rest.mono, ?_, ?_⟩
      · intro x hx hwx
        rcases List.mem_cons.1 hx with rfl | hx
        · exact absurd hwx hw
        · exact rest.roots x hx hwx
      · intro p hp
        rcases rest.sound p hp with h | ⟨x, hx, q⟩
        · exact .inl h
        · exact .inr ⟨x, .tail _ hx, q⟩

theorem incLoopL_total (hS : StoreOk X E hi) {V : Nat → SqlExt × Db} (hV : Views E lo hi V) (fuel : Nat) (want : List Bytes) :
    ∀ (rs : List CommitRow) (hm : HashMeta) (k : Nat),
    (∀ r ∈ rs, ∃ c, Commit.decode r.data = .ok c ∧ (Wanted X want r → Spec.NestedWithin hi.nodes fuel c.treeId) ∧
      ∃ n ∈ lo.nodes, n.gitId = Hash.toPlainStr c.treeId ∧ n.nodeType = ascii "tree") →
    ∃ q, incLoopL X V fuel want rs hm k = .ok q
  | [], hm, k, _ => ⟨(hm, k), rfl⟩
  | r :: rs, hm, k, h => by
    obtain ⟨c, hc, hf, nr, hnr, enr, tnr⟩ := h r (.head _)
    have ih := fun hm k => incLoopL_total hS hV fuel want rs hm k (fun r hr => h r (.tail _ hr))
    rw [incLoopL, new_metaOf X (.commit, r.data) rfl, Res.bind_ok]
    by_cases hw : Hash.toPlainStr (metaOf X (.commit, r.data)).id ∈ want
    · rw [if_pos hw]
      have hc' : Commit.decode (metaOf X (.commit, r.data)).data = .ok c := hc
      rw [hc', Res.unwrap_ok, Res.bind_ok]
      obtain ⟨root, hroot⟩ := getNodeById_some (E := (V k).1) ((hV.lo k).nodes nr hnr) enr
      obtain ⟨hrn, hre⟩ := getNodeById_id (hS.sub (hV.hi k) (hV.fold k)) hroot
      have hrn := (hV.hi k).nodes root hrn
      have hty := tree_of_obj (sameRow hS hrn (hV.ext.nodes nr hnr) (by rw [hre, enr])) tnr
      have hid : idOf X (nodeObj root) = c.treeId := by
        rw [hS.id root hrn] at hre
        exact Hash.toPlainStr_injective hre
      obtain ⟨⟨hm1, k1⟩, g1⟩ := getChildTreesL_total hS hV fuel root hm (k + 1) hrn hty (by rw [hid]; exact hf hw)
      obtain ⟨q, g2⟩ := ih hm1 k1
      refine ⟨q, ?_⟩
      simp only [hroot]
      rw [g1, Res.bind_ok]
      exact g2
    · rw [if_neg hw]
      exact ih hm k

/-- What `get_incremental_pack_data` collects: what was reachable from the wanted commits at the moment of the first query. -/
theorem incObjectsL_ok {V : Nat → SqlExt × Db} (hV : Views E (V 0).2 hi V) (hS : StoreOk X E hi) {path : Bytes}
    (inv : StoreInv X E.fold path (V 0).2) {fuel : Nat} {want have_ : List Bytes} {hm : HashMeta} {k : Nat}
    (h : incObjectsL X V fuel path want have_ = .ok (hm, k)) :
    (hm.map Prod.fst).Nodup ∧ ∀ p, p ∈ hm ↔ ∃ o, BelowWanted X E.fold (V 0).2 path want o ∧ p = entryOf X o := by
  have ext := hV.ext
  have memc : ∀ r, r ∈ commitsByPath (V 0).1 (V 0).2 path ↔ r ∈ commitsAt E.fold (V 0).2.commits path := by
    intro r
    rw [mem_commitsByPath, hV.fold 0]
  have col := incLoopL_ok hS hV fuel want _ [] 1 hm k (fun r hr => by
    obtain ⟨c, h1, h2, _⟩ := inv.commits r ((memc r).1 hr)
    exact ⟨c, h1, h2⟩) ⟨by simp, by simp⟩ (by intro n _ _ h; cases h) h
  refine ⟨col.good.2, fun p => ⟨fun hp => ?_, ?_⟩⟩
  · rcases col.sound p hp with h | ⟨r, hr, hw, c, hc, n, hn, e, hre⟩
    · cases h
    · obtain ⟨c', hc', _, hall⟩ := inv.commits r ((memc r).1 hr)
      rw [hc] at hc'
      cases hc'
      have back := reach_back (X := X) ext.nodes (fun a ha b hb e => sameRow hS ha hb e) hall hre
      obtain ⟨n0, hn0, e0⟩ := hall _ back
      rw [sameRow hS hn (ext.nodes n0 hn0) (by rw [e0, hS.id n hn])] at e
      exact ⟨_, .node r c _ n0 ((memc r).1 hr) hw hc back hn0 e0, e⟩
  · rintro ⟨o, ⟨r, c, h, n, hr, hw, hc, hre, hn, e⟩, rfl⟩
    obtain ⟨c', hc', hroot⟩ := col.roots r ((memc r).2 hr) hw
    rw [hc] at hc'
    cases hc'
    exact closedLo_reach ext col.closed (fun n hn e => hroot n (ext.nodes n hn) e) hre n hn e

end

end Gust

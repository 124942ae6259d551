import Verif.Lemmas.Clone

/-! # What `get_incremental_pack_data` collects -/

namespace Gust

open Spec (nodeObj StoreReach commitsAt InRepo)

section
variable {X : Ext} {E : SqlExt} {db : Db}

/-- A row asked for by the client. -/
def Wanted (X : Ext) (want : List Bytes) (r : CommitRow) : Prop := Hash.toPlainStr (idOf X (.commit, r.data)) ∈ want

theorem getNodeById_mem {id : Bytes} {n : NodeRow} (h : getNodeById E db id = some n) : n ∈ db.nodes ∧ E.fold n.gitId = E.fold id := by
  have := (E.order_perm _).mem_iff.1 (List.mem_of_mem_head? h)
  rw [List.mem_filter, beq_iff_eq] at this
  exact this

theorem getNodeById_id (hS : StoreOk X E db) {h : Hash} {n : NodeRow} (hn : getNodeById E db (Hash.toPlainStr h) = some n) :
    n ∈ db.nodes ∧ n.gitId = Hash.toPlainStr h := by
  obtain ⟨h1, h2⟩ := getNodeById_mem hn
  refine ⟨h1, ?_⟩
  rw [hS.id n h1] at h2 ⊢
  rw [hS.fold _ _ h2]

theorem getNodeById_some {id : Bytes} {n : NodeRow} (hn : n ∈ db.nodes) (e : n.gitId = id) : ∃ n', getNodeById E db id = some n' := by
  unfold getNodeById
  have : n ∈ E.order (db.nodes.filter (fun n => E.fold n.gitId == E.fold id)) :=
    (E.order_perm _).mem_iff.2 (List.mem_filter.2 ⟨hn, by rw [e]; simp⟩)
  cases hl : E.order (db.nodes.filter (fun n => E.fold n.gitId == E.fold id)) with
  | nil => rw [hl] at this; cases this
  | cons a l => exact ⟨a, rfl⟩

/-- The state of the loop. -/
structure IncCollected (X : Ext) (db : Db) (want : List Bytes) (rs : List CommitRow) (hm hm' : HashMeta) : Prop where
  good : Good X db hm'
  closed : ClosedMap X db hm'
  mono : ∀ p ∈ hm, p ∈ hm'
  roots : ∀ r ∈ rs, Wanted X want r → ∃ c, Commit.decode r.data = .ok c ∧ ∀ n ∈ db.nodes, n.gitId = Hash.toPlainStr c.treeId → entryOf X (nodeObj n) ∈ hm'
  sound : ∀ p ∈ hm', p ∈ hm ∨ ∃ r ∈ rs, Wanted X want r ∧ ∃ c, Commit.decode r.data = .ok c ∧
    ∃ n ∈ db.nodes, p = entryOf X (nodeObj n) ∧ StoreReach db.nodes c.treeId (idOf X (nodeObj n))

theorem incLoop_ok (hS : StoreOk X E db) (fuel : Nat) (want : List Bytes) : ∀ (rs : List CommitRow) (hm hm' : HashMeta),
    (∀ r ∈ rs, ∃ c, Commit.decode r.data = .ok c ∧ ∃ n ∈ db.nodes, n.gitId = Hash.toPlainStr c.treeId ∧ n.nodeType = ascii "tree") →
    Good X db hm → ClosedMap X db hm → incLoop X E db fuel want rs hm = .ok hm' → IncCollected X db want rs hm hm'
  | [], hm, hm', _, hg, hcl, h => by
    simp only [incLoop, Res.ok.injEq] at h
    subst h
    exact ⟨hg, hcl, fun _ h => h, by simp, fun _ h => .inl h⟩
  | r :: rs, hm, hm', hr, hg, hcl, h => by
    simp only [incLoop] at h
    rw [new_metaOf X (.commit, r.data) rfl, Res.bind_ok] at h
    obtain ⟨c, hc, nr, hnr, enr, tnr⟩ := hr r (.head _)
    split at h
    · rename_i hw
      simp only [Res.bind_eq_ok, Res.unwrap_eq_ok] at h
      obtain ⟨c', hc', h⟩ := h
      have hc' : Commit.decode r.data = .ok c' := hc'
      rw [hc] at hc'
      cases hc'
      cases hgn : getNodeById E db (Hash.toPlainStr c.treeId) with
      | none => rw [hgn] at h; simp at h
      | some root =>
        rw [hgn] at h
        simp only [Res.bind_eq_ok] at h
        obtain ⟨hm1, g1, g2⟩ := h
        obtain ⟨hrn, hre⟩ := getNodeById_id hS hgn
        have hty := tree_of_obj (sameRow hS hrn hnr (by rw [hre, enr])) tnr
        have hid : idOf X (nodeObj root) = c.treeId := by
          rw [hS.id root hrn] at hre
          exact Hash.toPlainStr_injective hre
        obtain ⟨w, ew⟩ := getChildTrees_walk hS fuel root _ hm1 hrn hty hg hcl g1
        have rest := incLoop_ok hS fuel want rs hm1 hm' (fun c h => hr c (.tail _ h)) w.good w.closed g2
        refine ⟨rest.good, rest.closed, fun p hp => rest.mono p (w.mono p hp), ?_, ?_⟩
        · intro x hx hwx
          rcases List.mem_cons.1 hx with rfl | hx
          · refine ⟨c, hc, fun n hn e => ?_⟩
            rw [sameRow hS hn hrn (by rw [e, hre])]
            exact rest.mono _ ew
          · exact rest.roots x hx hwx
        · intro p hp
          rcases rest.sound p hp with h | ⟨x, hx, q⟩
          · rcases w.sound p h with h | ⟨n, hn, e, r', hrm, hre'⟩
            · exact .inl h
            · rw [List.mem_singleton.1 hrm, hid] at hre'
              exact .inr ⟨r, .head _, hw, c, hc, n, hn, e, hre'⟩
          · exact .inr ⟨x, .tail _ hx, q⟩
    · rename_i hw
      have rest := incLoop_ok hS fuel want rs hm hm' (fun c h => hr c (.tail _ h)) hg hcl h
      refine ⟨rest.good, rest.closed, rest.mono, ?_, ?_⟩
      · intro x hx hwx
        rcases List.mem_cons.1 hx with rfl | hx
        · exact absurd hwx hw
        · exact rest.roots x hx hwx
      · intro p hp
        rcases rest.sound p hp with h | ⟨x, hx, q⟩
        · exact .inl h
        · exact .inr ⟨x, .tail _ hx, q⟩

theorem incLoop_total (hS : StoreOk X E db)
    (fuel : Nat) (want : List Bytes) : ∀ (rs : List CommitRow) (hm : HashMeta),
    (∀ r ∈ rs, ∃ c, Commit.decode r.data = .ok c ∧ Spec.NestedWithin db.nodes fuel c.treeId ∧
      ∃ n ∈ db.nodes, n.gitId = Hash.toPlainStr c.treeId ∧ n.nodeType = ascii "tree") →
    ∃ hm', incLoop X E db fuel want rs hm = .ok hm'
  | [], hm, _ => ⟨hm, rfl⟩
  | r :: rs, hm, h => by
    obtain ⟨c, hc, hf, nr, hnr, enr, tnr⟩ := h r (.head _)
    have ih := fun hm => incLoop_total hS fuel want rs hm (fun r hr => h r (.tail _ hr))
    rw [incLoop, new_metaOf X (.commit, r.data) rfl, Res.bind_ok]
    by_cases hw : Hash.toPlainStr (metaOf X (.commit, r.data)).id ∈ want
    · rw [if_pos hw]
      have hc' : Commit.decode (metaOf X (.commit, r.data)).data = .ok c := hc
      rw [hc', Res.unwrap_ok, Res.bind_ok]
      obtain ⟨root, hroot⟩ := getNodeById_some (E := E) hnr enr
      obtain ⟨hrn, hre⟩ := getNodeById_id hS hroot
      have hty := tree_of_obj (sameRow hS hrn hnr (by rw [hre, enr])) tnr
      have hid : idOf X (nodeObj root) = c.treeId := by
        rw [hS.id root hrn] at hre
        exact Hash.toPlainStr_injective hre
      obtain ⟨hm1, g1⟩ := getChildTrees_total hS fuel root hm hrn hty (by rw [hid]; exact hf)
      obtain ⟨hm2, g2⟩ := ih hm1
      refine ⟨hm2, ?_⟩
      simp only [hroot]
      rw [g1, Res.bind_ok, g2]
    · rw [if_neg hw]
      exact ih hm

/-- An object sent to a client that wants some commits: stored and reachable from the tree of one of them. -/
inductive BelowWanted (X : Ext) (fold : Bytes → Bytes) (db : Db) (path : Bytes) (want : List Bytes) : Spec.Obj → Prop
  | node (r : CommitRow) (c : Commit) (h : Hash) (n : NodeRow) : r ∈ commitsAt fold db.commits path →
      Hash.toPlainStr (idOf X (.commit, r.data)) ∈ want → Commit.decode r.data = .ok c →
      StoreReach db.nodes c.treeId h → n ∈ db.nodes → n.gitId = Hash.toPlainStr h → BelowWanted X fold db path want (nodeObj n)

theorem incObjects_ok (hS : StoreOk X E db) {path : Bytes} (hroots : RootsOk E db path) {fuel : Nat} {want have_ : List Bytes} {hm : HashMeta}
    (h : incObjects X E fuel db path want have_ = .ok hm) :
    (hm.map Prod.fst).Nodup ∧ ∀ p, p ∈ hm ↔ ∃ o, BelowWanted X E.fold db path want o ∧ p = entryOf X o := by
  have col := incLoop_ok hS fuel want _ [] hm (fun r hr => hroots r ((mem_commitsByPath E db path r).1 hr)) ⟨by simp, by simp⟩
    (by intro n _ _ h; cases h) h
  refine ⟨col.good.2, fun p => ⟨fun hp => ?_, ?_⟩⟩
  · rcases col.sound p hp with h | ⟨r, hr, hw, c, hc, n, hn, e, hre⟩
    · cases h
    · exact ⟨_, .node r c _ n ((mem_commitsByPath E db path r).1 hr) hw hc hre hn (hS.id n hn), e⟩
  · rintro ⟨o, ⟨r, c, h, n, hr, hw, hc, hre, hn, e⟩, rfl⟩
    obtain ⟨c', hc', hroot⟩ := col.roots r ((mem_commitsByPath E db path r).2 hr) hw
    rw [hc] at hc'
    cases hc'
    exact closed_reach hS col.closed hroot hre n hn e

theorem incObjects_total (hS : StoreOk X E db) {path : Bytes} (hroots : RootsOk E db path)
    {fuel : Nat} (hdeep : ∀ r ∈ commitsAt E.fold db.commits path, ∀ c, Commit.decode r.data = .ok c → Spec.NestedWithin db.nodes fuel c.treeId) (want have_ : List Bytes) :
    ∃ hm, incObjects X E fuel db path want have_ = .ok hm :=
  incLoop_total hS fuel want _ [] (by
    intro r hr
    rw [mem_commitsByPath] at hr
    obtain ⟨c, hc, n⟩ := hroots r hr
    exact ⟨c, hc, hdeep r hr c hc, n⟩)

end

end Gust

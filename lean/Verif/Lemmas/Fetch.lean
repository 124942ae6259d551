import Verif.Spec.Storage
import Verif.Props.Storage
import Verif.Props.Pack
import Mathlib.Data.Finset.Card
import Mathlib.Logic.Relation

/-! # The tree walk of clone and fetch -/

namespace Gust

open Spec (nodeObj StoreReach NestedWithin)

/-- The objects in storage. -/
def StoredObj (db : Db) (o : Spec.Obj) : Prop :=
  (∃ n ∈ db.nodes, nodeObj n = o) ∨ ∃ c ∈ db.commits, (ObjectType.commit, c.data) = o

/-- Rows are stored under the id of their object, ids of stored objects are unique, the database tells ids apart, trees can be read. -/
structure StoreOk (X : Ext) (E : SqlExt) (db : Db) : Prop where
  type : ∀ n ∈ db.nodes, n.nodeType = ascii "tree" ∨ n.nodeType = ascii "blob"
  id : ∀ n ∈ db.nodes, n.gitId = Hash.toPlainStr (idOf X (nodeObj n))
  unique : ∀ a b, StoredObj db a → StoredObj db b → idOf X a = idOf X b → a = b
  fold : ∀ a b : Hash, E.fold (Hash.toPlainStr a) = E.fold (Hash.toPlainStr b) → a = b
  tree : ∀ n ∈ db.nodes, n.nodeType = ascii "tree" → ∃ items, decodeTree n.data = .ok items

/-- The ids listed in a stored tree. -/
def NodeChild (nodes : List NodeRow) (a b : Hash) : Prop :=
  ∃ n ∈ nodes, n.gitId = Hash.toPlainStr b ∧ n.nodeType = ascii "tree" ∧ ∃ items, decodeTree n.data = .ok items ∧ ∃ i ∈ items, a = i.id

open Classical in
/-- The ids of stored rows that are below an id. -/
noncomputable def below (nodes : List NodeRow) (h : Hash) : Finset Bytes :=
  (nodes.map NodeRow.gitId).toFinset.filter (fun g => ∃ y, g = Hash.toPlainStr y ∧ Relation.TransGen (NodeChild nodes) y h)

theorem mem_below {nodes : List NodeRow} {h : Hash} {g : Bytes} :
    g ∈ below nodes h ↔ (∃ n ∈ nodes, n.gitId = g) ∧ ∃ y, g = Hash.toPlainStr y ∧ Relation.TransGen (NodeChild nodes) y h := by
  classical
  unfold below
  rw [Finset.mem_filter, List.mem_toFinset, List.mem_map]

theorem below_subset (nodes : List NodeRow) (h : Hash) : below nodes h ⊆ (nodes.map NodeRow.gitId).toFinset := fun g hg => by
  obtain ⟨⟨n, hn, e⟩, _⟩ := mem_below.1 hg
  exact List.mem_toFinset.2 (by rw [← e]; exact List.mem_map_of_mem hn)

theorem not_below_self {nodes : List NodeRow} {h : Hash} (hac : Acc (NodeChild nodes) h) : ¬ Relation.TransGen (NodeChild nodes) h h := by
  have ht := hac.transGen
  clear hac
  induction ht with
  | intro x _ ih => exact fun hx => ih x hx hx

theorem below_lt {nodes : List NodeRow} {a b : Hash} (hac : Acc (NodeChild nodes) b) (hch : NodeChild nodes a b)
    (hst : ∃ n ∈ nodes, n.gitId = Hash.toPlainStr a) : (below nodes a).card < (below nodes b).card := by
  apply Finset.card_lt_card
  refine Finset.ssubset_iff_subset_ne.2 ⟨fun g hg => ?_, fun e => ?_⟩
  · obtain ⟨h1, y, rfl, h2⟩ := mem_below.1 hg
    exact mem_below.2 ⟨h1, y, rfl, h2.tail hch⟩
  · obtain ⟨n, hn, en⟩ := hst
    have : Hash.toPlainStr a ∈ below nodes b :=
      mem_below.2 ⟨⟨n, hn, en⟩, a, rfl, .single hch⟩
    rw [← e] at this
    obtain ⟨_, y, ey, h2⟩ := mem_below.1 this
    rw [← Hash.toPlainStr_injective ey] at h2
    exact not_below_self (hac.inv hch) h2

theorem below_card {nodes : List NodeRow} {h : Hash} (hac : Acc (NodeChild nodes) h) (hst : ∃ n ∈ nodes, n.gitId = Hash.toPlainStr h) :
    (below nodes h).card < nodes.length := by
  have h1 : (nodes.map NodeRow.gitId).toFinset.card ≤ nodes.length := by
    have := List.toFinset_card_le (nodes.map NodeRow.gitId)
    rwa [List.length_map] at this
  refine Nat.lt_of_lt_of_le (Finset.card_lt_card ?_) h1
  refine Finset.ssubset_iff_subset_ne.2 ⟨below_subset _ _, fun e => ?_⟩
  obtain ⟨n, hn, en⟩ := hst
  have : Hash.toPlainStr h ∈ below nodes h := by
    rw [e]
    exact List.mem_toFinset.2 (by rw [← en]; exact List.mem_map_of_mem hn)
  obtain ⟨_, y, ey, h2⟩ := mem_below.1 this
  rw [← Hash.toPlainStr_injective ey] at h2
  exact not_below_self hac h2

theorem nested_of_acyclic {nodes : List NodeRow} : ∀ (k : Nat) (h : Hash), Acc (NodeChild nodes) h → (below nodes h).card < k → NestedWithin nodes k h
  | 0, _, _, hk => by omega
  | k + 1, h, hac, hk => by
    intro n hn e ht items hd i hi hst
    have hch : NodeChild nodes i.id h := ⟨n, hn, e, ht, items, hd, i, hi, rfl⟩
    have := below_lt hac hch (by obtain ⟨m, hm, e, _⟩ := hst; exact ⟨m, hm, e⟩)
    exact nested_of_acyclic k i.id (hac.inv hch) (by omega)

theorem _root_.Gust.Spec.NestedWithin.mono {nodes : List NodeRow} : ∀ {k k' : Nat} {h : Hash}, NestedWithin nodes k h → k ≤ k' → NestedWithin nodes k' h
  | 0, _, _, hn, _ => hn.elim
  | k + 1, 0, _, _, hk => by omega
  | k + 1, k' + 1, _, hn, hk => fun n a b c items d i e f => (hn n a b c items d i e f).mono (by omega)

theorem nested_of_rank {nodes : List NodeRow} (rank : Hash → Nat)
    (hrank : ∀ n ∈ nodes, n.nodeType = ascii "tree" → ∀ items, decodeTree n.data = .ok items → ∀ i ∈ items,
      ∀ n' ∈ nodes, n'.gitId = Hash.toPlainStr i.id → n'.nodeType = ascii "tree" → ∀ h, n.gitId = Hash.toPlainStr h → rank i.id < rank h) :
    ∀ (k : Nat) (h : Hash), rank h < k → NestedWithin nodes k h
  | 0, _, hk => by omega
  | k + 1, h, hk => by
    intro n hn e ht items hd i hi hst
    obtain ⟨m, hm, e', ht'⟩ := hst
    have := hrank n hn ht items hd i hi m hm e' ht' h e
    exact nested_of_rank rank hrank k i.id (by omega)

/-- The entry of an object in the collected map. -/
def entryOf (X : Ext) (o : Spec.Obj) : Bytes × MetaData := (Hash.toPlainStr (idOf X o), metaOf X o)

/-- Only stored objects, under their ids. -/
def Good (X : Ext) (db : Db) (hm : HashMeta) : Prop := (∀ p ∈ hm, ∃ o, StoredObj db o ∧ p = entryOf X o) ∧ (hm.map Prod.fst).Nodup

/-- With a tree, everything listed in it that is stored. -/
def ClosedMap (X : Ext) (db : Db) (hm : HashMeta) : Prop :=
  ∀ n ∈ db.nodes, n.nodeType = ascii "tree" → entryOf X (nodeObj n) ∈ hm → ∀ items, decodeTree n.data = .ok items → ∀ i ∈ items,
    ∀ n' ∈ db.nodes, n'.gitId = Hash.toPlainStr i.id → entryOf X (nodeObj n') ∈ hm

theorem nodeObj_tree {n : NodeRow} (h : n.nodeType = ascii "tree") : nodeObj n = (.tree, n.data) := by simp [nodeObj, h]
theorem nodeObj_blob {n : NodeRow} (h : n.nodeType ≠ ascii "tree") : nodeObj n = (.blob, n.data) := by simp [nodeObj, h]

theorem StoreReach.trans {nodes : List NodeRow} {a b c : Hash} (h : StoreReach nodes a b) (h' : StoreReach nodes b c) : StoreReach nodes a c := by
  induction h' with
  | refl => exact h
  | item n t items i _ h1 h2 h3 h4 h5 ih => exact .item n t items i ih h1 h2 h3 h4 h5

theorem StoreReach.mono {nodes nodes' : List NodeRow} (hs : ∀ n ∈ nodes, n ∈ nodes') {a b : Hash} (h : StoreReach nodes a b) : StoreReach nodes' a b := by
  induction h with
  | refl => exact .refl
  | item n t items i _ h1 h2 h3 h4 h5 ih => exact .item n t items i ih (hs _ h1) h2 h3 h4 h5

theorem mem_entryInsert {α : Type} (m : List (Bytes × α)) (k : Bytes) (v : α) (p : Bytes × α) :
    p ∈ entryInsert m k v ↔ p = (k, v) ∨ (p ∈ m ∧ p.1 ≠ k) := by
  unfold entryInsert
  split
  · rename_i h
    simp only [List.any_eq_true, beq_iff_eq] at h
    obtain ⟨q, hq, hk⟩ := h
    simp only [List.mem_map]
    constructor
    · rintro ⟨x, hx, rfl⟩
      split
      · exact .inl rfl
      · rename_i hn; exact .inr ⟨hx, hn⟩
    · rintro (rfl | ⟨h1, h2⟩)
      · exact ⟨q, hq, by rw [if_pos hk]⟩
      · exact ⟨p, h1, by rw [if_neg h2]⟩
  · rename_i h
    simp only [List.any_eq_true, beq_iff_eq, not_exists, not_and] at h
    simp only [List.mem_append, List.mem_singleton]
    constructor
    · rintro (h1 | rfl)
      · exact .inr ⟨h1, h p h1⟩
      · exact .inl rfl
    · rintro (rfl | ⟨h1, _⟩)
      · exact .inr rfl
      · exact .inl h1

section
variable {X : Ext} {E : SqlExt} {db : Db}

theorem good_insert (hS : StoreOk X E db) {hm : HashMeta} (hg : Good X db hm) {o : Spec.Obj} (ho : StoredObj db o) :
    Good X db (entryInsert hm (Hash.toPlainStr (idOf X o)) (metaOf X o)) ∧
      ∀ p, p ∈ entryInsert hm (Hash.toPlainStr (idOf X o)) (metaOf X o) ↔ p = entryOf X o ∨ p ∈ hm := by
  have key : ∀ p, p ∈ entryInsert hm (Hash.toPlainStr (idOf X o)) (metaOf X o) ↔ p = entryOf X o ∨ p ∈ hm := by
    intro p
    rw [mem_entryInsert]
    constructor
    · rintro (h | ⟨h, _⟩)
      · exact .inl h
      · exact .inr h
    · rintro (h | h)
      · exact .inl h
      · by_cases e : p.1 = Hash.toPlainStr (idOf X o)
        · obtain ⟨o', ho', rfl⟩ := hg.1 p h
          have := hS.unique o' o ho' ho (Hash.toPlainStr_injective e)
          rw [this]
          exact .inl rfl
        · exact .inr ⟨h, e⟩
  refine ⟨⟨fun p hp => ?_, entryInsert_nodup hg.2 _ _⟩, key⟩
  rcases (key p).1 hp with rfl | h
  · exact ⟨o, ho, rfl⟩
  · exact hg.1 p h

theorem keyFree (hm : HashMeta) (k : Bytes) : (!hm.any (fun p => p.1 == k)) = true ↔ k ∉ hm.map Prod.fst := by
  rw [Bool.not_eq_true', List.any_eq_false]
  constructor
  · intro h hk
    obtain ⟨p, hp, rfl⟩ := List.mem_map.1 hk
    simpa using h p hp
  · intro h p hp e
    exact h (List.mem_map.2 ⟨p, hp, eq_of_beq e⟩)

theorem mem_childRows (hS : StoreOk X E db) (items : List TreeItem) (hm : HashMeta) (c : NodeRow) :
    c ∈ childRows E db items hm ↔ c ∈ db.nodes ∧ ∃ i ∈ items, Hash.toPlainStr i.id ∉ hm.map Prod.fst ∧ c.gitId = Hash.toPlainStr i.id := by
  unfold childRows
  simp only
  rw [(E.order_perm _).mem_iff, List.mem_filter]
  constructor
  · rintro ⟨h1, h2⟩
    simp only [List.any_eq_true, List.mem_filter, List.mem_map, beq_iff_eq] at h2
    obtain ⟨k, ⟨⟨i, hi, rfl⟩, hk⟩, he⟩ := h2
    refine ⟨h1, i, hi, ?_, ?_⟩
    · exact (keyFree hm _).1 hk
    · rw [hS.id c h1] at he ⊢
      rw [hS.fold _ _ he]
  · rintro ⟨h1, i, hi, hk, e⟩
    refine ⟨h1, ?_⟩
    simp only [List.any_eq_true, List.mem_filter, List.mem_map, beq_iff_eq]
    exact ⟨_, ⟨⟨i, hi, rfl⟩, (keyFree hm _).2 hk⟩, by rw [e]⟩

/-- What collecting below some rows does. -/
structure Walked (X : Ext) (db : Db) (from_ : List Hash) (hm hm' : HashMeta) : Prop where
  good : Good X db hm'
  closed : ClosedMap X db hm'
  mono : ∀ p ∈ hm, p ∈ hm'
  sound : ∀ p ∈ hm', p ∈ hm ∨ ∃ n ∈ db.nodes, p = entryOf X (nodeObj n) ∧ ∃ r ∈ from_, StoreReach db.nodes r (idOf X (nodeObj n))

theorem Walked.trans {a b : List Hash} {h0 h1 h2 : HashMeta} (w : Walked X db a h0 h1) (w' : Walked X db b h1 h2) :
    Walked X db (a ++ b) h0 h2 := by
  refine ⟨w'.good, w'.closed, fun p hp => w'.mono p (w.mono p hp), fun p hp => ?_⟩
  rcases w'.sound p hp with h | ⟨n, hn, e, r, hr, h⟩
  · rcases w.sound p h with h | ⟨n, hn, e, r, hr, h⟩
    · exact .inl h
    · exact .inr ⟨n, hn, e, r, List.mem_append_left _ hr, h⟩
  · exact .inr ⟨n, hn, e, r, List.mem_append_right _ hr, h⟩

/-- What one recursive call must do. -/
def RecWalks (X : Ext) (db : Db) (rec : NodeRow → HashMeta → Res HashMeta) : Prop :=
  ∀ root hm hm', root ∈ db.nodes → root.nodeType = ascii "tree" → Good X db hm → ClosedMap X db hm → rec root hm = .ok hm' →
    Walked X db [idOf X (nodeObj root)] hm hm' ∧ entryOf X (nodeObj root) ∈ hm'

theorem closed_insert (hS : StoreOk X E db) {hm : HashMeta} (hg : Good X db hm) (hc : ClosedMap X db hm) {o : Spec.Obj} (ho : StoredObj db o)
    (hi : ∀ n ∈ db.nodes, n.nodeType = ascii "tree" → nodeObj n = o → ∀ items, decodeTree n.data = .ok items → ∀ i ∈ items,
      ∀ n' ∈ db.nodes, n'.gitId = Hash.toPlainStr i.id → entryOf X (nodeObj n') ∈ hm) :
    ClosedMap X db (entryInsert hm (Hash.toPlainStr (idOf X o)) (metaOf X o)) := by
  obtain ⟨_, key⟩ := good_insert hS hg ho
  intro n hn ht he items hd i hii n' hn' e
  rw [key] at he ⊢
  right
  rcases he with he | he
  · have : nodeObj n = o := hS.unique _ _ (.inl ⟨n, hn, rfl⟩) ho (Hash.toPlainStr_injective (congrArg Prod.fst he))
    exact hi n hn ht this items hd i hii n' hn' e
  · exact hc n hn ht he items hd i hii n' hn' e

theorem childOne_walk (hS : StoreOk X E db) {rec : NodeRow → HashMeta → Res HashMeta} (hrec : RecWalks X db rec) {c : NodeRow} (hcn : c ∈ db.nodes)
    {hm hm' : HashMeta} (hg : Good X db hm) (hcl : ClosedMap X db hm) (h : childOne X rec c hm = .ok hm') :
    Walked X db [idOf X (nodeObj c)] hm hm' ∧ entryOf X (nodeObj c) ∈ hm' := by
  unfold childOne at h
  split at h
  · rename_i ht
    exact hrec c hm hm' hcn ht hg hcl h
  · rename_i ht
    have hb := nodeObj_blob ht
    rw [new_metaOf X (.blob, c.data) rfl] at h
    simp only [Res.bind_ok, Res.pure_eq, Res.ok.injEq] at h
    have ho : StoredObj db (ObjectType.blob, c.data) := .inl ⟨c, hcn, hb⟩
    obtain ⟨g, key⟩ := good_insert hS hg ho
    have h' : hm' = entryInsert hm (Hash.toPlainStr (idOf X (ObjectType.blob, c.data))) (metaOf X (ObjectType.blob, c.data)) := h.symm
    subst h'
    rw [hb]
    refine ⟨⟨g, ?_, fun p hp => (key p).2 (.inr hp), fun p hp => ?_⟩, (key _).2 (.inl rfl)⟩
    · refine closed_insert hS hg hcl ho ?_
      intro n _ ht' e
      rw [nodeObj_tree ht'] at e
      cases e
    · rcases (key p).1 hp with rfl | hp
      · exact .inr ⟨c, hcn, by rw [hb], _, List.mem_singleton.2 rfl, by rw [hb]; exact .refl⟩
      · exact .inl hp

theorem childLoop_walk (hS : StoreOk X E db) {rec : NodeRow → HashMeta → Res HashMeta} (hrec : RecWalks X db rec) :
    ∀ (cs : List NodeRow) (hm hm' : HashMeta), (∀ c ∈ cs, c ∈ db.nodes) → Good X db hm → ClosedMap X db hm → childLoop X rec cs hm = .ok hm' →
      Walked X db (cs.map (fun c => idOf X (nodeObj c))) hm hm' ∧ ∀ c ∈ cs, entryOf X (nodeObj c) ∈ hm'
  | [], hm, hm', _, hg, hcl, h => by
    simp only [childLoop, Res.ok.injEq] at h
    subst h
    exact ⟨⟨hg, hcl, fun _ hp => hp, fun _ hp => .inl hp⟩, by simp⟩
  | c :: cs, hm, hm', hn, hg, hcl, h => by
    simp only [childLoop, Res.bind_eq_ok] at h
    obtain ⟨hm1, h1, h2⟩ := h
    obtain ⟨w1, e1⟩ := childOne_walk hS hrec (hn c (.head _)) hg hcl h1
    obtain ⟨w2, e2⟩ := childLoop_walk hS hrec cs hm1 hm' (fun c hc => hn c (.tail _ hc)) w1.good w1.closed h2
    refine ⟨w1.trans w2, ?_⟩
    intro x hx
    rcases List.mem_cons.1 hx with rfl | hx
    · exact w2.mono _ e1
    · exact e2 x hx

theorem getChildTrees_walk (hS : StoreOk X E db) : ∀ fuel, RecWalks X db (getChildTrees X E db fuel)
  | 0 => by intro root hm hm' _ _ _ _ h; cases h
  | fuel + 1 => by
    intro root hm hm' hr ht hg hcl h
    have hb := nodeObj_tree ht
    simp only [getChildTrees] at h
    rw [new_metaOf X (.tree, root.data) rfl] at h
    simp only [Res.bind_eq_ok, Res.pure_eq, Res.bind_ok, Res.unwrap_eq_ok, Res.ok.injEq] at h
    obtain ⟨items, hi, hm1, h1, h2⟩ := h
    have hmem := mem_childRows hS items hm
    obtain ⟨w, e⟩ := childLoop_walk hS (getChildTrees_walk hS fuel) (childRows E db items hm) hm hm1 (fun c hc => ((hmem c).1 hc).1) hg hcl h1
    have ho : StoredObj db (ObjectType.tree, root.data) := .inl ⟨root, hr, hb⟩
    obtain ⟨g, key⟩ := good_insert hS w.good ho
    have h' : hm' = entryInsert hm1 (Hash.toPlainStr (idOf X (ObjectType.tree, root.data))) (metaOf X (ObjectType.tree, root.data)) := h2.symm
    subst h'
    rw [hb]
    refine ⟨⟨g, ?_, fun p hp => (key p).2 (.inr (w.mono p hp)), fun p hp => ?_⟩, (key _).2 (.inl rfl)⟩
    · refine closed_insert hS w.good w.closed ho ?_
      intro n hn ht' e' items' hd i hii n' hn' eid
      rw [nodeObj_tree ht'] at e'
      have : n.data = root.data := (Prod.mk.inj e').2
      rw [this, hi] at hd
      cases hd
      by_cases hk : Hash.toPlainStr i.id ∈ hm.map Prod.fst
      · obtain ⟨p, hp, ep⟩ := List.mem_map.1 hk
        obtain ⟨o, ho, rfl⟩ := hg.1 p hp
        have hid : idOf X o = idOf X (nodeObj n') := by
          have h1 : Hash.toPlainStr (idOf X o) = Hash.toPlainStr i.id := ep
          rw [← eid, hS.id n' hn'] at h1
          exact Hash.toPlainStr_injective h1
        rw [← hS.unique o _ ho (.inl ⟨n', hn', rfl⟩) hid]
        exact w.mono _ hp
      · exact e n' ((hmem n').2 ⟨hn', i, hii, hk, eid⟩)
    · rcases (key p).1 hp with rfl | hp
      · exact .inr ⟨root, hr, by rw [hb], _, List.mem_singleton.2 rfl, by rw [hb]; exact .refl⟩
      · rcases w.sound p hp with h | ⟨n, hn, e1, r, hrm, h⟩
        · exact .inl h
        · refine .inr ⟨n, hn, e1, _, List.mem_singleton.2 rfl, ?_⟩
          obtain ⟨c, hc, rfl⟩ := List.mem_map.1 hrm
          obtain ⟨hcn, i, hii, _, eid⟩ := (hmem c).1 hc
          have hidc : idOf X (nodeObj c) = i.id := by
            rw [hS.id c hcn] at eid
            exact Hash.toPlainStr_injective eid
          refine StoreReach.trans ?_ h
          rw [hidc, ← hb]
          exact .item root _ items i .refl hr (by rw [hS.id root hr]) ht hi hii

/-- The walk ends. -/
theorem getChildTrees_total (hS : StoreOk X E db) :
    ∀ (fuel : Nat) (root : NodeRow) (hm : HashMeta), root ∈ db.nodes → root.nodeType = ascii "tree" → NestedWithin db.nodes fuel (idOf X (nodeObj root)) →
      ∃ hm', getChildTrees X E db fuel root hm = .ok hm'
  | 0, root, hm, _, _, h => h.elim
  | fuel + 1, root, hm, hr, ht, h => by
    obtain ⟨items, hi⟩ := hS.tree root hr ht
    have loop : ∀ (cs : List NodeRow) (hm : HashMeta), (∀ c ∈ cs, c ∈ db.nodes ∧ (c.nodeType = ascii "tree" → NestedWithin db.nodes fuel (idOf X (nodeObj c)))) →
        ∃ hm', childLoop X (getChildTrees X E db fuel) cs hm = .ok hm' := by
      intro cs
      induction cs with
      | nil => exact fun hm _ => ⟨hm, rfl⟩
      | cons c cs ih =>
        intro hm hcs
        have one : ∃ hm1, childOne X (getChildTrees X E db fuel) c hm = .ok hm1 := by
          unfold childOne
          split
          · rename_i htc
            exact getChildTrees_total hS fuel c hm (hcs c (.head _)).1 htc ((hcs c (.head _)).2 htc)
          · rw [new_metaOf X (.blob, c.data) rfl]
            exact ⟨_, rfl⟩
        obtain ⟨hm1, h1⟩ := one
        obtain ⟨hm2, h2⟩ := ih hm1 (fun c hc => hcs c (.tail _ hc))
        exact ⟨hm2, by rw [childLoop, h1, Res.bind_ok, h2]⟩
    obtain ⟨hm1, h1⟩ := loop (childRows E db items hm) hm (by
      intro c hc
      obtain ⟨hcn, i, hii, _, eid⟩ := (mem_childRows hS items hm c).1 hc
      refine ⟨hcn, ?_⟩
      have hidc : idOf X (nodeObj c) = i.id := by
        have := eid
        rw [hS.id c hcn] at this
        exact Hash.toPlainStr_injective this
      intro htc
      rw [hidc]
      exact h root hr (hS.id root hr) ht items hi i hii ⟨c, hcn, eid, htc⟩)
    refine ⟨entryInsert hm1 (Hash.toPlainStr (metaOf X (.tree, root.data)).id) (metaOf X (.tree, root.data)), ?_⟩
    rw [getChildTrees, new_metaOf X (.tree, root.data) rfl, Res.bind_ok, hi, Res.unwrap_ok, Res.bind_ok, h1, Res.bind_ok]
    rfl

/-- Everything stored below a collected root is collected. -/
theorem closed_reach (hS : StoreOk X E db) {hm : HashMeta} (hcl : ClosedMap X db hm) {root : Hash}
    (hroot : ∀ n ∈ db.nodes, n.gitId = Hash.toPlainStr root → entryOf X (nodeObj n) ∈ hm) {h : Hash} (hr : StoreReach db.nodes root h) :
    ∀ n ∈ db.nodes, n.gitId = Hash.toPlainStr h → entryOf X (nodeObj n) ∈ hm := by
  induction hr with
  | refl => exact hroot
  | item n t items i _ h1 h2 h3 h4 h5 ih => exact hcl n h1 h3 (ih n h1 h2) items h4 i h5

end

end Gust

import Verif.Lemmas.Halt
import Verif.Lemmas.Fetch
import Verif.Lemmas.Nodes
import Verif.Lemmas.ObjMap
import Mathlib.Data.Fintype.Card
import Verif.Base.Tactics

/-! # Handlers that end -/

namespace Gust

open Spec (nodeObj NestedWithin)
open Res

/-! ## Fetch -/

section
variable {X : Ext} {E : SqlExt} {db : Db}

theorem childRows_mem (hid : ∀ n ∈ db.nodes, ∃ x, n.gitId = Hash.toPlainStr x) (hfold : ∀ a b : Hash, E.fold (Hash.toPlainStr a) = E.fold (Hash.toPlainStr b) → a = b)
    {items : List TreeItem} {hm : HashMeta} {c : NodeRow} (hc : c ∈ childRows E db items hm) : c ∈ db.nodes ∧ ∃ i ∈ items, c.gitId = Hash.toPlainStr i.id := by
  unfold childRows at hc
  simp only at hc
  rw [(E.order_perm _).mem_iff, List.mem_filter, List.any_eq_true] at hc
  obtain ⟨hc, k, hk, he⟩ := hc
  obtain ⟨i, hi, rfl⟩ := List.mem_map.1 (List.mem_of_mem_filter hk)
  obtain ⟨x, hx⟩ := hid c hc
  rw [hx] at he
  rw [hfold _ _ (eq_of_beq he)] at hx
  exact ⟨hc, i, hi, hx⟩

/-- The walk ends when the directories below are not nested deeper than the stack allows; the start may be any row. -/
theorem getChildTrees_halts (hid : ∀ n ∈ db.nodes, ∃ x, n.gitId = Hash.toPlainStr x)
    (hfold : ∀ a b : Hash, E.fold (Hash.toPlainStr a) = E.fold (Hash.toPlainStr b) → a = b) :
    ∀ (fuel : Nat) (root : NodeRow) (hm : HashMeta), (∀ items, decodeTree root.data = .ok items → ∀ i ∈ items,
      (∃ n ∈ db.nodes, n.gitId = Hash.toPlainStr i.id ∧ n.nodeType = ascii "tree") → NestedWithin db.nodes fuel i.id) →
      (getChildTrees X E db (fuel + 1) root hm).halts := by
  intro fuel
  induction fuel with
  | zero =>
    intro root hm hroot
    rw [getChildTrees]
    refine halts_bind (new_halts _ _ _) fun _ _ => halts_bind (halts_unwrap (tree_halts _)) fun items hd => halts_bind ?_ fun _ _ => trivial
    rw [Res.unwrap_eq_ok] at hd
    have hcs : ∀ c ∈ childRows E db items hm, c.nodeType ≠ ascii "tree" := by
      intro c hc ht
      obtain ⟨hcn, i, hi, e⟩ := childRows_mem hid hfold hc
      exact hroot items hd i hi ⟨c, hcn, e, ht⟩
    generalize childRows E db items hm = cs at hcs
    clear hd
    induction cs generalizing hm with
    | nil => trivial
    | cons c cs ih =>
      rw [childLoop, childOne, if_neg (hcs c (.head _))]
      exact halts_bind (halts_bind (new_halts _ _ _) fun _ _ => trivial) fun hm' _ => ih hm' fun c hc => hcs c (.tail _ hc)
  | succ fuel ihf =>
    intro root hm hroot
    rw [getChildTrees]
    refine halts_bind (new_halts _ _ _) fun _ _ => halts_bind (halts_unwrap (tree_halts _)) fun items hd => halts_bind ?_ fun _ _ => trivial
    rw [Res.unwrap_eq_ok] at hd
    have hcs : ∀ c ∈ childRows E db items hm, c.nodeType = ascii "tree" → ∀ its, decodeTree c.data = .ok its → ∀ i ∈ its,
        (∃ n ∈ db.nodes, n.gitId = Hash.toPlainStr i.id ∧ n.nodeType = ascii "tree") → NestedWithin db.nodes fuel i.id := by
      intro c hc ht its hd' j hj hn
      obtain ⟨hcn, i, hi, e⟩ := childRows_mem hid hfold hc
      exact hroot items hd i hi ⟨c, hcn, e, ht⟩ c hcn e ht its hd' j hj hn
    generalize childRows E db items hm = cs at hcs
    clear hd
    induction cs generalizing hm with
    | nil => trivial
    | cons c cs ih =>
      rw [childLoop, childOne]
      refine halts_bind ?_ fun hm' _ => ih hm' fun c hc => hcs c (.tail _ hc)
      split
      · rename_i ht
        exact ihf c hm (hcs c (.head _) ht)
      · exact halts_bind (new_halts _ _ _) fun _ _ => trivial

variable (hid : ∀ n ∈ db.nodes, ∃ x, n.gitId = Hash.toPlainStr x) (hfold : ∀ a b : Hash, E.fold (Hash.toPlainStr a) = E.fold (Hash.toPlainStr b) → a = b)
  {fuel : Nat} (hnest : ∀ t, NestedWithin db.nodes fuel t)
include hid hfold hnest

theorem walk_halts (root : NodeRow) (hm : HashMeta) : (getChildTrees X E db (fuel + 1) root hm).halts :=
  getChildTrees_halts hid hfold fuel root hm fun _ _ i _ _ => hnest i.id

theorem fullLoop_halts (trees : Hash → Option NodeRow) : ∀ (cs : List CommitObj) (hm : HashMeta), (fullLoop X E db (fuel + 1) trees cs hm).halts
  | [], _ => trivial
  | c :: cs, hm => by
    rw [fullLoop]
    split
    · exact halts_bind (walk_halts hid hfold hnest _ _) fun _ _ => fullLoop_halts trees cs _
    · trivial

theorem incLoop_halts (want : List Bytes) : ∀ (rs : List CommitRow) (hm : HashMeta), (incLoop X E db (fuel + 1) want rs hm).halts
  | [], _ => trivial
  | r :: rs, hm => by
    rw [incLoop]
    refine halts_bind (new_halts _ _ _) fun m _ => ?_
    split
    · refine halts_bind (halts_unwrap (commit_halts _)) fun c _ => ?_
      split
      · exact halts_bind (walk_halts hid hfold hnest _ _) fun _ _ => incLoop_halts want rs _
      · trivial
    · exact incLoop_halts want rs hm

omit hid hfold hnest in
theorem loadCommits_halts : ∀ rs : List CommitRow, (loadCommits X rs).halts
  | [] => trivial
  | r :: rs => by
    rw [loadCommits]
    exact halts_bind (new_halts _ _ _) fun _ _ => halts_bind (halts_unwrap (commit_halts _)) fun _ _ => halts_bind (loadCommits_halts rs) fun _ _ => trivial

omit hid hfold hnest in
theorem packOf_halts (hm : HashMeta) : (packOf X E hm).halts := by
  unfold packOf
  refine halts_bind ?_ fun _ _ => trivial
  unfold encodePack
  refine halts_bind ?_ fun _ _ => trivial
  unfold encodeHeader
  split <;> trivial

theorem getFullPack_halts (path : Bytes) : (getFullPack X E (fuel + 1) db path).halts := by
  unfold getFullPack fullObjects
  refine halts_bind (halts_bind (loadCommits_halts _) fun _ _ => halts_bind ?_ fun _ _ => fullLoop_halts hid hfold hnest _ _ _) fun _ _ => packOf_halts _
  unfold nodesByIds
  simp only
  split <;> trivial

theorem getIncPack_halts (path : Bytes) (want have_ : List Bytes) : (getIncPack X E (fuel + 1) db path want have_).halts := by
  unfold getIncPack incObjects
  exact halts_bind (incLoop_halts hid hfold hnest _ _ _) fun _ _ => packOf_halts _

end

/-! ## Push -/

/-- Bounds for the members of a list. -/
theorem bound_all {α : Type} {p : Nat → α → Prop} (hmono : ∀ k k' a, k ≤ k' → p k a → p k' a) : ∀ l : List α, (∀ a ∈ l, ∃ k, p k a) → ∃ k, ∀ a ∈ l, p k a
  | [], _ => ⟨0, fun _ h => nomatch h⟩
  | a :: l, h => by
    obtain ⟨k1, h1⟩ := h a (.head _)
    obtain ⟨k2, h2⟩ := bound_all hmono l fun a ha => h a (.tail _ ha)
    refine ⟨max k1 k2, fun b hb => ?_⟩
    rcases List.mem_cons.1 hb with rfl | hb
    · exact hmono _ _ _ (Nat.le_max_left _ _) h1
    · exact hmono _ _ _ (Nat.le_max_right _ _) (h2 b hb)

theorem buildItems_halts {R : Repo} {rec : TreeObj → RepoNode → List Hash → Res (RepoNode × List Hash)} : ∀ (items : List TreeItem) (node : RepoNode) (cache : List Hash),
    (∀ i ∈ items, ∀ t, R.treeMap i.id = some t → ∀ node cache, (rec t node cache).halts) → (buildItems R rec items node cache).halts
  | [], _, _, _ => trivial
  | item :: items, node, cache, h => by
    rw [buildItems]
    split
    · exact buildItems_halts items _ _ fun i hi => h i (.tail _ hi)
    · refine halts_bind ?_ fun p _ => buildItems_halts items _ _ fun i hi => h i (.tail _ hi)
      have add : ∀ (a b : RepoNode), (a.addChild b).halts := fun a b => by cases a <;> trivial
      have find : ∀ (a : RepoNode) (b : Bytes), (a.findChild b).halts := fun a b => by cases a <;> trivial
      unfold buildItem
      split
      · refine halts_bind (halts_unwrapOpt _) fun t ht => halts_bind (add _ _) fun _ _ => halts_bind (find _ _) fun _ _ => halts_bind (halts_unwrapOpt _) fun _ _ =>
          halts_bind (halts_unwrapOpt _) fun _ _ => halts_bind ?_ fun _ _ => trivial
        rw [Res.unwrapOpt_eq_ok] at ht
        exact h item (.head _) t ht _ _
      · exact halts_bind (halts_unwrapOpt _) fun _ _ => halts_bind (add _ _) fun _ _ => trivial

theorem buildTree_halts {R : Repo} {h : Hash} (hac : Acc R.Child h) :
    ∃ k, ∀ fuel, k ≤ fuel → ∀ t, R.treeMap h = some t → ∀ node cache, (buildTree R fuel t node cache).halts := by
  induction hac with
  | intro x _ ih =>
    cases hx : R.treeMap x with
    | none => exact ⟨0, fun _ _ t ht => by cases ht⟩
    | some t =>
      obtain ⟨k, hk⟩ := bound_all (p := fun k (i : TreeItem) => ∀ fuel, k ≤ fuel → ∀ t, R.treeMap i.id = some t → ∀ node cache, (buildTree R fuel t node cache).halts)
        (fun _ _ _ h1 h2 f hf => h2 f (Nat.le_trans h1 hf)) t.items fun i hi => ih i.id ⟨t, hx, i, hi, rfl⟩
      refine ⟨k + 1, fun fuel hf t' ht' node cache => ?_⟩
      cases ht'
      obtain ⟨f, rfl⟩ : ∃ f, fuel = f + 1 := ⟨fuel - 1, by omega⟩
      rw [buildTree]
      exact buildItems_halts _ _ _ fun i hi t ht => hk i hi f (by omega) t ht

/-- The construction ends when no directory contains itself. -/
theorem buildCommits_halts {R : Repo} (hac : ∀ h, Acc R.Child h) (cs : List CommitObj) : ∃ k, ∀ fuel, k ≤ fuel → ∀ cache, (buildCommits R fuel cs cache).halts := by
  induction cs with
  | nil => exact ⟨0, fun _ _ _ => trivial⟩
  | cons c cs ih =>
    obtain ⟨k1, h1⟩ := buildTree_halts (hac c.commit.treeId)
    obtain ⟨k2, h2⟩ := ih
    refine ⟨max k1 k2, fun fuel hf cache => ?_⟩
    rw [buildCommits]
    refine halts_bind (halts_unwrapOpt _) fun t ht => halts_bind ?_ fun p _ => halts_bind (h2 fuel (by omega) _) fun _ _ => trivial
    rw [Res.unwrapOpt_eq_ok] at ht
    exact h1 fuel (by omega) t ht _ _

end Gust

import Verif.Lemmas.Cache
import Verif.Lemmas.DemoRepo
import Verif.Model.Order
import Verif.Base.Tactics

/-! # C58: the order of the objects -/

namespace Gust

/-- The laws of a total preorder, as the documentation of `Ord` has them. -/
structure Spec.TotalPreorder {α : Type} (cmp : α → α → Ordering) : Prop where
  refl : ∀ a, cmp a a = .eq
  swap : ∀ a b, cmp b a = (cmp a b).swap
  trans : ∀ a b c, cmp a b ≠ .gt → cmp b c ≠ .gt → cmp a c ≠ .gt
  trans_lt : ∀ a b c, cmp a b = .lt → cmp b c = .lt → cmp a c = .lt

/-- Sorted, in the sense of an order. -/
def Spec.SortedBy {α : Type} (cmp : α → α → Ordering) (l : List α) : Prop := l.Pairwise (fun a b => cmp a b ≠ .gt)

theorem bytesLt_trichotomy : ∀ a b : Bytes, a ≠ b → bytesLt a b = false → bytesLt b a = true
  | [], [], h, _ => absurd rfl h
  | [], _ :: _, _, h => by simp [bytesLt] at h
  | _ :: _, [], _, _ => rfl
  | x :: a, y :: b, hne, h => by
    simp only [bytesLt] at h ⊢
    by_cases hxy : x.toNat < y.toNat
    · simp [hxy] at h
    · by_cases hyx : y.toNat < x.toNat
      · rw [if_pos hyx]
      · rw [if_neg hxy, if_neg hyx] at h
        rw [if_neg hyx, if_neg hxy]
        have hx : x = y := UInt8.toNat_inj.1 (by omega)
        exact bytesLt_trichotomy a b (fun e => hne (by rw [hx, e])) h

theorem strCmp_eq {a b : Bytes} : strCmp a b = .eq ↔ a = b := by
  unfold strCmp
  constructor
  · intro h
    split at h
    · assumption
    · split at h <;> cases h
  · intro h
    rw [if_pos h]

theorem strCmp_lt {a b : Bytes} : strCmp a b = .lt ↔ bytesLt a b = true := by
  unfold strCmp
  constructor
  · intro h
    split at h
    · cases h
    · split at h
      · assumption
      · cases h
  · intro h
    have hne : a ≠ b := by
      rintro rfl
      rw [bytesLt_irrefl] at h
      cases h
    rw [if_neg hne, if_pos h]

theorem strCmp_swap (a b : Bytes) : strCmp b a = (strCmp a b).swap := by
  unfold strCmp
  by_cases h : a = b
  · rw [if_pos h, if_pos h.symm]
    rfl
  · rw [if_neg h, if_neg (Ne.symm h)]
    cases hl : bytesLt a b with
    | true =>
      rw [bytesLt_asymm hl]
      rfl
    | false =>
      rw [bytesLt_trichotomy a b h hl]
      rfl

theorem strCmp_gt {a b : Bytes} : strCmp a b = .gt ↔ bytesLt b a = true := by
  rw [← strCmp_lt, strCmp_swap a b]
  cases strCmp a b <;> decide

theorem sizeCmp_eq {a b : Nat} : sizeCmp a b = .eq ↔ a = b := by unfold sizeCmp; split <;> [simp [*]; (split <;> simp [*])]
theorem sizeCmp_lt {a b : Nat} : sizeCmp a b = .lt ↔ a < b := by unfold sizeCmp; split <;> [simp [*]; (split <;> simp [*])]
theorem sizeCmp_gt {a b : Nat} : sizeCmp a b = .gt ↔ b < a := by
  unfold sizeCmp
  split
  · simp [*]
  · split
    · simp only [reduceCtorEq, false_iff]
      omega
    · simp only [true_iff]
      omega

theorem sizeCmp_swap (a b : Nat) : sizeCmp b a = (sizeCmp a b).swap := by
  rcases Nat.lt_trichotomy a b with h | h | h
  · rw [sizeCmp_lt.2 h, sizeCmp_gt.2 h]
    rfl
  · rw [sizeCmp_eq.2 h, sizeCmp_eq.2 h.symm]
    rfl
  · rw [sizeCmp_gt.2 h, sizeCmp_lt.2 h]
    rfl

/-- The order by name and then size, both descending, as a relation. -/
def Before (an : Bytes) (as : Nat) (bn : Bytes) (bs : Nat) : Prop := bytesLt bn an = true ∨ (an = bn ∧ bs < as)

/-- Compare by name and then size, descending. -/
def nameSizeCmp (an : Bytes) (as : Nat) (bn : Bytes) (bs : Nat) : Ordering :=
  match strCmp bn an with
  | .eq => sizeCmp bs as
  | o => o

theorem nameSizeCmp_lt {an bn : Bytes} {as bs : Nat} : nameSizeCmp an as bn bs = .lt ↔ Before an as bn bs := by
  unfold nameSizeCmp Before
  cases h : strCmp bn an with
  | eq =>
    have he := strCmp_eq.1 h
    subst he
    simp [sizeCmp_lt, bytesLt_irrefl]
  | lt => simp [strCmp_lt.1 h]
  | gt =>
    have hg := strCmp_gt.1 h
    simp only [reduceCtorEq, bytesLt_asymm hg, Bool.false_eq_true, false_or, false_iff, not_and]
    rintro rfl
    rw [bytesLt_irrefl] at hg
    cases hg

theorem nameSizeCmp_eq {an bn : Bytes} {as bs : Nat} : nameSizeCmp an as bn bs = .eq ↔ an = bn ∧ as = bs := by
  unfold nameSizeCmp
  cases h : strCmp bn an with
  | eq =>
    have he := strCmp_eq.1 h
    subst he
    simp only [sizeCmp_eq, true_and]
    exact eq_comm
  | lt =>
    simp only [reduceCtorEq, false_iff, not_and]
    rintro rfl
    rw [strCmp_eq.2 rfl] at h
    cases h
  | gt =>
    simp only [reduceCtorEq, false_iff, not_and]
    rintro rfl
    rw [strCmp_eq.2 rfl] at h
    cases h

theorem nameSizeCmp_swap (an bn : Bytes) (as bs : Nat) : nameSizeCmp bn bs an as = (nameSizeCmp an as bn bs).swap := by
  unfold nameSizeCmp
  rw [strCmp_swap bn an]
  cases strCmp bn an with
  | eq => exact sizeCmp_swap bs as
  | lt => rfl
  | gt => rfl

theorem before_trans {an bn cn : Bytes} {as bs cs : Nat} (h1 : Before an as bn bs) (h2 : Before bn bs cn cs) :
    Before an as cn cs := by
  rcases h1 with h1 | ⟨rfl, h1⟩ <;> rcases h2 with h2 | ⟨rfl, h2⟩
  · exact .inl (bytesLt_trans h2 h1)
  · exact .inl h1
  · exact .inl h2
  · exact .inr ⟨rfl, by omega⟩

/-- The laws, for any objects compared by name and size. -/
theorem preorder_of {α : Type} {cmp : α → α → Ordering} (name : α → Bytes) (size : α → Nat)
    (h : ∀ a b, cmp a b = nameSizeCmp (name a) (size a) (name b) (size b)) : Spec.TotalPreorder cmp := by
  have hlt : ∀ a b, cmp a b = .lt ↔ Before (name a) (size a) (name b) (size b) := fun a b => by rw [h, nameSizeCmp_lt]
  have heq : ∀ a b, cmp a b = .eq ↔ name a = name b ∧ size a = size b := fun a b => by rw [h, nameSizeCmp_eq]
  have tlt : ∀ a b c, cmp a b = .lt → cmp b c = .lt → cmp a c = .lt := fun a b c h1 h2 =>
    (hlt _ _).2 (before_trans ((hlt _ _).1 h1) ((hlt _ _).1 h2))
  refine ⟨fun a => (heq a a).2 ⟨rfl, rfl⟩, fun a b => ?_, fun a b c h1 h2 => ?_, tlt⟩
  · rw [h, h a b, nameSizeCmp_swap]
  · cases hab : cmp a b with
    | gt => exact absurd hab h1
    | eq =>
      obtain ⟨e1, e2⟩ := (heq _ _).1 hab
      rw [h, e1, e2, ← h]
      exact h2
    | lt =>
      cases hbc : cmp b c with
      | gt => exact absurd hbc h2
      | eq =>
        obtain ⟨e1, e2⟩ := (heq _ _).1 hbc
        rw [h, ← e1, ← e2, ← h, hab]
        decide
      | lt =>
        rw [tlt a b c hab hbc]
        decide

theorem sizeCmp_as (as bs : Nat) : sizeCmp bs as = nameSizeCmp [] as [] bs := by
  unfold nameSizeCmp
  rw [strCmp_eq.2 rfl]

/-- **C58** (partial). The orders of trees, blobs, commits and tags are total preorders. -/
theorem C58_preorder_partial : Spec.TotalPreorder TreeObj.cmp ∧ Spec.TotalPreorder BlobObj.cmp ∧
    Spec.TotalPreorder CommitObj.cmp ∧ Spec.TotalPreorder TagObj.cmp :=
  ⟨preorder_of (·.name) (·.base.size) (fun _ _ => rfl), preorder_of (·.filename) (·.base.size) (fun _ _ => rfl),
    preorder_of (fun _ => []) (·.base.size) (fun _ _ => sizeCmp_as _ _),
    preorder_of (fun _ => []) (·.base.size) (fun _ _ => sizeCmp_as _ _)⟩

/-- What comparing equal means, exactly. -/
theorem C58_equal_exact (t t' : TreeObj) (b b' : BlobObj) (c c' : CommitObj) (g g' : TagObj) :
    (t.cmp t' = .eq ↔ t.name = t'.name ∧ t.base.size = t'.base.size) ∧
    (b.cmp b' = .eq ↔ b.filename = b'.filename ∧ b.base.size = b'.base.size) ∧
    (c.cmp c' = .eq ↔ c.base.size = c'.base.size) ∧ (g.cmp g' = .eq ↔ g.base.size = g'.base.size) :=
  ⟨nameSizeCmp_eq, nameSizeCmp_eq, sizeCmp_eq.trans eq_comm, sizeCmp_eq.trans eq_comm⟩

/-- **C58** (partial). For commits and tags, comparing equal is the same as `==`; for trees and blobs it implies `==`. -/
theorem C58_agrees_partial (t t' : TreeObj) (b b' : BlobObj) (c c' : CommitObj) (g g' : TagObj) :
    (c.cmp c' = .eq ↔ c.eq c' = true) ∧ (g.cmp g' = .eq ↔ g.eq g' = true) ∧ (t.cmp t' = .eq → t.eq t' = true) ∧
      (b.cmp b' = .eq → b.eq b' = true) := by
  obtain ⟨ht, hb, hc, hg⟩ := C58_equal_exact t t' b b' c c' g g'
  exact ⟨hc.trans beq_iff_eq.symm, hg.trans beq_iff_eq.symm, fun h => beq_iff_eq.2 (ht.1 h).1, fun h => beq_iff_eq.2 (hb.1 h).1⟩

/-- **C58** is false as stated: of any two trees with the same name and different sizes (and likewise blobs), `==` says equal
and the order says one is before the other. -/
theorem C58_agrees_false (t t' : TreeObj) (ht : t.name = t'.name) (hs : t'.base.size < t.base.size) (b b' : BlobObj)
    (hb : b.filename = b'.filename) (hbs : b'.base.size < b.base.size) :
    t.eq t' = true ∧ t.cmp t' = .lt ∧ b.eq b' = true ∧ b.cmp b' = .lt :=
  ⟨beq_iff_eq.2 ht, nameSizeCmp_lt.2 (.inr ⟨ht, hs⟩), beq_iff_eq.2 hb, nameSizeCmp_lt.2 (.inr ⟨hb, hbs⟩)⟩

/-- **C58** is false as stated: different commits of the same size are equal. -/
theorem C58_different_equal_false : ∃ a b : CommitObj, a.eq b = true ∧ a.cmp b = .eq ∧ a.commit.treeId ≠ b.commit.treeId ∧
    a.base.data = a.commit.encode ∧ b.base.data = b.commit.encode := by
  refine ⟨{ base := metaOf polyExt (.commit, (exampleCommit []).encode), commit := exampleCommit [] },
    { base := metaOf polyExt (.commit, ({ exampleCommit [] with treeId := ⟨List.replicate 20 7, by simp⟩ } : Commit).encode)
      commit := { exampleCommit [] with treeId := ⟨List.replicate 20 7, by simp⟩ } }, ?_, ?_, ?_, rfl, rfl⟩ <;> decide +kernel

/-- Two sorted arrangements of the same objects agree, position by position, up to comparing equal. -/
theorem sorted_unique {α : Type} {cmp : α → α → Ordering} (name : α → Bytes) (size : α → Nat)
    (h : ∀ a b, cmp a b = nameSizeCmp (name a) (size a) (name b) (size b)) {l l' : List α} (hp : l.Perm l')
    (hs : Spec.SortedBy cmp l) (hs' : Spec.SortedBy cmp l') : List.Forall₂ (fun a b => cmp a b = .eq) l l' := by
  let key : α → Bytes × Nat := fun a => (name a, size a)
  let R : Bytes × Nat → Bytes × Nat → Prop := fun p q => nameSizeCmp p.1 p.2 q.1 q.2 ≠ .gt
  have hm : ∀ {l : List α}, Spec.SortedBy cmp l → (l.map key).Pairwise R := by
    intro l hl
    rw [List.pairwise_map]
    exact hl.imp (fun {a b} hab => by rw [h] at hab; exact hab)
  have he : l.map key = l'.map key := by
    refine List.Perm.eq_of_pairwise (le := R) ?_ (hm hs) (hm hs') (hp.map key)
    intro p q _ _ h1 h2
    have h2 : nameSizeCmp q.1 q.2 p.1 p.2 ≠ .gt := h2
    rw [nameSizeCmp_swap] at h2
    have h1 : nameSizeCmp p.1 p.2 q.1 q.2 ≠ .gt := h1
    cases hc : nameSizeCmp p.1 p.2 q.1 q.2 with
    | gt => exact absurd hc h1
    | lt =>
      rw [hc] at h2
      exact absurd rfl h2
    | eq =>
      obtain ⟨e1, e2⟩ := nameSizeCmp_eq.1 hc
      exact Prod.ext e1 e2
  rw [← List.forall₂_eq_eq_eq, List.forall₂_map_left_iff, List.forall₂_map_right_iff] at he
  refine he.imp fun a b hab => ?_
  rw [h]
  exact nameSizeCmp_eq.2 (Prod.mk.inj hab)

theorem bool_le {p : Bool} {cmp : Ordering} (h : p = true ↔ cmp ≠ .gt) : p = (cmp != .gt) := by
  cases p <;> cases cmp <;> simp_all

theorem nameSizeLe_cmp (an bn : Bytes) (as bs : Nat) : ObjDecodedMap.nameSizeLe an as bn bs = (nameSizeCmp an as bn bs != .gt) := by
  unfold ObjDecodedMap.nameSizeLe nameSizeCmp
  by_cases h : an = bn
  · subst h
    rw [if_pos rfl, strCmp_eq.2 rfl]
    refine bool_le ?_
    simp only [decide_eq_true_eq]
    rw [Ne, sizeCmp_gt]
    omega
  · rw [if_neg h]
    cases hc : strCmp bn an with
    | eq => exact absurd (strCmp_eq.1 hc).symm h
    | lt =>
      rw [bytesLt_asymm (strCmp_lt.1 hc)]
      rfl
    | gt =>
      rw [strCmp_gt.1 hc]
      rfl

theorem sizeLe_cmp (as bs : Nat) : decide (bs ≤ as) = (sizeCmp bs as != .gt) := by
  refine bool_le ?_
  rw [decide_eq_true_eq, Ne, sizeCmp_gt]
  omega

/-- Sorting with a lawful order: a permutation, sorted. -/
theorem sort_sorted {α : Type} {cmp : α → α → Ordering} (hc : Spec.TotalPreorder cmp) (le : α → α → Bool)
    (hle : ∀ a b, le a b = (cmp a b != .gt)) (l : List α) :
    Spec.SortedBy cmp (l.mergeSort le) ∧ (l.mergeSort le).Perm l := by
  have hiff : ∀ a b, le a b = true ↔ cmp a b ≠ .gt := fun a b => by rw [hle]; simp
  refine ⟨?_, List.mergeSort_perm l le⟩
  have := List.pairwise_mergeSort (le := le) (fun a b c h1 h2 => (hiff a c).2 (hc.trans a b c ((hiff _ _).1 h1) ((hiff _ _).1 h2)))
    (fun a b => by
      rw [Bool.or_eq_true, hiff, hiff, hc.swap a b]
      cases cmp a b <;> decide) l
  exact this.imp (fun {a b} h => (hiff a b).1 h)

/-- **C58** (partial). The list of objects prepared for compression is sorted in this order, whatever order the objects were
decoded in: nothing is lost or added, and two orders of decoding give, position by position, objects that compare equal. -/
theorem C58_sorted_partial {m m' r r' : ObjDecodedMap} (h : m.checkCompleteness = .ok r) (h' : m'.checkCompleteness = .ok r') :
    Spec.SortedBy TreeObj.cmp r.trees ∧ Spec.SortedBy BlobObj.cmp r.blobs ∧ Spec.SortedBy CommitObj.cmp r.commits ∧
      Spec.SortedBy TagObj.cmp r.tags ∧ r.commits.Perm m.commits ∧ r.tags.Perm m.tags ∧
      (r.trees.map (·.base)).Perm (m.trees.map (·.base)) ∧ (r.blobs.map (·.base)).Perm (m.blobs.map (·.base)) ∧
      (m.commits.Perm m'.commits → List.Forall₂ (fun a b => a.cmp b = .eq) r.commits r'.commits) ∧
      (m.tags.Perm m'.tags → List.Forall₂ (fun a b => a.cmp b = .eq) r.tags r'.tags) ∧
      (r.trees.Perm r'.trees → List.Forall₂ (fun a b => a.cmp b = .eq) r.trees r'.trees) ∧
      (r.blobs.Perm r'.blobs → List.Forall₂ (fun a b => a.cmp b = .eq) r.blobs r'.blobs) := by
  have key : ∀ {m r : ObjDecodedMap}, m.checkCompleteness = .ok r →
      Spec.SortedBy TreeObj.cmp r.trees ∧ Spec.SortedBy BlobObj.cmp r.blobs ∧ Spec.SortedBy CommitObj.cmp r.commits ∧
      Spec.SortedBy TagObj.cmp r.tags ∧ r.commits.Perm m.commits ∧ r.tags.Perm m.tags ∧
      (r.trees.map (·.base)).Perm (m.trees.map (·.base)) ∧ (r.blobs.map (·.base)).Perm (m.blobs.map (·.base)) := by
    intro m r h
    simp only [ObjDecodedMap.checkCompleteness] at h
    obtain ⟨names, _, h⟩ := Res.bind_eq_ok.1 h
    simp only [Res.pure_eq, Res.ok.injEq] at h
    subst h
    obtain ⟨pt, pb, pc, pg⟩ := C58_preorder_partial
    have st := fun l => sort_sorted pt (fun a b => ObjDecodedMap.nameSizeLe a.name a.base.size b.name b.base.size)
      (fun a b => nameSizeLe_cmp _ _ _ _) l
    have sb := fun l => sort_sorted pb (fun a b => ObjDecodedMap.nameSizeLe a.filename a.base.size b.filename b.base.size)
      (fun a b => nameSizeLe_cmp _ _ _ _) l
    have sc := fun l => sort_sorted pc (fun a b => decide (b.base.size ≤ a.base.size)) (fun a b => sizeLe_cmp _ _) l
    have sg := fun l => sort_sorted pg (fun a b => decide (b.base.size ≤ a.base.size)) (fun a b => sizeLe_cmp _ _) l
    refine ⟨(st _).1, (sb _).1, (sc _).1, (sg _).1, (sc _).2, (sg _).2, ?_, ?_⟩
    · refine ((st _).2.map _).trans ?_
      rw [List.map_map]
      exact List.Perm.refl _
    · refine ((sb _).2.map _).trans ?_
      rw [List.map_map]
      exact List.Perm.refl _
  obtain ⟨a1, a2, a3, a4, a5, a6, a7, a8⟩ := key h
  obtain ⟨b1, b2, b3, b4, b5, b6, b7, b8⟩ := key h'
  refine ⟨a1, a2, a3, a4, a5, a6, a7, a8, fun hp => ?_, fun hp => ?_, fun hp => ?_, fun hp => ?_⟩
  · exact sorted_unique (cmp := CommitObj.cmp) (fun _ => []) (·.base.size) (fun _ _ => sizeCmp_as _ _) (a5.trans (hp.trans b5.symm)) a3 b3
  · exact sorted_unique (cmp := TagObj.cmp) (fun _ => []) (·.base.size) (fun _ _ => sizeCmp_as _ _) (a6.trans (hp.trans b6.symm)) a4 b4
  · exact sorted_unique (cmp := TreeObj.cmp) (·.name) (·.base.size) (fun _ _ => rfl) hp a1 b1
  · exact sorted_unique (cmp := BlobObj.cmp) (·.filename) (·.base.size) (fun _ _ => rfl) hp a2 b2

/-- Two commits of different sizes, decoded in two orders: both sets pass the check, so the theorem above says what the prepared lists are; the two lists of
commits agree position by position. -/
example (c : Commit) :
    let a : CommitObj := { base := metaOf polyExt (.commit, [1, 2]), commit := c }
    let b : CommitObj := { base := metaOf polyExt (.commit, [3]), commit := c }
    ∃ r r', { ObjDecodedMap.default with commits := [a, b] }.checkCompleteness = .ok r ∧ { ObjDecodedMap.default with commits := [b, a] }.checkCompleteness = .ok r' ∧
      Spec.SortedBy CommitObj.cmp r.commits ∧ r.commits.Perm [a, b] ∧ List.Forall₂ (fun x y => x.cmp y = .eq) r.commits r'.commits ∧ b.cmp a = .gt := by
  intro a b
  have h1 : { ObjDecodedMap.default with commits := [a, b] }.checkCompleteness = .ok _ := rfl
  have h2 : { ObjDecodedMap.default with commits := [b, a] }.checkCompleteness = .ok _ := rfl
  obtain ⟨_, _, s1, _, p1, _, _, _, f1, _⟩ := C58_sorted_partial h1 h2
  exact ⟨_, _, h1, h2, s1, p1, f1 (List.Perm.swap b a []), rfl⟩

example : (TreeObj.cmp { base := metaOf polyExt (.tree, [1, 2]), items := [], name := ascii "src" }
      { base := metaOf polyExt (.tree, []), items := [], name := ascii "lib" }) = .lt ∧
    (TreeObj.cmp { base := metaOf polyExt (.tree, []), items := [], name := ascii "src" }
      { base := metaOf polyExt (.tree, [1, 2]), items := [], name := ascii "src" }) = .gt := by decide +kernel

end Gust

import Verif.Base.Tactics
import Verif.Model.Decoded

/-! # The thread pool of `update_from_cache`: every interleaving -/

namespace Gust

namespace Phase

/-- The closure holds its lock. -/
def holds {α : Type} : Phase α → Bool
  | locked | loaded _ | stored => true
  | _ => false

/-- The closure has pushed its value. -/
def pushed {α : Type} : Phase α → Bool
  | stored | done => true
  | _ => false

/-- Steps left. -/
def left {α : Type} : Phase α → Nat
  | todo => 4
  | locked => 3
  | loaded _ => 2
  | stored => 1
  | done => 0

end Phase

/-- The values of kind `k` pushed so far, in the order of the tasks. -/
def pushedOf {α : Type} (tasks : List (ObjectType × α)) (s : PoolState α) (k : ObjectType) : List α :=
  (tasks.zipIdx.filter (fun p => decide (p.1.1 = k) && (s.phase p.2).pushed)).map (fun p => p.1.2)

theorem filter_perm_insert {β : Type} {l : List β} {p q : β → Bool} {a : β} (hnd : l.Nodup) (ha : a ∈ l)
    (hp : p a = false) (hq : q a = true) (ho : ∀ x ∈ l, x ≠ a → q x = p x) : (l.filter q).Perm (a :: l.filter p) := by
  induction l with
  | nil => cases ha
  | cons x l ih =>
    obtain ⟨hx, hl⟩ := List.nodup_cons.1 hnd
    rcases List.mem_cons.1 ha with rfl | ha'
    · rw [List.filter_cons_of_pos hq, List.filter_cons_of_neg (by simp [hp])]
      refine List.Perm.cons _ (List.Perm.of_eq ?_)
      apply List.filter_congr
      intro y hy
      exact ho y (List.mem_cons_of_mem _ hy) (by rintro rfl; exact hx hy)
    · have hxa : x ≠ a := by rintro rfl; exact hx ha'
      have e := ho x List.mem_cons_self hxa
      have ih' := ih hl ha' (fun y hy => ho y (List.mem_cons_of_mem _ hy))
      cases hpx : p x with
      | true =>
        rw [List.filter_cons_of_pos (by rw [e, hpx]), List.filter_cons_of_pos hpx]
        exact (List.Perm.cons _ ih').trans (List.Perm.swap _ _ _)
      | false =>
        rw [List.filter_cons_of_neg (by simp [e, hpx]), List.filter_cons_of_neg (by simp [hpx])]
        exact ih'

theorem zipIdx_nodup {β : Type} (l : List β) : l.zipIdx.Nodup := by
  apply List.Nodup.of_map Prod.snd
  have : l.zipIdx.map Prod.snd = List.range' 0 l.length := List.zipIdx_map_snd 0 l
  rw [this]
  exact List.nodup_range'

theorem mem_zipIdx_get {β : Type} {l : List β} {b : β} {i : Nat} : (b, i) ∈ l.zipIdx ↔ l[i]? = some b :=
  List.mk_mem_zipIdx_iff_getElem?

/-- What holds in every reachable state. -/
structure PoolInv {α : Type} (tasks : List (ObjectType × α)) (s : PoolState α) : Prop where
  /-- a lock is held exactly by the closure in progress -/
  lock : ∀ k i, s.lock k = some i ↔ ∃ v, tasks[i]? = some (k, v) ∧ (s.phase i).holds = true
  /-- what a closure has read is what the vector contains -/
  seen : ∀ i k v l, tasks[i]? = some (k, v) → s.phase i = .loaded l → l = s.coll k
  /-- the vector of each kind has the values pushed -/
  coll : ∀ k, (s.coll k).Perm (pushedOf tasks s k)

theorem PoolInv.init {α : Type} (tasks : List (ObjectType × α)) : PoolInv tasks (PoolState.init α) where
  lock := by intro k i; simp [PoolState.init, Phase.holds]
  seen := by intro i k v l _ h; simp [PoolState.init] at h
  coll := by intro k; simp [PoolState.init, pushedOf, Phase.pushed]

theorem pushedOf_same {α : Type} {tasks : List (ObjectType × α)} {s s' : PoolState α} (k : ObjectType)
    (h : ∀ i v, tasks[i]? = some (k, v) → (s'.phase i).pushed = (s.phase i).pushed) :
    pushedOf tasks s' k = pushedOf tasks s k := by
  unfold pushedOf
  congr 1
  apply List.filter_congr
  rintro ⟨⟨k', v⟩, i⟩ hp
  have := mem_zipIdx_get.1 hp
  by_cases hk : k' = k
  · subst hk; simp [h i v this]
  · simp [hk]

theorem PoolInv.unique {α : Type} {tasks : List (ObjectType × α)} {s : PoolState α} (h : PoolInv tasks s) {i j : Nat}
    {k : ObjectType} {v w : α} (hi : tasks[i]? = some (k, v)) (hj : tasks[j]? = some (k, w))
    (pi : (s.phase i).holds = true) (pj : (s.phase j).holds = true) : i = j := by
  have h1 := (h.lock k i).2 ⟨v, hi, pi⟩
  have h2 := (h.lock k j).2 ⟨w, hj, pj⟩
  rw [h1] at h2
  exact Option.some.inj h2

theorem PoolInv.step {α : Type} {tasks : List (ObjectType × α)} {s s' : PoolState α} (h : PoolInv tasks s)
    (st : PoolStep tasks s s') : PoolInv tasks s' := by
  cases st with
  | acquire i k v ht hp hl =>
    refine ⟨?_, ?_, ?_⟩
    · intro k' j
      by_cases hk : k' = k
      · subst hk
        simp only [setAt_same, Option.some.injEq]
        constructor
        · rintro rfl; exact ⟨v, ht, by simp [setAt_same, Phase.holds]⟩
        · rintro ⟨w, hw, hh⟩
          by_contra hne
          rw [setAt_other _ _ (fun e => hne e.symm)] at hh
          have := (h.lock k' j).2 ⟨w, hw, hh⟩
          rw [hl] at this
          cases this
      · simp only [setAt_other _ _ hk, h.lock]
        constructor
        · rintro ⟨w, hw, hh⟩
          refine ⟨w, hw, ?_⟩
          rw [setAt_other _ _ (by rintro rfl; rw [ht] at hw; cases hw; exact hk rfl)]
          exact hh
        · rintro ⟨w, hw, hh⟩
          refine ⟨w, hw, ?_⟩
          rw [setAt_other _ _ (by rintro rfl; rw [ht] at hw; cases hw; exact hk rfl)] at hh
          exact hh
    · intro j k' w l hj hph
      simp only at hph ⊢
      by_cases hji : j = i
      · subst hji; rw [setAt_same] at hph; cases hph
      · rw [setAt_other _ _ hji] at hph
        exact h.seen j k' w l hj hph
    · intro k'
      rw [pushedOf_same (s := s) k']
      · exact h.coll k'
      · intro j w hj
        simp only
        by_cases hji : j = i
        · subst hji; rw [setAt_same, hp]; rfl
        · rw [setAt_other _ _ hji]
  | load i k v ht hp =>
    have hold : (s.phase i).holds = true := by rw [hp]; rfl
    refine ⟨?_, ?_, ?_⟩
    · intro k' j
      simp only [h.lock]
      by_cases hji : j = i
      · subst hji; simp only [setAt_same, hp, Phase.holds]
      · simp only [setAt_other _ _ hji]
    · intro j k' w l hj hph
      simp only at hph ⊢
      by_cases hji : j = i
      · subst hji
        rw [setAt_same] at hph
        rw [ht] at hj
        cases hj
        cases hph
        rfl
      · rw [setAt_other _ _ hji] at hph
        exact h.seen j k' w l hj hph
    · intro k'
      rw [pushedOf_same (s := s) k']
      · exact h.coll k'
      · intro j w hj
        simp only
        by_cases hji : j = i
        · subst hji; rw [setAt_same, hp]; rfl
        · rw [setAt_other _ _ hji]
  | store i k v seen ht hp =>
    have hold : (s.phase i).holds = true := by rw [hp]; rfl
    have hseen := h.seen i k v seen ht hp
    refine ⟨?_, ?_, ?_⟩
    · intro k' j
      simp only [h.lock]
      by_cases hji : j = i
      · subst hji; simp only [setAt_same, hp, Phase.holds]
      · simp only [setAt_other _ _ hji]
    · intro j k' w l hj hph
      simp only at hph ⊢
      by_cases hji : j = i
      · subst hji; rw [setAt_same] at hph; cases hph
      · rw [setAt_other _ _ hji] at hph
        by_cases hk : k' = k
        · subst hk
          exact absurd (h.unique hj ht (by rw [hph]; rfl) hold) hji
        · rw [setAt_other _ _ hk]
          exact h.seen j k' w l hj hph
    · intro k'
      by_cases hk : k' = k
      · subst hk
        simp only [setAt_same]
        have hmem : ((k', v), i) ∈ tasks.zipIdx := mem_zipIdx_get.2 ht
        have key := filter_perm_insert (l := tasks.zipIdx) (a := ((k', v), i))
          (p := fun p => decide (p.1.1 = k') && (s.phase p.2).pushed)
          (q := fun p => decide (p.1.1 = k') && ((setAt s.phase i .stored) p.2).pushed)
          (zipIdx_nodup tasks) hmem (by simp [hp, Phase.pushed]) (by simp [setAt_same, Phase.pushed])
          (by
            rintro ⟨⟨k2, w⟩, j⟩ hj hne
            by_cases hji : j = i
            · subst hji
              have := mem_zipIdx_get.1 hj
              rw [ht] at this
              cases this
              exact absurd rfl hne
            · simp only [setAt_other _ _ hji])
        have key' := key.map (fun p => p.1.2)
        rw [List.map_cons] at key'
        refine List.Perm.trans ?_ key'.symm
        rw [hseen]
        refine (List.perm_append_singleton v (s.coll k')).trans ?_
        exact List.Perm.cons v (h.coll k')
      · simp only [setAt_other _ _ hk]
        rw [pushedOf_same (s := s) k']
        · exact h.coll k'
        · intro j w hj
          simp only
          by_cases hji : j = i
          · subst hji; rw [ht] at hj; cases hj; exact absurd rfl hk
          · rw [setAt_other _ _ hji]
  | release i k v ht hp =>
    have hold : (s.phase i).holds = true := by rw [hp]; rfl
    refine ⟨?_, ?_, ?_⟩
    · intro k' j
      by_cases hk : k' = k
      · subst hk
        simp only [setAt_same, reduceCtorEq, false_iff, not_exists, not_and]
        intro w hw hh
        by_cases hji : j = i
        · subst hji; rw [setAt_same] at hh; cases hh
        · rw [setAt_other _ _ hji] at hh
          exact hji (h.unique hw ht hh hold)
      · simp only [setAt_other _ _ hk, h.lock]
        constructor
        · rintro ⟨w, hw, hh⟩
          refine ⟨w, hw, ?_⟩
          rw [setAt_other _ _ (by rintro rfl; rw [ht] at hw; cases hw; exact hk rfl)]
          exact hh
        · rintro ⟨w, hw, hh⟩
          refine ⟨w, hw, ?_⟩
          rw [setAt_other _ _ (by rintro rfl; rw [ht] at hw; cases hw; exact hk rfl)] at hh
          exact hh
    · intro j k' w l hj hph
      simp only at hph ⊢
      by_cases hji : j = i
      · subst hji; rw [setAt_same] at hph; cases hph
      · rw [setAt_other _ _ hji] at hph
        exact h.seen j k' w l hj hph
    · intro k'
      rw [pushedOf_same (s := s) k']
      · exact h.coll k'
      · intro j w hj
        simp only
        by_cases hji : j = i
        · subst hji; rw [setAt_same, hp]; rfl
        · rw [setAt_other _ _ hji]

theorem PoolInv.run {α : Type} {tasks : List (ObjectType × α)} {s s' : PoolState α} {n : Nat} (r : PoolRun tasks s n s')
    (h : PoolInv tasks s) : PoolInv tasks s' := by
  induction r with
  | refl => exact h
  | step t u n _ st ih => exact ih.step st

/-- All steps left. -/
def PoolState.left {α : Type} (tasks : List (ObjectType × α)) (s : PoolState α) : Nat :=
  ((List.range tasks.length).map (fun i => (s.phase i).left)).sum

theorem sum_setAt {β : Type} (n : Nat) (f : Nat → β) (g : β → Nat) (i : Nat) (b : β) (hi : i < n) :
    ((List.range n).map (fun j => g (setAt f i b j))).sum + g (f i) = ((List.range n).map (fun j => g (f j))).sum + g b := by
  induction n with
  | zero => omega
  | succ n ih =>
    rw [List.range_succ, List.map_append, List.map_append, List.sum_append, List.sum_append]
    simp only [List.map_cons, List.map_nil, List.sum_cons, List.sum_nil, Nat.add_zero]
    by_cases h : i = n
    · subst h
      rw [setAt_same]
      have : (List.range i).map (fun j => g (setAt f i b j)) = (List.range i).map (fun j => g (f j)) := by
        apply List.map_congr_left
        intro j hj
        rw [setAt_other _ _ (by have := List.mem_range.1 hj; omega)]
      rw [this]
      omega
    · have := ih (by omega)
      rw [setAt_other f b (show n ≠ i from fun e => h e.symm)]
      omega

theorem getElem?_lt {β : Type} {l : List β} {i : Nat} {b : β} (h : l[i]? = some b) : i < l.length := by
  by_contra hn
  rw [List.getElem?_eq_none (by omega)] at h
  cases h

/-- Every step makes progress. -/
theorem PoolStep.left {α : Type} {tasks : List (ObjectType × α)} {s s' : PoolState α} (st : PoolStep tasks s s') :
    s'.left tasks + 1 = s.left tasks := by
  cases st with
  | acquire i k v ht hp hl =>
    have := sum_setAt tasks.length s.phase Phase.left i .locked (getElem?_lt ht)
    rw [hp] at this
    simp only [PoolState.left, Phase.left] at this ⊢
    omega
  | load i k v ht hp =>
    have := sum_setAt tasks.length s.phase Phase.left i (.loaded (s.coll k)) (getElem?_lt ht)
    rw [hp] at this
    simp only [PoolState.left, Phase.left] at this ⊢
    omega
  | store i k v seen ht hp =>
    have := sum_setAt tasks.length s.phase Phase.left i .stored (getElem?_lt ht)
    rw [hp] at this
    simp only [PoolState.left, Phase.left] at this ⊢
    omega
  | release i k v ht hp =>
    have := sum_setAt tasks.length s.phase Phase.left i .done (getElem?_lt ht)
    rw [hp] at this
    simp only [PoolState.left, Phase.left] at this ⊢
    omega

theorem PoolRun.left {α : Type} {tasks : List (ObjectType × α)} {s s' : PoolState α} {n : Nat} (r : PoolRun tasks s n s') :
    s'.left tasks + n = s.left tasks := by
  induction r with
  | refl => rfl
  | step t u n _ st ih => have := st.left; omega

/-- No deadlock: unless all closures are done, one of them can make a step. -/
theorem PoolInv.progress {α : Type} {tasks : List (ObjectType × α)} {s : PoolState α} (h : PoolInv tasks s)
    (hf : ¬ s.final tasks) : ∃ s', PoolStep tasks s s' := by
  simp only [PoolState.final, not_forall] at hf
  obtain ⟨i, hi, hne⟩ := hf
  -- a closure that holds a lock can go on
  have go : ∀ j k v, tasks[j]? = some (k, v) → (s.phase j).holds = true → ∃ s', PoolStep tasks s s' := by
    intro j k v hj hh
    cases hp : s.phase j with
    | todo => rw [hp] at hh; cases hh
    | locked => exact ⟨_, .load s j k v hj hp⟩
    | loaded l => exact ⟨_, .store s j k v l hj hp⟩
    | stored => exact ⟨_, .release s j k v hj hp⟩
    | done => rw [hp] at hh; cases hh
  obtain ⟨⟨k, v⟩, hv⟩ : ∃ p, tasks[i]? = some p := ⟨tasks[i], List.getElem?_eq_getElem hi⟩
  cases hp : s.phase i with
  | todo =>
    cases hl : s.lock k with
    | none => exact ⟨_, .acquire s i k v hv hp hl⟩
    | some j =>
      obtain ⟨w, hw, hh⟩ := (h.lock k j).1 hl
      exact go j k w hw hh
  | locked => exact go i k v hv (by rw [hp]; rfl)
  | loaded l => exact go i k v hv (by rw [hp]; rfl)
  | stored => exact go i k v hv (by rw [hp]; rfl)
  | done => exact absurd hp hne

/-- From any state satisfying the invariant the pool can finish. -/
theorem PoolInv.finishes {α : Type} {tasks : List (ObjectType × α)} : ∀ (m : Nat) {s0 s : PoolState α} {n : Nat},
    s.left tasks ≤ m → PoolRun tasks s0 n s → PoolInv tasks s → ∃ n' s', PoolRun tasks s0 n' s' ∧ s'.final tasks := by
  intro m
  induction m with
  | zero =>
    intro s0 s n hm r h
    by_cases hf : s.final tasks
    · exact ⟨n, s, r, hf⟩
    · obtain ⟨s', st⟩ := h.progress hf
      have := st.left
      omega
  | succ m ih =>
    intro s0 s n hm r h
    by_cases hf : s.final tasks
    · exact ⟨n, s, r, hf⟩
    · obtain ⟨s', st⟩ := h.progress hf
      have := st.left
      exact ih (s := s') (by omega) (.step _ _ _ _ r st) (h.step st)

/-- When all closures are done the vector of each kind has exactly the values of that kind. -/
theorem PoolInv.done {α : Type} {tasks : List (ObjectType × α)} {s : PoolState α} (h : PoolInv tasks s)
    (hf : s.final tasks) (k : ObjectType) :
    (s.coll k).Perm ((tasks.filter (fun p => decide (p.1 = k))).map Prod.snd) := by
  refine (h.coll k).trans (List.Perm.of_eq ?_)
  unfold pushedOf
  have e1 : tasks.zipIdx.filter (fun p => decide (p.1.1 = k) && (s.phase p.2).pushed) =
      tasks.zipIdx.filter ((fun p => decide (p.1 = k)) ∘ Prod.fst) := by
    apply List.filter_congr
    rintro ⟨⟨k', v⟩, i⟩ hp
    have := getElem?_lt (mem_zipIdx_get.1 hp)
    simp [hf i this, Phase.pushed]
  rw [e1]
  have e2 : (fun p : (ObjectType × α) × Nat => p.1.2) = Prod.snd ∘ Prod.fst := rfl
  rw [e2, ← List.map_map, ← List.filter_map]
  have e3 : tasks.zipIdx.map Prod.fst = tasks := by simp
  rw [e3]

end Gust

import Verif.Base.Tactics
import Verif.Lemmas.Text
import Verif.Model.LfsLock

/-! # Facts about the LFS lock functions -/

namespace Gust

/-! ## Numbers -/

theorem decStr_cons (n : Nat) : ∃ c s, decStr n = c :: s ∧ c ≠ 43 ∧ c ≠ 45 := by
  cases h : decStr n with
  | nil => exact absurd h (decStr_ne_nil n)
  | cons c s =>
    have := decStr_range n c (by rw [h]; exact List.mem_cons_self)
    exact ⟨c, s, rfl, by rintro rfl; revert this; decide, by rintro rfl; revert this; decide⟩

theorem parseDigits_decStr (n : Nat) : parseDigits decCharValue 10 0 (decStr n) = some n := by
  have := parseDigits_toDigits (dv := decCharValue) (b := 10) (by omega) (n := n)
    (fun d hd => digitChar_dec d hd)
  exact this

theorem parseI64_i64Str (n : Int) (h1 : -(2 ^ 63) ≤ n) (h2 : n < 2 ^ 63) : parseI64 (i64Str n) = some n := by
  unfold i64Str
  obtain ⟨c, s, hc, hp, hm⟩ := decStr_cons n.natAbs
  by_cases hn : n < 0
  · rw [if_pos hn]
    simp only [parseI64]
    have h43 : ¬ ((45 : UInt8) = 43) := by decide
    simp only [if_neg h43, if_true]
    rw [if_neg (decStr_ne_nil _), parseDigits_decStr]
    simp only [if_true]
    rw [if_pos (by omega)]
    congr 1
    omega
  · rw [if_neg hn, hc]
    simp only [parseI64]
    rw [if_neg hp, if_neg hm]
    simp only
    rw [if_neg (by simp), ← hc, parseDigits_decStr]
    simp only [Bool.false_eq_true, if_false]
    rw [if_pos (by omega)]
    congr 1
    omega

theorem i64Str_ne_nil (n : Int) : i64Str n ≠ [] := by
  unfold i64Str
  split
  · simp
  · exact decStr_ne_nil _

/-! ## Reading -/

theorem cutPage_pos (l : List Lock) (n : Nat) (h : n < 2 ^ 63) :
    cutPage l (i64Str n) = .ok (l.take n, if n + 1 < l.length then ((l[n]?).map (·.id)).getD [] else []) := by
  unfold cutPage
  rw [if_neg (i64Str_ne_nil _), parseI64_i64Str _ (by omega) (by omega)]
  simp only
  rw [if_neg (by omega)]
  by_cases hn : n ≤ l.length
  · have : (min (n : Int) (l.length : Int)).toNat = n := by omega
    rw [this]
  · have : (min (n : Int) (l.length : Int)).toNat = l.length := by omega
    rw [this, List.take_of_length_le (Nat.le_refl _), List.take_of_length_le (by omega), if_neg (by omega),
      if_neg (by omega)]

theorem cutPage_neg (l : List Lock) (n : Int) (h1 : -(2 ^ 63) ≤ n) (h2 : n < 0) : cutPage l (i64Str n) = .panic := by
  unfold cutPage
  rw [if_neg (i64Str_ne_nil _), parseI64_i64Str _ h1 (by omega)]
  simp only
  rw [if_pos (by omega)]

theorem cutPage_one (l : List Lock) :
    cutPage l (ascii "1") = .ok (l.take 1, if 2 < l.length then ((l[1]?).map (·.id)).getD [] else []) := by
  have : ascii "1" = i64Str (1 : Nat) := by decide +kernel
  rw [this, cutPage_pos _ 1 (by omega)]

theorem filtered_check (D : DbExt) (t : LockTable) (r p : Bytes) :
    ∃ next, lfsGetFilteredLocks D t r p [] (ascii "1") =
      .ok ((onlyPath ((t (D.fold r)).getD []) p).take 1, next) := by
  simp only [lfsGetFilteredLocks, lfsGetLocks, fromCursor, if_pos, Res.bind_ok, cutPage_one]
  exact ⟨_, rfl⟩

theorem take_one_length {α : Type} (l : List α) : (l.take 1).length > 0 ↔ l ≠ [] := by
  cases l <;> simp

/-- What the check of `lfs_create_lock` finds. -/
theorem onlyPath_eq_nil (l : List Lock) (p : Bytes) :
    onlyPath l p = [] ↔ (if p = [] then l = [] else ∀ x ∈ l, x.path ≠ p) := by
  unfold onlyPath
  split <;> simp [List.filter_eq_nil_iff]

theorem onlyPath_free {l : List Lock} {p : Bytes} (h : onlyPath l p = []) : ∀ x ∈ l, x.path ≠ p := by
  rw [onlyPath_eq_nil] at h
  split at h
  · simp [h]
  · exact h

/-! ## Writing -/

theorem insertLock_perm (x : Lock) : ∀ l : List Lock, (insertLock x l).Perm (x :: l)
  | [] => List.Perm.refl _
  | y :: ys => by
    rw [insertLock]
    split
    · exact List.Perm.refl _
    · exact ((insertLock_perm x ys).cons y).trans (List.Perm.swap x y ys)

theorem sortLocks_perm : ∀ l : List Lock, (sortLocks l).Perm l
  | [] => List.Perm.refl _
  | x :: xs => (insertLock_perm x _).trans ((sortLocks_perm xs).cons x)

theorem updateRow_some {D : DbExt} {t t' : LockTable} {r : Bytes} {l : List Lock} (h : updateRow D t r l = some t') :
    t' = setAt t (D.fold r) (some l) := by
  unfold updateRow at h
  split at h
  · exact (Option.some.inj h).symm
  · cases h

theorem insertRow_some {D : DbExt} {t t' : LockTable} {r : Bytes} {l : List Lock} (h : insertRow D t r l = some t') :
    t' = setAt t (D.fold r) (some l) := by
  unfold insertRow at h
  split at h
  · exact (Option.some.inj h).symm
  · cases h

/-- Adding one lock: the row afterwards is a rearrangement of the row that was read with the new lock added. -/
theorem addLockWrite_some {D : DbExt} {t t' : LockTable} {r : Bytes} {row : Option (List Lock)} {ls : List Lock}
    (h : addLockWrite D t r row ls = some t') :
    ∃ new, t' = setAt t (D.fold r) (some new) ∧ new.Perm (row.getD [] ++ ls) := by
  unfold addLockWrite at h
  cases row with
  | none => exact ⟨_, insertRow_some h, by simpa using sortLocks_perm ls⟩
  | some old => exact ⟨_, updateRow_some h, by simpa using sortLocks_perm (old ++ ls)⟩

theorem addLock_succeeds (D : DbExt) (t : LockTable) (r : Bytes) (ls : List Lock)
    (hfit : D.locksFit r (sortLocks ((t (D.fold r)).getD [] ++ ls)) = true) : ∃ t', lfsAddLock D t r ls = some t' := by
  unfold lfsAddLock addLockWrite
  cases h : t (D.fold r) with
  | none =>
    rw [h] at hfit
    simp only [Option.getD_none, List.nil_append] at hfit
    simp [insertRow, h, hfit]
  | some old =>
    rw [h] at hfit
    simp only [Option.getD_some] at hfit
    simp [updateRow, h, hfit]

/-- The loop of `lfs_delete_lock`. -/
theorem deleteScan_eq (id : Bytes) (force : Bool) : ∀ (ls : List Lock) (del : Lock) (new : List Lock),
    deleteScan id force ls (del, new) =
      if ls.any (fun l => l.id == id && (l.owner.isSome && !force)) then none
      else some ((((ls.filter (fun l => l.id == id)).getLast?).getD del),
        new ++ ls.filter (fun l => l.id != id && decide (0 < l.id.length)))
  | [], del, new => by simp [deleteScan]
  | l :: ls, del, new => by
    rw [deleteScan]
    by_cases h1 : l.id = id
    · rw [if_pos h1]
      by_cases h2 : (l.owner.isSome && !force) = true
      · rw [if_pos h2, if_pos]
        simp only [List.any_cons, h1, BEq.rfl, Bool.true_and, h2, Bool.true_or]
      · rw [if_neg h2, deleteScan_eq id force ls l new]
        have h2' : (l.owner.isSome && !force) = false := by simpa using h2
        simp only [List.any_cons, h1, BEq.rfl, Bool.true_and, h2', Bool.false_or]
        congr 1
        simp only [List.filter_cons, h1, BEq.rfl, if_true, bne_self_eq_false, Bool.false_and, Bool.false_eq_true, if_false]
        rw [List.getLast?_cons]
        cases (List.filter (fun l => l.id == id) ls).getLast? <;> simp
    · rw [if_neg h1]
      have hb : (l.id == id) = false := by simpa using h1
      have hb' : (l.id != id) = true := by simpa using h1
      by_cases h3 : l.id.length > 0
      · rw [if_pos h3, deleteScan_eq id force ls del (new ++ [l])]
        simp [List.any_cons, List.filter_cons, h1, h3]
      · rw [if_neg h3, deleteScan_eq id force ls del new]
        simp [List.any_cons, List.filter_cons, h1, h3]

/-- A successful deletion. -/
theorem deleteLockWrite_some {D : DbExt} {t t' : LockTable} {r id : Bytes} {row : Option (List Lock)} {force : Bool} {l : Lock}
    (h : deleteLockWrite D t r row id force = some (l, t')) :
    ∃ old, row = some old ∧ id ≠ [] ∧ (old.filter (fun x => x.id == id)).getLast? = some l ∧
      (t' = setAt t (D.fold r) none ∧ old.filter (fun x => x.id != id && decide (0 < x.id.length)) = [] ∨
       t' = setAt t (D.fold r) (some (old.filter (fun x => x.id != id && decide (0 < x.id.length))))) := by
  unfold deleteLockWrite at h
  cases row with
  | none => cases h
  | some old =>
    simp only at h
    rw [deleteScan_eq] at h
    split at h
    · cases h
    · rename_i del new heq
      split at heq
      · cases heq
      · simp only [List.nil_append, Option.some.injEq, Prod.mk.injEq] at heq
        obtain ⟨hdel, hnew⟩ := heq
        split at h
        · cases h
        · rename_i hne
          have hl : (old.filter (fun x => x.id == id)).getLast? = some del ∧ id ≠ [] := by
            cases hg : (old.filter (fun x => x.id == id)).getLast? with
            | none =>
              rw [hg] at hdel
              simp only [Option.getD_none] at hdel
              exact absurd (by rw [← hdel]; rfl) hne
            | some d =>
              rw [hg] at hdel
              simp only [Option.getD_some] at hdel
              subst hdel
              have hm := List.mem_filter.1 (List.mem_of_getLast? hg)
              have : d.id = id := by simpa using hm.2
              exact ⟨rfl, this ▸ hne⟩
          split at h
          · rename_i hnil
            simp only [Option.some.injEq, Prod.mk.injEq] at h
            obtain ⟨rfl, rfl⟩ := h
            exact ⟨old, rfl, hl.2, hl.1, .inl ⟨rfl, by rw [hnew]; exact hnil⟩⟩
          · split at h
            · rename_i t'' hu
              simp only [Option.some.injEq, Prod.mk.injEq] at h
              obtain ⟨rfl, rfl⟩ := h
              exact ⟨old, rfl, hl.2, hl.1, .inr (by rw [hnew]; exact updateRow_some hu)⟩
            · cases h

/-- The listing after a successful deletion. -/
theorem deleteLockWrite_row {D : DbExt} {t t' : LockTable} {r id : Bytes} {row : Option (List Lock)} {force : Bool} {l : Lock}
    (h : deleteLockWrite D t r row id force = some (l, t')) :
    ∃ old, row = some old ∧ id ≠ [] ∧ l ∈ old ∧ l.id = id ∧
      (t' (D.fold r)).getD [] = old.filter (fun x => x.id != id && decide (0 < x.id.length)) ∧
      ∀ k, k ≠ D.fold r → t' k = t k := by
  obtain ⟨old, hrow, hid, hlast, ht⟩ := deleteLockWrite_some h
  have hm := List.mem_filter.1 (List.mem_of_getLast? hlast)
  refine ⟨old, hrow, hid, hm.1, by simpa using hm.2, ?_, ?_⟩
  · rcases ht with ⟨rfl, h0⟩ | rfl
    · rw [setAt_same, h0]; rfl
    · rw [setAt_same]; rfl
  · intro k hk
    rcases ht with ⟨rfl, h0⟩ | rfl <;> exact setAt_other _ _ hk

theorem deleteReply_ok (D : DbExt) (l : Lock) (h : l.id ≠ []) : deleteReply D l = .ok l := by
  unfold deleteReply
  rw [if_neg (fun e => h e.1)]

/-! ## Order -/

theorem bytesLe_total : ∀ a b : Bytes, bytesLe a b = true ∨ bytesLe b a = true
  | [], _ => .inl (by rw [bytesLe])
  | _ :: _, [] => .inr (by rw [bytesLe])
  | a :: s, b :: t => by
    simp only [bytesLe, Bool.or_eq_true, Bool.and_eq_true, decide_eq_true_eq, beq_iff_eq]
    have htri : a < b ∨ a = b ∨ b < a := by
      simp only [UInt8.lt_iff_toNat_lt, ← UInt8.toNat_inj]
      omega
    rcases htri with h | h | h
    · exact .inl (.inl h)
    · rcases bytesLe_total s t with h' | h'
      · exact .inl (.inr ⟨h, h'⟩)
      · exact .inr (.inr ⟨h.symm, h'⟩)
    · exact .inr (.inl h)

theorem bytesLe_trans : ∀ a b c : Bytes, bytesLe a b = true → bytesLe b c = true → bytesLe a c = true
  | [], _, _, _, _ => by rw [bytesLe]
  | _ :: _, [], _, h, _ => by rw [bytesLe] at h; cases h
  | _ :: _, _ :: _, [], _, h => by rw [bytesLe] at h; cases h
  | a :: s, b :: t, c :: u, h1, h2 => by
    simp only [bytesLe, Bool.or_eq_true, Bool.and_eq_true, decide_eq_true_eq, beq_iff_eq] at h1 h2 ⊢
    rcases h1 with h1 | ⟨rfl, h1⟩
    · rcases h2 with h2 | ⟨rfl, h2⟩
      · exact .inl (UInt8.lt_trans h1 h2)
      · exact .inl h1
    · rcases h2 with h2 | ⟨rfl, h2⟩
      · exact .inl h2
      · exact .inr ⟨rfl, bytesLe_trans s t u h1 h2⟩

/-- Oldest first. -/
def OldestFirst (l : List Lock) : Prop := l.Pairwise (fun a b => bytesLe a.lockedAt b.lockedAt = true)

theorem insertLock_sorted (x : Lock) : ∀ l : List Lock, OldestFirst l → OldestFirst (insertLock x l)
  | [], _ => List.pairwise_singleton _ _
  | y :: ys, h => by
    unfold OldestFirst at *
    rw [insertLock]
    rw [List.pairwise_cons] at h
    split
    · rename_i hxy
      rw [List.pairwise_cons, List.pairwise_cons]
      refine ⟨?_, h⟩
      intro z hz
      rcases List.mem_cons.1 hz with rfl | hz
      · exact hxy
      · exact bytesLe_trans _ _ _ hxy (h.1 z hz)
    · rename_i hxy
      rw [List.pairwise_cons]
      refine ⟨?_, insertLock_sorted x ys h.2⟩
      intro z hz
      rcases List.mem_cons.1 ((insertLock_perm x ys).mem_iff.1 hz) with rfl | hz
      · rcases bytesLe_total y.lockedAt z.lockedAt with h' | h'
        · exact h'
        · exact absurd h' hxy
      · exact h.1 z hz

theorem sortLocks_sorted : ∀ l : List Lock, OldestFirst (sortLocks l)
  | [] => List.Pairwise.nil
  | x :: xs => insertLock_sorted x _ (sortLocks_sorted xs)

theorem addLockWrite_sorted {D : DbExt} {t t' : LockTable} {r : Bytes} {row : Option (List Lock)} {ls : List Lock}
    (h : addLockWrite D t r row ls = some t') :
    ∃ new, t' = setAt t (D.fold r) (some new) ∧ new.Perm (row.getD [] ++ ls) ∧ OldestFirst new := by
  unfold addLockWrite at h
  cases row with
  | none => exact ⟨_, insertRow_some h, by simpa using sortLocks_perm ls, sortLocks_sorted _⟩
  | some old => exact ⟨_, updateRow_some h, by simpa using sortLocks_perm (old ++ ls), sortLocks_sorted _⟩

/-! ## Requests -/

/-- The three outcomes of a creation. -/
theorem createLock_cases (D : DbExt) (t : LockTable) (r p i n : Bytes) :
    (onlyPath ((t (D.fold r)).getD []) p ≠ [] ∧ createLock D t r p i n = (.status 409, t)) ∨
    (onlyPath ((t (D.fold r)).getD []) p = [] ∧ lfsAddLock D t r [newLock p i n] = none ∧
      createLock D t r p i n = (.status 500, t)) ∨
    (onlyPath ((t (D.fold r)).getD []) p = [] ∧ ∃ t', lfsAddLock D t r [newLock p i n] = some t' ∧
      createLock D t r p i n = (.ok (newLock p i n), t')) := by
  obtain ⟨next, hf⟩ := filtered_check D t r p
  by_cases h : onlyPath ((t (D.fold r)).getD []) p = []
  · right
    cases ha : lfsAddLock D t r [newLock p i n] with
    | none =>
      left
      refine ⟨h, rfl, ?_⟩
      simp only [createLock, hf, h, ha, List.take_nil, List.length_nil, Nat.lt_irrefl, gt_iff_lt, if_false]
    | some t' =>
      right
      refine ⟨h, t', rfl, ?_⟩
      simp only [createLock, hf, h, ha, List.take_nil, List.length_nil, Nat.lt_irrefl, gt_iff_lt, if_false]
  · left
    refine ⟨h, ?_⟩
    simp only [createLock, hf]
    rw [if_pos ((take_one_length _).2 h)]

/-- The outcomes of a deletion. -/
theorem deleteLock_cases (D : DbExt) (t : LockTable) (r i : Bytes) (f : Option Bool) :
    (∃ c, deleteLock D t r i f = (.status c, t)) ∨
    (∃ l t', lfsDeleteLock D t r i (f.getD false) = some (l, t') ∧ deleteLock D t r i f = (.ok l, t')) := by
  unfold deleteLock
  split
  · exact .inl ⟨_, rfl⟩
  · rename_i hi
    cases h : lfsDeleteLock D t r i (f.getD false) with
    | none => exact .inl ⟨_, rfl⟩
    | some x =>
      obtain ⟨l, t'⟩ := x
      obtain ⟨old, -, -, -, hl, -⟩ := deleteLockWrite_row h
      exact .inr ⟨l, t', rfl, by simp only [deleteReply_ok D l (by rw [hl]; exact hi)]⟩

/-- What holds for the rows after a request (`Q`), when `P` held before. -/
theorem run_relation (D : DbExt) (P Q : List Lock → Prop) (hpq : ∀ a, P a → Q a)
    (hsub : ∀ a b : List Lock, a.Sublist b → P b → Q a) (q : LockReq)
    (hadd : ∀ r p i n, q = .create r p i n → ∀ l new, P l → (∀ x ∈ l, x.path ≠ p) → new.Perm (l ++ [newLock p i n]) →
      OldestFirst new → Q new)
    (t : LockTable) (ht : ∀ k, P ((t k).getD [])) : ∀ k, Q ((q.run D t k).getD []) := by
  cases q with
  | create r p i n =>
    simp only [LockReq.run]
    rcases createLock_cases D t r p i n with ⟨-, h⟩ | ⟨-, -, h⟩ | ⟨hfree, t', ha, h⟩
    · rw [h]; exact fun k => hpq _ (ht k)
    · rw [h]; exact fun k => hpq _ (ht k)
    · rw [h]
      obtain ⟨new, rfl, hp, hs⟩ := addLockWrite_sorted ha
      intro k
      simp only [setAt_eq]
      split
      · exact hadd r p i n rfl _ _ (ht _) (onlyPath_free hfree) hp hs
      · exact hpq _ (ht k)
  | delete r i f =>
    simp only [LockReq.run]
    rcases deleteLock_cases D t r i f with ⟨c, h⟩ | ⟨l, t', hd, h⟩
    · rw [h]; exact fun k => hpq _ (ht k)
    · rw [h]
      obtain ⟨old, hrow, -, -, -, hk, hother⟩ := deleteLockWrite_row hd
      intro k
      show Q ((t' k).getD [])
      by_cases hkk : k = D.fold r
      · subst hkk
        rw [hk]
        have := ht (D.fold r)
        rw [hrow] at this
        exact hsub _ _ List.filter_sublist this
      · rw [hother k hkk]; exact hpq _ (ht k)
  | list q => exact fun k => hpq _ (ht k)
  | verify r c l => exact fun k => hpq _ (ht k)

/-- The same for an invariant that does not depend on the order. -/
theorem run_invariant (D : DbExt) (P : List Lock → Prop)
    (hperm : ∀ a b : List Lock, a.Perm b → P a → P b) (hsub : ∀ a b : List Lock, a.Sublist b → P b → P a)
    (q : LockReq) (hadd : ∀ r p i n, q = .create r p i n → ∀ l, P l → (∀ x ∈ l, x.path ≠ p) → P (l ++ [newLock p i n]))
    (t : LockTable) (ht : ∀ k, P ((t k).getD [])) : ∀ k, P ((q.run D t k).getD []) :=
  run_relation D P P (fun _ h => h) hsub q
    (fun r p i n hq l _ hl hf hp _ => hperm _ _ hp.symm (hadd r p i n hq l hl hf)) t ht

/-! ## Paging -/

theorem fromCursor_split (pre post : List Lock) (x : Lock) (hx : x.id ≠ []) (hpre : ∀ y ∈ pre, y.id ≠ x.id) :
    fromCursor (pre ++ x :: post) x.id = .ok (x :: post) := by
  unfold fromCursor
  rw [if_neg hx]
  have : List.findIdx? (fun l : Lock => l.id == x.id) (pre ++ x :: post) = some pre.length := by
    rw [List.findIdx?_append]
    have h0 : List.findIdx? (fun l : Lock => l.id == x.id) pre = none := by
      rw [List.findIdx?_eq_none_iff]
      intro y hy
      simpa using hpre y hy
    rw [h0, List.findIdx?_cons]
    simp
  rw [this]
  simp

/-- A page of the verification endpoint: `rest` are the locks from the cursor on. -/
theorem verify_page (D : DbExt) (t : LockTable) (r : Bytes) (cursor : Option Bytes) (limit : Option Int) (n : Nat)
    (hn : (if limit.getD 0 = 0 then 100 else limit.getD 0) = (n : Int)) (hn2 : n < 2 ^ 63) (rest : List Lock)
    (hrest : fromCursor ((t (D.fold r)).getD []) (cursor.getD []) = .ok rest) :
    ∃ v, verifyLock D t r cursor limit = .ok v ∧ (v.ours ++ v.theirs).Perm (rest.take n) ∧
      v.next = if n + 1 < rest.length then ((rest[n]?).map (·.id)).getD [] else [] := by
  simp only [verifyLock, lfsGetFilteredLocks, lfsGetLocks, hrest, Res.bind_ok, onlyPath, if_true, hn, cutPage_pos _ n hn2]
  refine ⟨_, rfl, ?_, rfl⟩
  have h := List.filter_append_perm (fun l : Lock => l.owner.isNone) (rest.take n)
  simpa [Option.not_isNone] using h

/-- The locks that paging with limit `n` shows, from a point with `rest` left. -/
def shown (n : Nat) (rest : List Lock) : List Lock :=
  if n < rest.length ∧ (rest.length - 1) % n = 0 then rest.dropLast else rest

theorem shown_last {n : Nat} {rest : List Lock} (hn : 0 < n) (h : ¬ (n + 1 < rest.length)) : shown n rest = rest.take n := by
  unfold shown
  by_cases h1 : n < rest.length
  · have h2 : rest.length = n + 1 := by omega
    rw [if_pos ⟨h1, by rw [h2]; simp⟩, List.dropLast_eq_take, h2]
    simp
  · rw [if_neg (fun e => h1 e.1), List.take_of_length_le (by omega)]

theorem shown_more {n : Nat} {rest : List Lock} (hn : 0 < n) (h : n + 1 < rest.length) :
    shown n rest = rest.take n ++ shown n (rest.drop n) := by
  unfold shown
  have hiff : (n < rest.length ∧ (rest.length - 1) % n = 0) ↔
      (n < (rest.drop n).length ∧ ((rest.drop n).length - 1) % n = 0) := by
    rw [List.length_drop]
    have hmod : (rest.length - n - 1) % n = (rest.length - 1) % n := by
      have : rest.length - 1 = (rest.length - n - 1) + n := by omega
      rw [this, Nat.add_mod_right]
    rw [hmod]
    constructor
    · rintro ⟨-, h2⟩
      refine ⟨?_, h2⟩
      by_contra hc
      have h3 : (rest.length - n - 1) % n = 0 := by rw [hmod]; exact h2
      rw [Nat.mod_eq_of_lt (by omega)] at h3
      omega
    · rintro ⟨-, h2⟩
      exact ⟨by omega, h2⟩
  by_cases hc : n < rest.length ∧ (rest.length - 1) % n = 0
  · rw [if_pos hc, if_pos (hiff.1 hc)]
    conv_lhs => rw [← List.take_append_drop n rest]
    rw [List.dropLast_append_of_ne_nil]
    intro e
    have := congrArg List.length e
    rw [List.length_drop] at this
    simp at this
    omega
  · rw [if_neg hc, if_neg (fun e => hc (hiff.2 e)), List.take_append_drop]

end Gust

import Verif.Model.Storage
import Verif.Lemmas.ObjMap

/-! # A concrete database and thread pool, for examples and counterexamples -/

namespace Gust

/-! ## One closure after the other -/

theorem PoolRun.trans {α : Type} {tasks : List (ObjectType × α)} {s t u : PoolState α} {a b : Nat} (h1 : PoolRun tasks s a t)
    (h2 : PoolRun tasks t b u) : PoolRun tasks s (a + b) u := by
  induction h2 with
  | refl => exact h1
  | step v w n _ st ih => exact .step _ _ _ _ ih st

/-- The vectors after the closures ran one after the other. -/
def seqColl {α : Type} (tasks : List (ObjectType × α)) (k : ObjectType) : List α :=
  (tasks.filter (fun p => decide (p.1 = k))).map Prod.snd

/-- The state after the first `n` closures ran one after the other. -/
def seqState {α : Type} (tasks : List (ObjectType × α)) (n : Nat) : PoolState α :=
  { phase := fun i => if i < n then .done else .todo
    lock := fun _ => none
    coll := seqColl (tasks.take n) }

theorem seqState_step {α : Type} {tasks : List (ObjectType × α)} {n : Nat} (h : n < tasks.length) :
    PoolRun tasks (seqState tasks n) 4 (seqState tasks (n + 1)) := by
  obtain ⟨⟨k, v⟩, hg⟩ : ∃ p, tasks[n]? = some p := ⟨tasks[n], by rw [List.getElem?_eq_getElem h]⟩
  have s1 := PoolStep.acquire (tasks := tasks) (seqState tasks n) n k v hg (by simp [seqState]) rfl
  have r1 := PoolRun.step _ _ _ 0 (.refl (seqState tasks n)) s1
  have s2 := PoolStep.load (tasks := tasks) _ n k v hg
    (show ({ seqState tasks n with phase := setAt (seqState tasks n).phase n .locked, lock := setAt (seqState tasks n).lock k (some n) } :
      PoolState α).phase n = .locked by simp [setAt])
  have r2 := PoolRun.step _ _ _ _ r1 s2
  have s3 := PoolStep.store (tasks := tasks) _ n k v (seqColl (tasks.take n) k) hg (by
    show ({ seqState tasks n with
      phase := setAt (setAt (seqState tasks n).phase n .locked) n (.loaded ((seqState tasks n).coll k))
      lock := setAt (seqState tasks n).lock k (some n) } : PoolState α).phase n = _
    simp [setAt, seqState])
  have r3 := PoolRun.step _ _ _ _ r2 s3
  have s4 := PoolStep.release (tasks := tasks) _ n k v hg (by
    show ({ seqState tasks n with
      phase := setAt (setAt (setAt (seqState tasks n).phase n .locked) n (.loaded ((seqState tasks n).coll k))) n .stored
      lock := setAt (seqState tasks n).lock k (some n)
      coll := setAt (seqState tasks n).coll k (seqColl (tasks.take n) k ++ [v]) } : PoolState α).phase n = .stored
    simp [setAt])
  have r4 := PoolRun.step _ _ _ _ r3 s4
  refine Eq.subst (motive := fun x => PoolRun tasks (seqState tasks n) 4 x) ?_ r4
  have e : tasks.take (n + 1) = tasks.take n ++ [(k, v)] := by
    rw [List.take_succ, hg]; rfl
  simp only [seqState, PoolState.mk.injEq]
  refine ⟨?_, ?_, ?_⟩
  · funext i
    simp only [setAt]
    by_cases hi : i = n
    · simp [hi]
    · by_cases hl : i < n
      · simp [hi, hl, show i < n + 1 by omega]
      · simp [hi, hl, show ¬ i < n + 1 by omega]
  · funext x
    simp only [setAt]
    split <;> rfl
  · funext x
    simp only [setAt, e, seqColl, List.filter_append, List.map_append]
    by_cases hx : x = k
    · subst hx; simp
    · have : ¬ k = x := fun h => hx h.symm
      simp [hx, this]

theorem seqState_run {α : Type} (tasks : List (ObjectType × α)) : ∀ n ≤ tasks.length,
    ∃ m, PoolRun tasks (PoolState.init α) m (seqState tasks n)
  | 0, _ => ⟨0, by
      have : PoolState.init α = seqState tasks 0 := by simp [PoolState.init, seqState, seqColl]; rfl
      rw [this]; exact .refl _⟩
  | n + 1, h => by
    obtain ⟨m, r⟩ := seqState_run tasks n (by omega)
    exact ⟨m + 4, r.trans (seqState_step (by omega))⟩

/-- `update_from_cache` on one thread. -/
def seqPool (c : PackCache) : Res ObjDecodedMap :=
  match decodeAll (c.byHash.map Prod.snd) with
  | .ok tasks => .ok (ObjDecodedMap.default.fill (seqColl tasks))
  | _ => .panic

theorem seqPool_outcome (c : PackCache) : UpdateFromCache ObjDecodedMap.default c (seqPool c) := by
  unfold seqPool
  rcases decodeAll_cases (c.byHash.map Prod.snd) with h | ⟨ts, h⟩
  · rw [h]; exact .panic h
  · rw [h]
    obtain ⟨m, r⟩ := seqState_run ts ts.length (Nat.le_refl _)
    have := UpdateFromCache.ok (self := ObjDecodedMap.default) (cache := c) ts m _ h r (by
      intro i hi; simp [seqState, hi])
    simpa [seqState] using this

/-! ## Strings -/

/-- Lower case, ASCII only. -/
def asciiLower (c : UInt8) : UInt8 := if 65 ≤ c.toNat ∧ c.toNat ≤ 90 then c + 32 else c

/-- A collation that ignores case and NUL bytes. -/
def demoFold (s : Bytes) : Bytes := (s.filter (fun c => c != 0)).map asciiLower

/-- One literal character of a pattern. -/
def likeChar (c : UInt8) (rest : Bytes → Bool) : Bytes → Bool
  | [] => false
  | e :: s => asciiLower c == asciiLower e && rest s

/-- SQL `LIKE`: `%` any text, `_` any character, backslash escapes (`esc`: the previous character was one). -/
def likeMatch : Bytes → Bool → Bytes → Bool
  | [], esc, s => if esc then s == [0x5c] else s == []
  | c :: p, esc, s =>
    if esc then likeChar c (likeMatch p false) s
    else if c = 0x25 then s.tails.any (likeMatch p false)
    else if c = 0x5f then s != [] && likeMatch p false s.tail
    else if c = 0x5c then likeMatch p true s
    else likeChar c (likeMatch p false) s

theorem likeMatch_prefix : ∀ p t : Bytes, (0x5c : UInt8) ∉ p → likeMatch (p ++ [0x25]) false (p ++ t) = true
  | [], t, _ => by
    show likeMatch [0x25] false t = true
    rw [likeMatch, if_neg (by simp), if_pos rfl, List.any_eq_true]
    exact ⟨[], by simp [List.mem_tails], by simp [likeMatch]⟩
  | c :: p, t, h => by
    have ih := likeMatch_prefix p t (by intro h'; exact h (.tail _ h'))
    have hc : c ≠ 0x5c := by rintro rfl; exact h (.head _)
    simp only [List.cons_append]
    rw [likeMatch, if_neg (by simp)]
    split
    · rw [List.any_eq_true]
      exact ⟨p ++ t, by simp [List.mem_tails, List.suffix_cons], ih⟩
    · split
      · simpa using ih
      · simp [ih, hc, likeChar]

/-- MySQL with a case-insensitive collation, rows in the order of insertion, every insert accepted. -/
def demoSql : SqlExt where
  fold := demoFold
  like := fun s p => likeMatch (p ++ [0x25]) false s
  like_prefix := fun p t h => likeMatch_prefix p t h
  order := fun l => l
  order_perm := fun l => .refl l
  acceptNodes := fun _ _ => true
  acceptCommits := fun _ _ => true
  acceptRefs := fun _ _ => true
  acceptUpdate := fun _ _ => true
  pool := seqPool
  pool_outcome := seqPool_outcome

/-- The same, but the newest rows come first. -/
def demoSqlRev : SqlExt := { demoSql with order := fun l => l.reverse, order_perm := fun l => List.reverse_perm l }

/-- No rows. -/
def Db.empty : Db := { nodes := [], commits := [], refs := [], inserts := 0 }

end Gust

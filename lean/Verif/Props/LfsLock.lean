import Verif.Lemmas.LfsLock
import Verif.Spec.Lfs

/-! # LFS locks: C40 to C43, C65, C66 -/

namespace Gust

theorem listed_iff (D : DbExt) (t : LockTable) (r : Bytes) (ls : List Lock) :
    Spec.Listed D t r ls ↔ ls = (t (D.fold r)).getD [] := by
  simp only [Spec.Listed, retrieveLock, Option.getD_none, Option.getD_some, lfsGetFilteredLocks, lfsGetLocks, fromCursor,
    if_pos, Res.bind_ok, onlyPath, cutPage, Reply.ok.injEq, Prod.mk.injEq, and_true, eq_comm]

/-- A database without limits that distinguishes all strings. -/
def demoDb : DbExt := { fold := id, locksFit := fun _ _ => true, metaFits := fun _ _ => true, minTime := ascii "0" }

/-- A database that does not distinguish upper and lower case. -/
def caseDb : DbExt := { demoDb with fold := fun s => s.map (fun c => if 65 ≤ c ∧ c ≤ 90 then c + 32 else c) }

/-! ## C40: at most one lock per path -/

/-- Requests processed one after the other: no listing ever shows two locks with the same path.
(Missing from the full claim: overlapping requests for the same ref, for which it is false, see below.) -/
theorem C40_sequential_partial (D : DbExt) (h : List LockReq) (r : Bytes) (ls : List Lock)
    (hl : Spec.Listed D (runLocks D h) r ls) : (ls.map (·.path)).Nodup := by
  rw [listed_iff] at hl
  subst hl
  suffices ∀ (h : List LockReq) (t : LockTable), (∀ k, (((t k).getD []).map (·.path)).Nodup) →
      ∀ k, ((((h.foldl (LockReq.run D) t) k).getD []).map (·.path)).Nodup from
    this h noLocks (by simp [noLocks]) _
  intro h
  induction h with
  | nil => exact fun t ht => ht
  | cons q h ih =>
    intro t ht
    refine ih _ (run_invariant D (fun l => (l.map (·.path)).Nodup) ?_ ?_ q ?_ t ht)
    · exact fun a b hp ha => (hp.map _).nodup_iff.1 ha
    · exact fun a b hs hb => (hs.map _).nodup hb
    · intro r p i n _ l hnd hfree
      rw [List.map_append, List.nodup_append]
      refine ⟨hnd, by simp, ?_⟩
      simp only [List.mem_map, List.map_cons, List.map_nil, List.mem_singleton, newLock]
      rintro _ ⟨x, hx, rfl⟩ _ rfl
      exact hfree x hx

/-- A creation request for a path that is already locked is answered with a conflict and changes nothing. -/
theorem C40_conflict (D : DbExt) (t : LockTable) (r path id now : Bytes) (ls : List Lock) (l : Lock)
    (hl : Spec.Listed D t r ls) (hm : l ∈ ls) (hp : l.path = path) : createLock D t r path id now = (.status 409, t) := by
  rw [listed_iff] at hl
  subst hl
  rcases createLock_cases D t r path id now with ⟨-, h⟩ | ⟨h, -⟩ | ⟨h, -⟩
  · exact h
  · exact absurd hp (onlyPath_free h l hm)
  · exact absurd hp (onlyPath_free h l hm)

/-- A creation request for a (non-empty) path that is not locked succeeds when the row still fits: exactly this lock is added
to the listing of this ref, and the locks of refs that the database distinguishes from it stay. -/
theorem C40_create (D : DbExt) (t : LockTable) (r path id now : Bytes) (ls : List Lock) (hp : path ≠ [])
    (hl : Spec.Listed D t r ls) (hfree : ∀ l ∈ ls, l.path ≠ path)
    (hfit : ∀ l : List Lock, l.Perm ({ id := id, path := path, lockedAt := now, owner := none } :: ls) → D.locksFit r l = true) :
    ∃ t' ls', createLock D t r path id now = (.ok { id := id, path := path, lockedAt := now, owner := none }, t') ∧
      Spec.Listed D t' r ls' ∧ ls'.Perm ({ id := id, path := path, lockedAt := now, owner := none } :: ls) ∧
      ∀ r', D.fold r' ≠ D.fold r → ∀ x, Spec.Listed D t' r' x ↔ Spec.Listed D t r' x := by
  rw [listed_iff] at hl
  subst hl
  have h0 : onlyPath ((t (D.fold r)).getD []) path = [] := by
    rw [onlyPath_eq_nil, if_neg hp]
    exact hfree
  obtain ⟨t', ht'⟩ := addLock_succeeds D t r [newLock path id now]
    (hfit _ ((sortLocks_perm _).trans (List.perm_append_comm.trans (List.Perm.refl _))))
  rcases createLock_cases D t r path id now with ⟨h, -⟩ | ⟨-, h, -⟩ | ⟨-, t'', h1, h2⟩
  · exact absurd h0 h
  · rw [ht'] at h; cases h
  · obtain ⟨new, rfl, hperm⟩ := addLockWrite_some h1
    refine ⟨_, new, h2, ?_, ?_, ?_⟩
    · rw [listed_iff, setAt_same]; rfl
    · exact hperm.trans (List.perm_append_comm.trans (List.Perm.refl _))
    · intro r' hr' x
      rw [listed_iff, listed_iff, setAt_other _ _ hr']

/-- What is known about the requests in progress when requests for the same ref do not overlap. -/
def TaskOk (D : DbExt) (t : LockTable) : LockTask → Prop
  | .createRead r l => ∃ p i n, l = newLock p i n ∧ onlyPath ((t (D.fold r)).getD []) p = []
  | .createWrite r row l => row = t (D.fold r) ∧ ∃ p i n, l = newLock p i n ∧ onlyPath ((t (D.fold r)).getD []) p = []
  | .deleteWrite r row i _ => row = t (D.fold r) ∧ i ≠ []
  | _ => True

theorem taskOk_congr (D : DbExt) (t t' : LockTable) (a : LockTask) (h : ∀ r, Spec.inFlight a = some r → t' (D.fold r) = t (D.fold r))
    (ha : TaskOk D t a) : TaskOk D t' a := by
  cases a with
  | createRead r l => simp only [TaskOk, h r rfl]; exact ha
  | createWrite r row l => simp only [TaskOk, h r rfl]; exact ha
  | deleteWrite r row i f => simp only [TaskOk, h r rfl]; exact ha
  | _ => trivial

theorem runLocks_snoc (D : DbExt) (h : List LockReq) (q : LockReq) : runLocks D (h ++ [q]) = q.run D (runLocks D h) := by
  simp [runLocks]

/-- One statement of a request that is known to be in order: it keeps what is known about itself, touches only the row of its
own ref, and the table afterwards is that of a sequential history. -/
theorem task_step (D : DbExt) (h : List LockReq) (a : LockTask) (ha : TaskOk D (runLocks D h) a) :
    TaskOk D (a.step D (runLocks D h)).2 (a.step D (runLocks D h)).1 ∧
    (∀ r, Spec.inFlight a = some r → ∀ k, k ≠ D.fold r → (a.step D (runLocks D h)).2 k = runLocks D h k) ∧
    (Spec.inFlight a = none → (a.step D (runLocks D h)).2 = runLocks D h) ∧
    ∃ h', (a.step D (runLocks D h)).2 = runLocks D h' := by
  set t := runLocks D h with ht
  cases a with
  | create r p i n =>
    obtain ⟨next, hf⟩ := filtered_check D t r p
    simp only [LockTask.step, hf]
    split
    · exact ⟨trivial, fun _ _ _ _ => rfl, fun _ => rfl, h, ht⟩
    · rename_i hn
      refine ⟨⟨p, i, n, rfl, ?_⟩, fun _ _ _ _ => rfl, fun _ => rfl, h, ht⟩
      by_contra hc
      exact hn ((take_one_length _).2 hc)
  | createRead r l =>
    exact ⟨⟨rfl, ha⟩, fun _ _ _ _ => rfl, fun _ => rfl, h, ht⟩
  | createWrite r row l =>
    obtain ⟨rfl, p, i, n, rfl, hfree⟩ := ha
    simp only [LockTask.step]
    cases hw : addLockWrite D t r (t (D.fold r)) [newLock p i n] with
    | none => exact ⟨trivial, fun _ _ _ _ => rfl, fun _ => rfl, h, ht⟩
    | some t' =>
      refine ⟨trivial, ?_, fun e => (by cases e), h ++ [.create r p i n], ?_⟩
      · rintro r' hr' k hk
        cases hr'
        obtain ⟨new, rfl, -⟩ := addLockWrite_some hw
        exact setAt_other _ _ hk
      · rw [runLocks_snoc, ← ht, LockReq.run]
        rcases createLock_cases D t r p i n with ⟨hc, -⟩ | ⟨-, hc, -⟩ | ⟨-, t'', hc, hd⟩
        · exact absurd hfree hc
        · rw [lfsAddLock, hw] at hc; cases hc
        · rw [lfsAddLock, hw] at hc
          cases hc
          rw [hd]
  | delete r i f =>
    simp only [LockTask.step]
    split
    · exact ⟨trivial, fun _ _ _ _ => rfl, fun _ => rfl, h, ht⟩
    · rename_i hi
      exact ⟨⟨rfl, hi⟩, fun _ _ _ _ => rfl, fun _ => rfl, h, ht⟩
  | deleteWrite r row i f =>
    obtain ⟨rfl, hi⟩ := ha
    simp only [LockTask.step]
    cases hw : deleteLockWrite D t r (t (D.fold r)) i (f.getD false) with
    | none => exact ⟨trivial, fun _ _ _ _ => rfl, fun _ => rfl, h, ht⟩
    | some x =>
      obtain ⟨l, t'⟩ := x
      refine ⟨trivial, ?_, fun e => (by cases e), h ++ [.delete r i f], ?_⟩
      · rintro r' hr' k hk
        cases hr'
        obtain ⟨-, -, -, -, -, -, hother⟩ := deleteLockWrite_row hw
        exact hother k hk
      · rw [runLocks_snoc, ← ht, LockReq.run, deleteLock, if_neg hi, lfsDeleteLock, hw]
  | done r => exact ⟨trivial, fun _ _ _ _ => rfl, fun _ => rfl, h, ht⟩

/-- What holds at every moment when requests for the same ref do not overlap. -/
def Apart (D : DbExt) (s : LockServer) : Prop :=
  (∃ h, s.table = runLocks D h) ∧ Spec.NoOverlap D s ∧ ∀ a ∈ s.tasks, TaskOk D s.table a

theorem apart_step (D : DbExt) {s s' : LockServer} (ih : Apart D s) (hstep : LockServer.Step D s s') (hno : Spec.NoOverlap D s') : Apart D s' := by
  obtain ⟨⟨h, hh⟩, hno0, hok⟩ := ih
  refine ⟨?_, hno, ?_⟩
  · cases hstep with
    | recvCreate r p i n => exact ⟨h, hh⟩
    | recvDelete r i f => exact ⟨h, hh⟩
    | act k task hk =>
      have := task_step D h task (hh ▸ hok task (List.mem_of_getElem? hk))
      rw [hh]
      exact this.2.2.2
  · cases hstep with
    | recvCreate r p i n =>
      intro a ha
      rcases List.mem_append.1 ha with ha | ha
      · exact hok a ha
      · rw [List.mem_singleton.1 ha]; trivial
    | recvDelete r i f =>
      intro a ha
      rcases List.mem_append.1 ha with ha | ha
      · exact hok a ha
      · rw [List.mem_singleton.1 ha]; trivial
    | act k task hk =>
      have hts := task_step D h task (hh ▸ hok task (List.mem_of_getElem? hk))
      rw [← hh] at hts
      intro a ha
      obtain ⟨j, hj⟩ := List.getElem?_of_mem ha
      rw [List.getElem?_set] at hj
      by_cases hkj : k = j
      · rw [if_pos hkj] at hj
        split at hj
        · cases hj; exact hts.1
        · cases hj
      · rw [if_neg hkj] at hj
        refine taskOk_congr D s.table _ a ?_ (hok a (List.mem_of_getElem? hj))
        intro r hr
        cases hf : Spec.inFlight task with
        | none => rw [hts.2.2.1 hf]
        | some r' =>
          refine hts.2.1 r' hf _ (fun e => hkj ?_)
          exact hno0 k j task a r' r hk hj hf hr e.symm

theorem apart_reach (D : DbExt) (s : LockServer) (hs : Spec.ReachApart D s) : Apart D s := by
  induction hs with
  | init => exact ⟨⟨[], rfl⟩, by intro i j a b r r' h; simp at h, by simp⟩
  | step s s' _ hstep hno ih => exact apart_step D ih hstep hno

/-- When requests for the same ref do not overlap, the table is at every moment one that a sequential history produces:
interleaving requests for different refs does no harm. -/
theorem C40_apart_serial (D : DbExt) (s : LockServer) (hs : Spec.ReachApart D s) : ∃ h, s.table = runLocks D h :=
  (apart_reach D s hs).1

/-- Also then no listing shows two locks with the same path. -/
theorem C40_apart_partial (D : DbExt) (s : LockServer) (hs : Spec.ReachApart D s) (r : Bytes) (ls : List Lock)
    (hl : Spec.Listed D s.table r ls) : (ls.map (·.path)).Nodup := by
  obtain ⟨h, hh⟩ := C40_apart_serial D s hs
  rw [hh] at hl
  exact C40_sequential_partial D h r ls hl

/-- A schedule: which request arrives or acts next. -/
inductive Ev
  | create (r p i n : Bytes)
  | delete (r i : Bytes) (f : Option Bool)
  | act (k : Nat)

/-- The server after a schedule. -/
def sched (D : DbExt) : LockServer → List Ev → LockServer
  | s, [] => s
  | s, .create r p i n :: es => sched D { s with tasks := s.tasks ++ [.create r p i n] } es
  | s, .delete r i f :: es => sched D { s with tasks := s.tasks ++ [.delete r i f] } es
  | s, .act k :: es =>
    match s.tasks[k]? with
    | some task => sched D { table := (task.step D s.table).2, tasks := s.tasks.set k (task.step D s.table).1 } es
    | none => sched D s es

theorem sched_reach (D : DbExt) : ∀ (es : List Ev) (s : LockServer), LockServer.Reach D s → LockServer.Reach D (sched D s es)
  | [], _, hs => hs
  | .create r p i n :: es, s, hs => sched_reach D es _ (.step _ _ hs (.recvCreate s r p i n))
  | .delete r i f :: es, s, hs => sched_reach D es _ (.step _ _ hs (.recvDelete s r i f))
  | .act k :: es, s, hs => by
    rw [sched]
    split
    · rename_i task hk
      exact sched_reach D es _ (.step _ _ hs (.act s k task hk))
    · exact sched_reach D es _ hs

/-- Two creations for the paths `p` and `q`: both check, then the first reads and writes, then the second. -/
def lateRead (p q : Bytes) : List Ev :=
  [.create (ascii "r") p (ascii "01234567") (ascii "t1"), .create (ascii "r") q (ascii "76543210") (ascii "t2"),
    .act 0, .act 1, .act 0, .act 0, .act 1, .act 1]

/-- Overlapping requests: two clients both get the lock for the same path. -/
theorem C40_concurrent_false : ∃ s a b, LockServer.Reach demoDb s ∧ s.tasks = [.done (.ok a), .done (.ok b)] ∧ a ≠ b ∧
    a.path = b.path ∧ Spec.Listed demoDb s.table (ascii "r") [a, b] := by
  refine ⟨sched demoDb { table := noLocks, tasks := [] } (lateRead (ascii "f") (ascii "f")),
    newLock (ascii "f") (ascii "01234567") (ascii "t1"), newLock (ascii "f") (ascii "76543210") (ascii "t2"),
    sched_reach _ _ _ .init, ?_, ?_, rfl, ?_⟩
  · decide +kernel
  · decide +kernel
  · rw [listed_iff]; decide +kernel

/-- A lock is created; the creation of a lock for another path has read the row when the first lock is deleted, and with it the row. -/
def rowGone : List Ev :=
  [.create (ascii "r") (ascii "f") (ascii "01234567") (ascii "t1"), .act 0, .act 0, .act 0, .create (ascii "r") (ascii "g") (ascii "76543210") (ascii "t2"), .act 1, .act 1,
    .delete (ascii "r") (ascii "01234567") none, .act 2, .act 2, .act 1]

/-- Overlapping requests: a lock for a path that nobody has ever locked is refused with status 500 although the database refuses no data, and nothing is locked afterwards. -/
theorem C40_refused_false : ∃ s a, LockServer.Reach demoDb s ∧ s.tasks = [.done (.ok a), .done (.status 500), .done (.ok a)] ∧ a.path ≠ ascii "g" ∧
    Spec.Listed demoDb s.table (ascii "r") [] := by
  refine ⟨sched demoDb { table := noLocks, tasks := [] } rowGone, newLock (ascii "f") (ascii "01234567") (ascii "t1"), sched_reach _ _ _ .init, ?_, ?_, ?_⟩
  · decide +kernel
  · decide +kernel
  · rw [listed_iff]; decide +kernel

/-- Two creations for the paths `f` and `g` of a repository without locks, both having read that there is no row before either writes. -/
def bothRead : List Ev :=
  [.create (ascii "r") (ascii "f") (ascii "01234567") (ascii "t1"), .create (ascii "r") (ascii "g") (ascii "76543210") (ascii "t2"),
    .act 0, .act 1, .act 0, .act 1, .act 0, .act 1]

/-- Overlapping requests: of the first two locks of a repository, for different paths, one is refused with status 500, and only the other is listed. -/
theorem C40_first_false : ∃ s a, LockServer.Reach demoDb s ∧ s.tasks = [.done (.ok a), .done (.status 500)] ∧ a.path ≠ ascii "g" ∧
    Spec.Listed demoDb s.table (ascii "r") [a] := by
  refine ⟨sched demoDb { table := noLocks, tasks := [] } bothRead, newLock (ascii "f") (ascii "01234567") (ascii "t1"), sched_reach _ _ _ .init, ?_, ?_, ?_⟩
  · decide +kernel
  · decide +kernel
  · rw [listed_iff]; decide +kernel

/-- Two locks on different paths, the second creation for the first path refused. -/
example : ∃ ls, Spec.Listed demoDb (runLocks demoDb [.create (ascii "r") (ascii "f") (ascii "01234567") (ascii "t1"),
    .create (ascii "r") (ascii "g") (ascii "11234567") (ascii "t2"),
    .create (ascii "r") (ascii "f") (ascii "21234567") (ascii "t3")]) (ascii "r") ls ∧
    ls.map (·.path) = [ascii "f", ascii "g"] := by
  refine ⟨_, (listed_iff _ _ _ _).2 rfl, ?_⟩
  decide +kernel

/-! ## C41: paging -/

theorem paged_shown (D : DbExt) (t : LockTable) (r : Bytes) (limit : Option Int) (n : Nat)
    (hn : (if limit.getD 0 = 0 then 100 else limit.getD 0) = (n : Int)) (hn2 : n < 2 ^ 63)
    (hids : (((t (D.fold r)).getD []).map (·.id)).Nodup) (hne : ∀ l ∈ (t (D.fold r)).getD [], l.id ≠ []) (hpos : 0 < n) :
    ∀ (m : Nat) (pre rest : List Lock) (c : Option Bytes), rest.length = m → pre ++ rest = (t (D.fold r)).getD [] →
      fromCursor ((t (D.fold r)).getD []) (c.getD []) = .ok rest →
      (∃ seen, Spec.Paged (fun c => verifyLock D t r c limit) c seen) ∧
      ∀ seen, Spec.Paged (fun c => verifyLock D t r c limit) c seen → seen.Perm (shown n rest) := by
  intro m
  induction m using Nat.strongRecOn with
  | _ m ih =>
    intro pre rest c hm hsplit hc
    obtain ⟨v, hv, hperm, hnext⟩ := verify_page D t r c limit n hn hn2 rest hc
    by_cases hlast : n + 1 < rest.length
    · rw [if_pos hlast] at hnext
      obtain ⟨x, hx⟩ : ∃ x, rest[n]? = some x := ⟨rest[n], List.getElem?_eq_getElem (by omega)⟩
      have hdrop : rest.drop n = x :: rest.drop (n + 1) := by
        obtain ⟨hlt, rfl⟩ := List.getElem?_eq_some_iff.1 hx
        rw [List.drop_eq_getElem_cons hlt]
      have hall : (pre ++ rest.take n) ++ x :: rest.drop (n + 1) = (t (D.fold r)).getD [] := by
        rw [List.append_assoc, ← hdrop, List.take_append_drop, hsplit]
      rw [hx] at hnext
      simp only [Option.map_some, Option.getD_some] at hnext
      have hxid : x.id ≠ [] := hne x (hall ▸ by simp)
      have hc' : fromCursor ((t (D.fold r)).getD []) ((some v.next).getD []) = .ok (rest.drop n) := by
        rw [Option.getD_some, hnext, hdrop, ← hall]
        apply fromCursor_split _ _ _ hxid
        intro y hy e
        rw [← hall, List.map_append, List.nodup_append] at hids
        exact hids.2.2 y.id (List.mem_map_of_mem hy) x.id (by simp) e
      have hrec := ih (rest.drop n).length (by rw [List.length_drop]; omega) (pre ++ rest.take n) (rest.drop n) (some v.next) rfl
        (by rw [List.append_assoc, List.take_append_drop, hsplit]) hc'
      constructor
      · obtain ⟨seen, hs⟩ := hrec.1
        exact ⟨_, .more c v seen hv (hnext ▸ hxid) hs⟩
      · intro seen hs
        cases hs with
        | last _ v' hv' hnil =>
          rw [hv] at hv'
          cases hv'
          exact absurd hnil (hnext ▸ hxid)
        | more _ v' rest' hv' _ hs' =>
          rw [hv] at hv'
          cases hv'
          rw [shown_more hpos hlast]
          exact hperm.append (hrec.2 _ hs')
    · rw [if_neg hlast] at hnext
      constructor
      · exact ⟨_, .last c v hv hnext⟩
      · intro seen hs
        cases hs with
        | last _ v' hv' _ =>
          rw [hv] at hv'
          cases hv'
          rw [shown_last hpos hlast]
          exact hperm
        | more _ v' rest' hv' hne' _ =>
          rw [hv] at hv'
          cases hv'
          exact absurd hnext hne'

/-- Exactly what a client sees that pages through the locks of a ref (`limit` absent or 0 means 100): everything once, except
that the last lock is never shown when the number of the other locks is a positive multiple of the limit.
(Missing from the full claim: these cases, for which it is false.) -/
theorem C41_paging_partial (D : DbExt) (t : LockTable) (r : Bytes) (limit : Option Int) (n : Nat) (ls : List Lock)
    (hn : n = (if limit.getD 0 = 0 then 100 else limit.getD 0)) (hpos : 0 < n) (hmax : n < 2 ^ 63)
    (hl : Spec.Listed D t r ls) (hids : (ls.map (·.id)).Nodup) (hne : ∀ l ∈ ls, l.id ≠ []) :
    (∃ seen, Spec.Paged (fun c => verifyLock D t r c limit) none seen) ∧
    ∀ seen, Spec.Paged (fun c => verifyLock D t r c limit) none seen →
      seen.Perm (if n < ls.length ∧ (ls.length - 1) % n = 0 then ls.dropLast else ls) := by
  rw [listed_iff] at hl
  subst hl
  exact paged_shown D t r limit n hn.symm hmax hids hne hpos _ [] _ none rfl rfl (by simp [fromCursor])

/-- A negative limit panics. -/
theorem C41_negative_limit (D : DbExt) (t : LockTable) (r : Bytes) (n : Int) (h1 : -(2 ^ 63) ≤ n) (h2 : n < 0) :
    verifyLock D t r none (some n) = .panic := by
  simp only [verifyLock, lfsGetFilteredLocks, lfsGetLocks, Option.getD_some, Option.getD_none, fromCursor, if_true, Res.bind_ok,
    if_neg (show n ≠ 0 by omega), cutPage_neg _ n h1 h2]

/-- Three locks. -/
def threeLocks : List LockReq :=
  [.create (ascii "r") (ascii "f") (ascii "01234567") (ascii "t1"),
    .create (ascii "r") (ascii "g") (ascii "11234567") (ascii "t2"),
    .create (ascii "r") (ascii "h") (ascii "21234567") (ascii "t3")]

theorem threeLocks_listed : Spec.Listed demoDb (runLocks demoDb threeLocks) (ascii "r")
    [newLock (ascii "f") (ascii "01234567") (ascii "t1"), newLock (ascii "g") (ascii "11234567") (ascii "t2"),
      newLock (ascii "h") (ascii "21234567") (ascii "t3")] := by
  rw [listed_iff]; decide +kernel

/-- Three locks, pages of two: the third lock is never shown. -/
theorem C41_paging_false : ∃ h ls l, Spec.Listed demoDb (runLocks demoDb h) (ascii "r") ls ∧ l ∈ ls ∧
    ∀ seen, Spec.Paged (fun c => verifyLock demoDb (runLocks demoDb h) (ascii "r") c (some 2)) none seen → l ∉ seen := by
  refine ⟨threeLocks, _, newLock (ascii "h") (ascii "21234567") (ascii "t3"), threeLocks_listed, by simp, ?_⟩
  intro seen hs
  have := (C41_paging_partial demoDb _ (ascii "r") (some 2) 2 _ (by simp) (by omega) (by omega) threeLocks_listed
    (by decide +kernel) (by decide +kernel)).2 seen hs
  rw [this.mem_iff]
  decide +kernel

/-- Pages of one lock each, and all but the last are seen; pages of three show everything. -/
example : (∀ seen, Spec.Paged (fun c => verifyLock demoDb (runLocks demoDb threeLocks) (ascii "r") c (some 1)) none seen →
      seen.length = 2) ∧
    (∀ seen, Spec.Paged (fun c => verifyLock demoDb (runLocks demoDb threeLocks) (ascii "r") c (some 3)) none seen →
      seen.length = 3) := by
  constructor
  · intro seen hs
    rw [((C41_paging_partial demoDb _ (ascii "r") (some 1) 1 _ (by simp) (by omega) (by omega) threeLocks_listed
      (by decide +kernel) (by decide +kernel)).2 seen hs).length_eq]
    decide +kernel
  · intro seen hs
    rw [((C41_paging_partial demoDb _ (ascii "r") (some 3) 3 _ (by simp) (by omega) (by omega) threeLocks_listed
      (by decide +kernel) (by decide +kernel)).2 seen hs).length_eq]
    decide +kernel

/-! ## C42: deleting -/

/-- A request to delete either fails and changes nothing, or returns a listed lock with the given id; then the locks of the
ref that remain are those with another (non-empty) id, in the same order, and refs that the database distinguishes from this
one keep their locks. -/
theorem C42_delete (D : DbExt) (t : LockTable) (r id : Bytes) (force : Option Bool) (ls : List Lock)
    (hl : Spec.Listed D t r ls) :
    (∃ c, deleteLock D t r id force = (.status c, t)) ∨
    ∃ l t', deleteLock D t r id force = (.ok l, t') ∧ l ∈ ls ∧ l.id = id ∧
      Spec.Listed D t' r (ls.filter (fun x => decide (x.id ≠ id ∧ x.id ≠ []))) ∧
      ∀ r', D.fold r' ≠ D.fold r → ∀ x, Spec.Listed D t' r' x ↔ Spec.Listed D t r' x := by
  rw [listed_iff] at hl
  subst hl
  rcases deleteLock_cases D t r id force with h | ⟨l, t', hd, h⟩
  · exact .inl h
  · obtain ⟨old, hrow, -, hmem, hid, hk, hother⟩ := deleteLockWrite_row hd
    refine .inr ⟨l, t', h, by rw [hrow]; exact hmem, hid, ?_, ?_⟩
    · rw [listed_iff, hk, hrow, Option.getD_some]
      apply List.filter_congr
      intro x _
      rw [Bool.eq_iff_iff]
      simp [List.length_pos_iff]
    · intro r' hr' x
      rw [listed_iff, listed_iff, hother _ hr']

/-- An id that is not listed: an error, and nothing changes. -/
theorem C42_unknown_id (D : DbExt) (t : LockTable) (r id : Bytes) (force : Option Bool) (ls : List Lock)
    (hl : Spec.Listed D t r ls) (hid : ∀ l ∈ ls, l.id ≠ id) : ∃ c, deleteLock D t r id force = (.status c, t) := by
  rcases C42_delete D t r id force ls hl with h | ⟨l, t', -, hm, he, -⟩
  · exact h
  · exact absurd he (hid l hm)

/-- A listed id: the deletion succeeds when no lock with this id has an owner (or `force` is given) and the shorter row fits. -/
theorem C42_known_id (D : DbExt) (t : LockTable) (r id : Bytes) (force : Option Bool) (ls : List Lock)
    (hl : Spec.Listed D t r ls) (l : Lock) (hm : l ∈ ls) (hid : l.id = id) (hne : id ≠ [])
    (how : force = some true ∨ ∀ x ∈ ls, x.id = id → x.owner = none)
    (hfit : ∀ x : List Lock, x.Sublist ls → x.length < ls.length → D.locksFit r x = true) :
    ∃ l' t', deleteLock D t r id force = (.ok l', t') := by
  rw [listed_iff] at hl
  obtain ⟨old, hrow⟩ : ∃ old, t (D.fold r) = some old := by
    cases h : t (D.fold r) with
    | none => rw [h] at hl; subst hl; cases hm
    | some old => exact ⟨old, rfl⟩
  rw [hrow, Option.getD_some] at hl
  subst hl
  have hany : ls.any (fun x => x.id == id && (x.owner.isSome && !(force.getD false))) = false := by
    rw [List.any_eq_false]
    intro x hx
    rcases how with rfl | how
    · simp
    · intro h
      simp only [Bool.and_eq_true, beq_iff_eq] at h
      rw [how x hx h.1] at h
      simp at h
  obtain ⟨d, hd⟩ : ∃ d, (ls.filter (fun x => x.id == id)).getLast? = some d := by
    cases h : (ls.filter (fun x => x.id == id)).getLast? with
    | some d => exact ⟨d, rfl⟩
    | none =>
      rw [List.getLast?_eq_none_iff, List.filter_eq_nil_iff] at h
      exact absurd (by simpa using hid) (h l hm)
  have hdid : d.id = id := by
    have := (List.mem_filter.1 (List.mem_of_getLast? hd)).2
    simpa using this
  have hdel : ∃ t', lfsDeleteLock D t r id (force.getD false) = some (d, t') := by
    unfold lfsDeleteLock deleteLockWrite
    rw [hrow]
    simp only
    rw [deleteScan_eq, hany]
    simp only [Bool.false_eq_true, if_false, hd, Option.getD_some, List.nil_append]
    rw [if_neg (hdid ▸ hne)]
    split
    · exact ⟨_, rfl⟩
    · have hlt : (ls.filter (fun x => x.id != id && decide (0 < x.id.length))).length < ls.length := by
        apply List.length_filter_lt_length_iff_exists.2
        exact ⟨l, hm, by simp [hid]⟩
      simp [updateRow, hrow, hfit _ List.filter_sublist hlt]
  obtain ⟨t', ht'⟩ := hdel
  refine ⟨d, t', ?_⟩
  rw [deleteLock, if_neg hne, ht']
  simp only [deleteReply_ok D d (hdid ▸ hne)]

theorem drawnIds_snoc (h : List LockReq) (q : LockReq) : Spec.drawnIds (h ++ [q]) = Spec.drawnIds h ++ Spec.drawnIds [q] := by
  simp only [Spec.drawnIds, List.filterMap_append]

/-- In a history whose random ids are all different, the listed ids are different and were drawn. -/
theorem ids_distinct (D : DbExt) (h : List LockReq) (hd : (Spec.drawnIds h).Nodup) (k : Bytes) :
    (((runLocks D h k).getD []).map (·.id)).Nodup ∧ ∀ l ∈ (runLocks D h k).getD [], l.id ∈ Spec.drawnIds h := by
  induction h using List.reverseRecOn generalizing k with
  | nil => simp [runLocks, noLocks]
  | append_singleton h q ih =>
    rw [drawnIds_snoc, List.nodup_append] at hd
    have ih := ih hd.1
    rw [runLocks_snoc]
    refine run_relation D (fun l => (l.map (·.id)).Nodup ∧ ∀ x ∈ l, x.id ∈ Spec.drawnIds h)
      (fun l => (l.map (·.id)).Nodup ∧ ∀ x ∈ l, x.id ∈ Spec.drawnIds (h ++ [q])) ?_ ?_ q ?_ (runLocks D h) ih k
    · intro a ha
      exact ⟨ha.1, fun x hx => by rw [drawnIds_snoc]; exact List.mem_append_left _ (ha.2 x hx)⟩
    · intro a b hs hb
      exact ⟨(hs.map _).nodup hb.1, fun x hx => by rw [drawnIds_snoc]; exact List.mem_append_left _ (hb.2 x (hs.mem hx))⟩
    · rintro r p i n rfl l new hP - hperm -
      have hi : Spec.drawnIds [LockReq.create r p i n] = [i] := rfl
      rw [hi] at hd
      refine ⟨(hperm.map _).nodup_iff.2 ?_, ?_⟩
      · rw [List.map_append, List.nodup_append]
        refine ⟨hP.1, by simp, ?_⟩
        simp only [List.mem_map, List.map_cons, List.map_nil, List.mem_singleton, newLock]
        rintro _ ⟨x, hx, rfl⟩ _ rfl e
        exact hd.2.2 _ (hP.2 x hx) _ (List.mem_singleton.2 rfl) e
      · intro x hx
        rw [drawnIds_snoc, hi]
        rcases List.mem_append.1 (hperm.mem_iff.1 hx) with hx | hx
        · exact List.mem_append_left _ (hP.2 x hx)
        · rw [List.mem_singleton.1 hx]
          exact List.mem_append_right _ (by simp [newLock])

/-- After any history in which the random ids were all different and not empty, a successful deletion removes exactly the lock
with the given id and returns it. (Missing from the full claim: equal ids, for which it is false; and refs that differ but are
equal for the database.) -/
theorem C42_exact_partial (D : DbExt) (h : List LockReq) (hd : (Spec.drawnIds h).Nodup) (hne : [] ∉ Spec.drawnIds h)
    (r id : Bytes) (force : Option Bool) (ls : List Lock) (hl : Spec.Listed D (runLocks D h) r ls) (l : Lock) (t' : LockTable)
    (hok : deleteLock D (runLocks D h) r id force = (.ok l, t')) :
    l ∈ ls ∧ l.id = id ∧ Spec.Listed D t' r (ls.erase l) ∧
      ∀ r', D.fold r' ≠ D.fold r → ∀ x, Spec.Listed D t' r' x ↔ Spec.Listed D (runLocks D h) r' x := by
  rcases C42_delete D (runLocks D h) r id force ls hl with ⟨c, hc⟩ | ⟨l', t'', hc, hm, hid, hlist, hother⟩
  · rw [hok] at hc; cases hc
  · rw [hok] at hc
    cases hc
    refine ⟨hm, hid, ?_, hother⟩
    have hi := ids_distinct D h hd (D.fold r)
    rw [listed_iff] at hl
    rw [← hl] at hi
    have hnd : ls.Nodup := List.Nodup.of_map _ hi.1
    rw [hnd.erase_eq_filter]
    convert hlist using 1
    apply List.filter_congr
    intro x hx
    rw [Bool.eq_iff_iff]
    have hxne : x.id ≠ [] := fun e => hne (e ▸ hi.2 x hx)
    simp only [bne_iff_ne, decide_eq_true_eq]
    constructor
    · intro hxl
      refine ⟨fun e => hxl ?_, hxne⟩
      exact List.inj_on_of_nodup_map hi.1 hx hm (e.trans hid.symm)
    · rintro ⟨h1, -⟩ rfl
      exact h1 hid

/-- Two creations draw the same id. -/
def sameId : List LockReq :=
  [.create (ascii "r") (ascii "f") (ascii "01234567") (ascii "t1"),
    .create (ascii "r") (ascii "g") (ascii "01234567") (ascii "t2"),
    .create (ascii "r") (ascii "h") (ascii "21234567") (ascii "t3")]

/-- The ids are random numbers of eight digits and are not compared with those in use. When the same id is drawn twice, one
request deletes two locks. -/
theorem C42_same_id_false : ∃ h r id ls l t', Spec.Listed demoDb (runLocks demoDb h) r ls ∧
    deleteLock demoDb (runLocks demoDb h) r id none = (.ok l, t') ∧ ls.length = 3 ∧
    ∃ ls', Spec.Listed demoDb t' r ls' ∧ ls'.length = 1 := by
  refine ⟨sameId, ascii "r", ascii "01234567", _, newLock (ascii "g") (ascii "01234567") (ascii "t2"),
    (deleteLock demoDb (runLocks demoDb sameId) (ascii "r") (ascii "01234567") none).2, (listed_iff _ _ _ _).2 rfl,
    Prod.ext ?_ rfl, ?_, _, (listed_iff _ _ _ _).2 rfl, ?_⟩
  · decide +kernel
  · decide +kernel
  · decide +kernel

/-- Refs whose names differ only in case have the same locks under the collation of the schema: deleting a lock through one
ref removes it from the other. -/
theorem C42_other_ref_false : ∃ h ls t' l, Spec.Listed caseDb (runLocks caseDb h) (ascii "main") ls ∧ ls ≠ [] ∧
    deleteLock caseDb (runLocks caseDb h) (ascii "Main") (ascii "01234567") none = (.ok l, t') ∧
    Spec.Listed caseDb t' (ascii "main") [] := by
  refine ⟨[.create (ascii "main") (ascii "f") (ascii "01234567") (ascii "t1")], _,
    (deleteLock caseDb (runLocks caseDb [.create (ascii "main") (ascii "f") (ascii "01234567") (ascii "t1")]) (ascii "Main")
      (ascii "01234567") none).2, newLock (ascii "f") (ascii "01234567") (ascii "t1"), (listed_iff _ _ _ _).2 rfl, ?_,
    Prod.ext ?_ rfl, ?_⟩
  · decide +kernel
  · decide +kernel
  · rw [listed_iff]; decide +kernel

/-- Two locks; then the deletion of the second and the creation of another lock both read the row before either writes. -/
def lockReturns : List Ev :=
  [.create (ascii "r") (ascii "e") (ascii "00000000") (ascii "t0"), .act 0, .act 0, .act 0,
    .create (ascii "r") (ascii "f") (ascii "01234567") (ascii "t1"), .act 1, .act 1, .act 1,
    .delete (ascii "r") (ascii "01234567") none, .create (ascii "r") (ascii "g") (ascii "76543210") (ascii "t2"),
    .act 3, .act 3, .act 2, .act 2, .act 3]

/-- Overlapping requests: the deletion of a lock is acknowledged, all requests are answered, and the lock is listed again. -/
theorem C42_overlapping_false : ∃ s a b c, LockServer.Reach demoDb s ∧
    s.tasks = [.done (.ok a), .done (.ok b), .done (.ok b), .done (.ok c)] ∧ Spec.Listed demoDb s.table (ascii "r") [a, b, c] := by
  refine ⟨sched demoDb { table := noLocks, tasks := [] } lockReturns, newLock (ascii "e") (ascii "00000000") (ascii "t0"),
    newLock (ascii "f") (ascii "01234567") (ascii "t1"), newLock (ascii "g") (ascii "76543210") (ascii "t2"), sched_reach _ _ _ .init, ?_, ?_⟩
  · decide +kernel
  · rw [listed_iff]; decide +kernel

/-- Deleting the second of three locks. -/
example : ∃ l t', deleteLock demoDb (runLocks demoDb threeLocks) (ascii "r") (ascii "11234567") none = (.ok l, t') ∧
    l.path = ascii "g" ∧ ∃ ls, Spec.Listed demoDb t' (ascii "r") ls ∧ ls.map (·.path) = [ascii "f", ascii "h"] := by
  refine ⟨newLock (ascii "g") (ascii "11234567") (ascii "t2"),
    (deleteLock demoDb (runLocks demoDb threeLocks) (ascii "r") (ascii "11234567") none).2, Prod.ext ?_ rfl, rfl, _,
    (listed_iff _ _ _ _).2 rfl, ?_⟩
  · decide +kernel
  · decide +kernel

/-! ## C43: the listing endpoint -/

/-- Without a `path` parameter the endpoint returns all locks of the ref and no cursor, whatever `cursor` and `limit` say.
(Missing from the full claim: `cursor` and `limit` are ignored, and a `path` makes the request fail.) -/
theorem C43_no_path_partial (D : DbExt) (t : LockTable) (r : Bytes) (id cursor limit : Option Bytes) :
    retrieveLock D t { path := none, id := id, cursor := cursor, limit := limit, refspec := some r } =
      .ok ((t (D.fold r)).getD [], []) := by
  simp [retrieveLock, lfsGetFilteredLocks, lfsGetLocks, fromCursor, onlyPath, cutPage]

/-- A request with a non-empty `path` succeeds only if the path is the id of a listed lock and a decimal number. -/
theorem C43_path_is_id (D : DbExt) (t : LockTable) (r p : Bytes) (id cursor limit : Option Bytes) (hp : p ≠ [])
    (ls : List Lock) (hl : Spec.Listed D t r ls) (x : List Lock × Bytes)
    (hok : retrieveLock D t { path := some p, id := id, cursor := cursor, limit := limit, refspec := some r } = .ok x) :
    (∃ l ∈ ls, l.id = p) ∧ (parseI64 p).isSome := by
  rw [listed_iff] at hl
  subst hl
  simp only [retrieveLock, Option.getD_some, lfsGetFilteredLocks, lfsGetLocks, fromCursor, if_neg hp] at hok
  cases hf : List.findIdx? (fun l : Lock => l.id == p) ((t (D.fold r)).getD []) with
  | none => rw [hf] at hok; simp at hok
  | some i =>
    rw [hf] at hok
    simp only [Res.bind_ok, cutPage, if_neg hp] at hok
    constructor
    · rw [List.findIdx?_eq_some_iff_getElem] at hf
      obtain ⟨hi, h1, -⟩ := hf
      exact ⟨_, List.getElem_mem hi, by simpa using h1⟩
    · cases hpar : parseI64 p with
      | none => rw [hpar] at hok; simp at hok
      | some n => rfl

/-- A path that is no lock id: the answer is 500. -/
theorem C43_path_fails (D : DbExt) (t : LockTable) (r p : Bytes) (id cursor limit : Option Bytes) (hp : p ≠ [])
    (ls : List Lock) (hl : Spec.Listed D t r ls) (hid : ∀ l ∈ ls, l.id ≠ p) :
    retrieveLock D t { path := some p, id := id, cursor := cursor, limit := limit, refspec := some r } = .status 500 := by
  rw [listed_iff] at hl
  subst hl
  have : List.findIdx? (fun l : Lock => l.id == p) ((t (D.fold r)).getD []) = none := by
    rw [List.findIdx?_eq_none_iff]
    intro x hx
    simpa using hid x hx
  simp only [retrieveLock, Option.getD_some, lfsGetFilteredLocks, lfsGetLocks, fromCursor, if_neg hp, this, Res.bind_err]

/-- The path `f` is locked, but asking for the locks with this path fails. -/
theorem C43_path_false : ∃ h l ls, Spec.Listed demoDb (runLocks demoDb h) (ascii "r") ls ∧ l ∈ ls ∧ l.path = ascii "f" ∧
    retrieveLock demoDb (runLocks demoDb h) { path := some (ascii "f"), refspec := some (ascii "r") } = .status 500 := by
  refine ⟨threeLocks, newLock (ascii "f") (ascii "01234567") (ascii "t1"), _, threeLocks_listed, by simp, rfl, ?_⟩
  exact C43_path_fails _ _ _ _ _ _ _ (by decide +kernel) _ threeLocks_listed (by decide +kernel)

/-- A limit of 1 is ignored. -/
theorem C43_limit_false : ∃ h ls next, retrieveLock demoDb (runLocks demoDb h)
    { limit := some (ascii "1"), refspec := some (ascii "r") } = .ok (ls, next) ∧ 1 < ls.length :=
  ⟨threeLocks, _, _, (C43_no_path_partial _ _ _ _ _ _), by decide +kernel⟩

/-- Without a path the three locks are listed. -/
example : ∃ ls, retrieveLock demoDb (runLocks demoDb threeLocks) { refspec := some (ascii "r") } = .ok (ls, []) ∧
    ls.map (·.path) = [ascii "f", ascii "g", ascii "h"] :=
  ⟨_, C43_no_path_partial _ _ _ _ _ _, by decide +kernel⟩

/-! ## C65: an acknowledged lock stays -/

/-- Requests processed one after the other: a lock whose creation was acknowledged is listed as long as its id is not deleted
through a ref that is the same for the database. (Missing from the full claim: overlapping requests, for which it is false.) -/
theorem C65_lock_stays_partial (D : DbExt) (h1 h2 : List LockReq) (r p i n : Bytes) (l : Lock) (t' : LockTable) (hi : i ≠ [])
    (hok : createLock D (runLocks D h1) r p i n = (.ok l, t'))
    (hdel : ∀ r' f, LockReq.delete r' i f ∈ h2 → D.fold r' ≠ D.fold r) (ls : List Lock)
    (hl : Spec.Listed D (runLocks D (h1 ++ [.create r p i n] ++ h2)) r ls) :
    l ∈ ls ∧ l.path = p := by
  rw [listed_iff] at hl
  subst hl
  rcases createLock_cases D (runLocks D h1) r p i n with ⟨-, h⟩ | ⟨-, -, h⟩ | ⟨-, t'', ha, h⟩
  · rw [hok] at h; cases h
  · rw [hok] at h; cases h
  · rw [hok] at h
    cases h
    refine ⟨?_, rfl⟩
    have h0 : newLock p i n ∈ (runLocks D (h1 ++ [.create r p i n]) (D.fold r)).getD [] := by
      rw [runLocks_snoc, LockReq.run, hok]
      obtain ⟨new, rfl, hp⟩ := addLockWrite_some ha
      simp only [setAt_same, Option.getD_some]
      exact hp.mem_iff.2 (by simp)
    clear hok ha
    induction h2 using List.reverseRecOn with
    | nil => simpa using h0
    | append_singleton h2 q ih =>
      have ih := ih (fun r' f hm => hdel r' f (List.mem_append_left _ hm))
      rw [← List.append_assoc, runLocks_snoc]
      set t := runLocks D (h1 ++ [LockReq.create r p i n] ++ h2)
      cases q with
      | create r' p' i' n' =>
        simp only [LockReq.run]
        rcases createLock_cases D t r' p' i' n' with ⟨-, h⟩ | ⟨-, -, h⟩ | ⟨-, t'', ha, h⟩
        · rw [h]; exact ih
        · rw [h]; exact ih
        · rw [h]
          obtain ⟨new, rfl, hp⟩ := addLockWrite_some ha
          simp only [setAt_eq]
          split
          · rename_i he
            rw [Option.getD_some, hp.mem_iff]
            exact List.mem_append_left _ (he ▸ ih)
          · exact ih
      | delete r' i' f =>
        simp only [LockReq.run]
        rcases deleteLock_cases D t r' i' f with ⟨c, h⟩ | ⟨x, t'', hd, h⟩
        · rw [h]; exact ih
        · rw [h]
          obtain ⟨old, hrow, -, -, hx, hk, hother⟩ := deleteLockWrite_row hd
          show newLock p i n ∈ (t'' (D.fold r)).getD []
          by_cases he : D.fold r = D.fold r'
          · rw [he, hk, List.mem_filter]
            rw [he, hrow] at ih
            refine ⟨ih, ?_⟩
            have hne : i ≠ i' := by
              rintro rfl
              exact hdel r' f (by simp) he.symm
            have : (newLock p i n).id = i := rfl
            simp [this, hne, List.length_pos_iff, hi]
          · rw [hother _ he]; exact ih
      | list q => exact ih
      | verify a b c => exact ih

/-- No deletion of the lock `i` through a ref that is the same for the database is waiting or under way. -/
def Spec.NotDeleting (D : DbExt) (r i : Bytes) (s : LockServer) : Prop :=
  ∀ a ∈ s.tasks, (∀ r' f, a = .delete r' i f → D.fold r' ≠ D.fold r) ∧ ∀ r' row f, a = .deleteWrite r' row i f → D.fold r' ≠ D.fold r

/-- What happens while requests for the same ref do not overlap and nobody deletes the lock `i`. -/
inductive Spec.QuietRun (D : DbExt) (r i : Bytes) : LockServer → LockServer → Prop
  | refl (s : LockServer) : Spec.QuietRun D r i s s
  | step (s t u : LockServer) : Spec.QuietRun D r i s t → LockServer.Step D t u → Spec.NoOverlap D u → Spec.NotDeleting D r i u → Spec.QuietRun D r i s u

/-- How far the creation is. -/
def Creating (D : DbExt) (t : LockTable) (r p i n : Bytes) : LockTask → Prop
  | .create r' p' i' n' => r' = r ∧ p' = p ∧ i' = i ∧ n' = n
  | .createRead r' l => r' = r ∧ l = newLock p i n
  | .createWrite r' _ l => r' = r ∧ l = newLock p i n
  | .done (.ok l) => l = newLock p i n ∧ l ∈ (t (D.fold r)).getD []
  | .done _ => True
  | _ => False

/-- A statement of any request does not remove a lock nobody deletes. -/
theorem lock_kept (D : DbExt) {t : LockTable} {a : LockTask} (ha : TaskOk D t a) {r : Bytes} {l : Lock} (hl : l ∈ (t (D.fold r)).getD []) (hi : l.id ≠ [])
    (hd : ∀ r' row f, a = .deleteWrite r' row l.id f → D.fold r' ≠ D.fold r) : l ∈ ((a.step D t).2 (D.fold r)).getD [] := by
  cases a with
  | create r' p i n =>
    obtain ⟨next, hf⟩ := filtered_check D t r' p
    simp only [LockTask.step, hf]
    split <;> exact hl
  | createRead r' x => exact hl
  | createWrite r' row x =>
    obtain ⟨rfl, -⟩ := ha
    simp only [LockTask.step]
    cases hw : addLockWrite D t r' (t (D.fold r')) [x] with
    | none => exact hl
    | some t' =>
      obtain ⟨new, rfl, hp⟩ := addLockWrite_some hw
      simp only [setAt_eq]
      split
      · rename_i he
        rw [Option.getD_some, hp.mem_iff]
        exact List.mem_append_left _ (he ▸ hl)
      · exact hl
  | delete r' i f =>
    simp only [LockTask.step]
    split <;> exact hl
  | deleteWrite r' row i f =>
    obtain ⟨rfl, hne⟩ := ha
    simp only [LockTask.step]
    cases hw : deleteLockWrite D t r' (t (D.fold r')) i (f.getD false) with
    | none => exact hl
    | some x =>
      obtain ⟨y, t''⟩ := x
      obtain ⟨old, hrow, -, -, hx, hk, hother⟩ := deleteLockWrite_row hw
      show l ∈ (t'' (D.fold r)).getD []
      by_cases he : D.fold r = D.fold r'
      · rw [he, hk, List.mem_filter]
        rw [he, hrow] at hl
        refine ⟨hl, ?_⟩
        have hne : l.id ≠ i := by
          rintro rfl
          exact hd r' _ f rfl he.symm
        simp [hne, List.length_pos_iff, hi]
      · rw [hother _ he]; exact hl
  | done x => exact hl

theorem creating_own (D : DbExt) {t : LockTable} {a : LockTask} (ha : TaskOk D t a) {r p i n : Bytes} (hc : Creating D t r p i n a) :
    Creating D (a.step D t).2 r p i n (a.step D t).1 := by
  cases a with
  | create r' p' i' n' =>
    obtain ⟨rfl, rfl, rfl, rfl⟩ := hc
    obtain ⟨next, hf⟩ := filtered_check D t r' p'
    simp only [LockTask.step, hf]
    split
    · trivial
    · exact ⟨rfl, rfl⟩
  | createRead r' l => exact hc
  | createWrite r' row l =>
    obtain ⟨rfl, rfl⟩ := hc
    simp only [LockTask.step]
    cases hw : addLockWrite D t r' row [newLock p i n] with
    | none => trivial
    | some t' =>
      obtain ⟨new, rfl, hp⟩ := addLockWrite_some hw
      refine ⟨rfl, ?_⟩
      simp only [setAt_same, Option.getD_some]
      exact hp.mem_iff.2 (by simp)
  | delete r' i' f => exact hc.elim
  | deleteWrite r' row i' f => exact hc.elim
  | done x => exact hc

theorem creating_mono (D : DbExt) {t t' : LockTable} {r p i n : Bytes} (h : newLock p i n ∈ (t (D.fold r)).getD [] → newLock p i n ∈ (t' (D.fold r)).getD [])
    {a : LockTask} (hc : Creating D t r p i n a) : Creating D t' r p i n a := by
  cases a with
  | done x =>
    cases x with
    | ok l =>
      obtain ⟨rfl, hl⟩ := hc
      exact ⟨rfl, h hl⟩
    | _ => trivial
  | _ => exact hc

/-- **C65 (partial)** Requests for the same ref do not overlap, other requests do as they like: a creation arrives; when it has been answered with success, its lock is listed
at every later moment, as long as the deletion of its id has not been requested. (Missing: overlapping requests for the same ref, see `C65_concurrent_false`.) -/
theorem C65_apart_partial (D : DbExt) (s : LockServer) (r p i n : Bytes) (hs : Spec.ReachApart D { s with tasks := s.tasks ++ [.create r p i n] }) (hi : i ≠ [])
    (hd : Spec.NotDeleting D r i s) (s' : LockServer) (hr : Spec.QuietRun D r i { s with tasks := s.tasks ++ [.create r p i n] } s') (l : Lock)
    (hok : s'.tasks[s.tasks.length]? = some (.done (.ok l))) (ls : List Lock) (hl : Spec.Listed D s'.table r ls) : l ∈ ls ∧ l.path = p ∧ l.id = i := by
  rw [listed_iff] at hl
  subst hl
  have base := apart_reach D _ hs
  have inv : Apart D s' ∧ Spec.NotDeleting D r i s' ∧ ∃ a, s'.tasks[s.tasks.length]? = some a ∧ Creating D s'.table r p i n a := by
    clear hok hs
    generalize hx : ({ s with tasks := s.tasks ++ [.create r p i n] } : LockServer) = x at hr base
    induction hr with
    | refl =>
      subst hx
      refine ⟨base, ?_, .create r p i n, by simp, rfl, rfl, rfl, rfl⟩
      intro a ha
      rcases List.mem_append.1 ha with ha | ha
      · exact hd a ha
      · rw [List.mem_singleton.1 ha]
        exact ⟨fun _ _ e => (by cases e), fun _ _ _ e => by cases e⟩
    | step t u _ hst hno hnd ih =>
      obtain ⟨h1, h2, a, ha, hc⟩ := ih
      refine ⟨apart_step D h1 hst hno, hnd, ?_⟩
      have hlt := (List.getElem?_eq_some_iff.1 ha).1
      cases hst with
      | recvCreate r' p' i' n' => exact ⟨a, by rw [List.getElem?_append_left hlt]; exact ha, hc⟩
      | recvDelete r' i' f => exact ⟨a, by rw [List.getElem?_append_left hlt]; exact ha, hc⟩
      | act k task hk =>
        by_cases e : k = s.tasks.length
        · subst e
          rw [hk] at ha
          cases ha
          exact ⟨_, by rw [List.getElem?_set_self hlt], creating_own D (h1.2.2 _ (List.mem_of_getElem? hk)) hc⟩
        · refine ⟨a, by rw [List.getElem?_set_ne e]; exact ha, creating_mono D (fun hm => ?_) hc⟩
          refine lock_kept D (h1.2.2 _ (List.mem_of_getElem? hk)) hm hi ?_
          intro r' row f e
          exact (h2 task (List.mem_of_getElem? hk)).2 r' row f e
  obtain ⟨_, _, a, ha, hc⟩ := inv
  rw [hok] at ha
  cases ha
  obtain ⟨rfl, hm⟩ := hc
  exact ⟨hm, rfl, rfl⟩

/-- Two requests for the same ref, both in progress. -/
def clash (D : DbExt) (a b : LockTask) : Bool :=
  match Spec.inFlight a, Spec.inFlight b with
  | some r, some r' => D.fold r == D.fold r'
  | _, _ => false

theorem noOverlap_of {D : DbExt} {s : LockServer} (h : s.tasks.Pairwise (fun a b => clash D a b = false)) : Spec.NoOverlap D s := by
  intro i j a b r r' ha hb hfa hfb e
  obtain ⟨hi, rfl⟩ := List.getElem?_eq_some_iff.1 ha
  obtain ⟨hj, rfl⟩ := List.getElem?_eq_some_iff.1 hb
  rw [List.pairwise_iff_getElem] at h
  rcases Nat.lt_trichotomy i j with hlt | e' | hlt
  · have := h i j hi hj hlt
    simp [clash, hfa, hfb, e] at this
  · exact e'
  · have := h j i hj hi hlt
    simp [clash, hfa, hfb, e] at this

/-- A deletion of lock `i`. -/
def deletes (i : Bytes) : LockTask → Bool
  | .delete _ i' _ => i' == i
  | .deleteWrite _ _ i' _ => i' == i
  | _ => false

/-- No overlap, and no deletion of `i`, at any moment of the schedule. -/
def quiet (D : DbExt) (i : Bytes) (s : LockServer) (es : List Ev) : Bool :=
  match es with
  | [] => true
  | e :: es => decide ((sched D s [e]).tasks.Pairwise (fun a b => clash D a b = false)) && (sched D s [e]).tasks.all (fun a => !deletes i a) &&
      quiet D i (sched D s [e]) es

theorem notDeleting_of {D : DbExt} {r i : Bytes} {s : LockServer} (h : s.tasks.all (fun a => !deletes i a) = true) : Spec.NotDeleting D r i s := by
  intro a ha
  have := List.all_eq_true.1 h a ha
  refine ⟨?_, ?_⟩ <;> (intros; subst_vars; simp [deletes] at this)

theorem sched_cons (D : DbExt) (s : LockServer) (e : Ev) (es : List Ev) : sched D s (e :: es) = sched D (sched D s [e]) es := by
  cases e with
  | create r p i n => rfl
  | delete r i f => rfl
  | act k =>
    simp only [sched]
    split <;> rfl

theorem sched_one (D : DbExt) (s : LockServer) (e : Ev) : sched D s [e] = s ∨ LockServer.Step D s (sched D s [e]) := by
  cases e with
  | create r p i n => exact .inr (.recvCreate s r p i n)
  | delete r i f => exact .inr (.recvDelete s r i f)
  | act k =>
    simp only [sched]
    split
    · rename_i task hk
      exact .inr (.act s k task hk)
    · exact .inl rfl

theorem quiet_run (D : DbExt) (r i : Bytes) : ∀ (es : List Ev) (s0 s : LockServer), Spec.QuietRun D r i s0 s → quiet D i s es = true → Spec.QuietRun D r i s0 (sched D s es)
  | [], _, _, h, _ => h
  | e :: es, s0, s, h, hq => by
    simp only [quiet, Bool.and_eq_true, decide_eq_true_eq] at hq
    rw [sched_cons]
    refine quiet_run D r i es s0 _ ?_ hq.2
    rcases sched_one D s e with he | he
    · rw [he]; exact h
    · exact .step _ _ _ h he (noOverlap_of hq.1.1) (notDeleting_of hq.1.2)

theorem quiet_reach (D : DbExt) (i : Bytes) : ∀ (es : List Ev) (s : LockServer), Spec.ReachApart D s → quiet D i s es = true → Spec.ReachApart D (sched D s es)
  | [], _, h, _ => h
  | e :: es, s, h, hq => by
    simp only [quiet, Bool.and_eq_true, decide_eq_true_eq] at hq
    rw [sched_cons]
    refine quiet_reach D i es _ ?_ hq.2
    rcases sched_one D s e with he | he
    · rw [he]; exact h
    · exact .step _ _ h he (noOverlap_of hq.1.1)

/-- The same path locked for two refs at the same time, statement by statement in turn: nothing is lost. -/
example : ∃ ls, Spec.Listed demoDb (sched demoDb { table := noLocks, tasks := [] }
      [.create (ascii "q") (ascii "f") (ascii "76543210") (ascii "t1"), .create (ascii "r") (ascii "f") (ascii "01234567") (ascii "t2"),
        .act 0, .act 1, .act 0, .act 1, .act 1, .act 0]).table (ascii "r") ls ∧ ls.length = 1 ∧ (ls.map (·.path)).Nodup :=
  ⟨_, (listed_iff _ _ _ _).2 rfl, by decide +kernel,
    C40_apart_partial demoDb _ (quiet_reach demoDb (ascii "x") _ _ .init (by decide +kernel)) (ascii "r") _ ((listed_iff _ _ _ _).2 rfl)⟩

/-- Two creations for different refs, statement by statement in turn, then another creation and a deletion for the second ref. -/
example : ∃ ls, Spec.Listed demoDb (sched demoDb { table := noLocks, tasks := [] }
      ([.create (ascii "q") (ascii "g") (ascii "76543210") (ascii "t1"), .create (ascii "r") (ascii "f") (ascii "01234567") (ascii "t2")] ++
        [.act 0, .act 1, .act 0, .act 1, .act 1, .act 0, .create (ascii "r") (ascii "h") (ascii "00000000") (ascii "t3"),
        .delete (ascii "q") (ascii "76543210") none, .act 2, .act 3, .act 2, .act 3, .act 2])).table (ascii "r") ls ∧
    newLock (ascii "f") (ascii "01234567") (ascii "t2") ∈ ls := by
  refine ⟨_, (listed_iff _ _ _ _).2 rfl, (C65_apart_partial demoDb (sched demoDb { table := noLocks, tasks := [] } [.create (ascii "q") (ascii "g") (ascii "76543210") (ascii "t1")])
    (ascii "r") (ascii "f") (ascii "01234567") (ascii "t2") ?_ (by decide +kernel) (notDeleting_of (by decide +kernel)) _
    (quiet_run demoDb (ascii "r") (ascii "01234567") [.act 0, .act 1, .act 0, .act 1, .act 1, .act 0, .create (ascii "r") (ascii "h") (ascii "00000000") (ascii "t3"),
      .delete (ascii "q") (ascii "76543210") none, .act 2, .act 3, .act 2, .act 3, .act 2] _ _ (.refl _) (by decide +kernel)) _ (by decide +kernel) _ ((listed_iff _ _ _ _).2 rfl)).1⟩
  exact quiet_reach demoDb (ascii "01234567") [.create (ascii "q") (ascii "g") (ascii "76543210") (ascii "t1"), .create (ascii "r") (ascii "f") (ascii "01234567") (ascii "t2")]
    { table := noLocks, tasks := [] } .init (by decide +kernel)

/-- Three creations: the first completes; the other two read the row before either writes. -/
def lostUpdate : List Ev :=
  [.create (ascii "r") (ascii "e") (ascii "00000000") (ascii "t0"), .act 0, .act 0, .act 0,
    .create (ascii "r") (ascii "f") (ascii "01234567") (ascii "t1"), .create (ascii "r") (ascii "g") (ascii "76543210") (ascii "t2"),
    .act 1, .act 2, .act 1, .act 2, .act 1, .act 2]

/-- Overlapping requests: all three creations are acknowledged, no deletion is requested, but only two locks are listed. -/
theorem C65_concurrent_false : ∃ s a b c, LockServer.Reach demoDb s ∧
    s.tasks = [.done (.ok a), .done (.ok b), .done (.ok c)] ∧ Spec.Listed demoDb s.table (ascii "r") [a, c] ∧ b ∉ [a, c] := by
  refine ⟨sched demoDb { table := noLocks, tasks := [] } lostUpdate, newLock (ascii "e") (ascii "00000000") (ascii "t0"),
    newLock (ascii "f") (ascii "01234567") (ascii "t1"), newLock (ascii "g") (ascii "76543210") (ascii "t2"),
    sched_reach _ _ _ .init, ?_, ?_, ?_⟩
  · decide +kernel
  · rw [listed_iff]; decide +kernel
  · decide +kernel

/-- The first of three locks is listed after the other two were created and one of them deleted. -/
example : ∃ ls, Spec.Listed demoDb (runLocks demoDb (threeLocks ++ [.delete (ascii "r") (ascii "11234567") none])) (ascii "r") ls ∧
    newLock (ascii "f") (ascii "01234567") (ascii "t1") ∈ ls :=
  ⟨_, (listed_iff _ _ _ _).2 rfl, (C65_lock_stays_partial demoDb []
    (threeLocks.tail ++ [.delete (ascii "r") (ascii "11234567") none]) (ascii "r") (ascii "f") (ascii "01234567") (ascii "t1")
    (newLock (ascii "f") (ascii "01234567") (ascii "t1")) _ (by decide +kernel)
    (Prod.ext (by decide +kernel) rfl) (by
      intro r' f hm
      simp only [threeLocks, List.tail_cons, List.cons_append, List.nil_append, List.mem_cons, reduceCtorEq, false_or,
        LockReq.delete.injEq, List.not_mem_nil, or_false] at hm
      exact absurd hm.2.1 (by decide +kernel)) _ ((listed_iff _ _ _ _).2 rfl)).1⟩

/-! ## C66: whose lock -/

/-- Rows satisfying `P` in the table and in what requests have read; new locks satisfying `Q`. -/
def TaskRows (P : List Lock → Prop) (Q : Lock → Prop) : LockTask → Prop
  | .createRead _ l => Q l
  | .createWrite _ row l => P (row.getD []) ∧ Q l
  | .deleteWrite _ row _ _ => P (row.getD [])
  | _ => True

/-- Invariants of rows hold in every reachable state, overlapping requests included. -/
theorem reach_rows (D : DbExt) (P : List Lock → Prop) (Q : Lock → Prop) (hnil : P []) (hnew : ∀ p i n, Q (newLock p i n))
    (hadd : ∀ old l new, P old → Q l → new.Perm (old ++ [l]) → OldestFirst new → P new)
    (hdel : ∀ old f, P old → P (old.filter f)) (s : LockServer) (hs : LockServer.Reach D s) :
    (∀ k, P ((s.table k).getD [])) ∧ ∀ a ∈ s.tasks, TaskRows P Q a := by
  induction hs with
  | init => exact ⟨fun _ => hnil, by simp⟩
  | step s s' _ hstep ih =>
    obtain ⟨ht, hok⟩ := ih
    cases hstep with
    | recvCreate r p i n =>
      refine ⟨ht, fun a ha => ?_⟩
      rcases List.mem_append.1 ha with ha | ha
      · exact hok a ha
      · rw [List.mem_singleton.1 ha]; trivial
    | recvDelete r i f =>
      refine ⟨ht, fun a ha => ?_⟩
      rcases List.mem_append.1 ha with ha | ha
      · exact hok a ha
      · rw [List.mem_singleton.1 ha]; trivial
    | act k task hk =>
      have htask := hok task (List.mem_of_getElem? hk)
      suffices (∀ k, P (((task.step D s.table).2 k).getD [])) ∧ TaskRows P Q (task.step D s.table).1 by
        refine ⟨this.1, fun a ha => ?_⟩
        rcases List.mem_or_eq_of_mem_set ha with ha | rfl
        · exact hok a ha
        · exact this.2
      cases task with
      | create r p i n =>
        obtain ⟨next, hf⟩ := filtered_check D s.table r p
        simp only [LockTask.step, hf]
        split
        · exact ⟨ht, trivial⟩
        · exact ⟨ht, hnew p i n⟩
      | createRead r l => exact ⟨ht, ht _, htask⟩
      | createWrite r row l =>
        simp only [LockTask.step]
        cases hw : addLockWrite D s.table r row [l] with
        | none => exact ⟨ht, trivial⟩
        | some t' =>
          obtain ⟨new, rfl, hp, hs⟩ := addLockWrite_sorted hw
          refine ⟨fun k => ?_, trivial⟩
          simp only [setAt_eq]
          split
          · exact hadd _ l new htask.1 htask.2 hp hs
          · exact ht k
      | delete r i f =>
        simp only [LockTask.step]
        split
        · exact ⟨ht, trivial⟩
        · exact ⟨ht, ht _⟩
      | deleteWrite r row i f =>
        simp only [LockTask.step]
        cases hw : deleteLockWrite D s.table r row i (f.getD false) with
        | none => exact ⟨ht, trivial⟩
        | some x =>
          obtain ⟨l, t'⟩ := x
          obtain ⟨old, rfl, -, -, -, hkk, hother⟩ := deleteLockWrite_row hw
          refine ⟨fun k => ?_, trivial⟩
          show P ((t' k).getD [])
          by_cases he : k = D.fold r
          · subst he
            rw [hkk]
            exact hdel _ _ htask
          · rw [hother k he]; exact ht k
      | done r => exact ⟨ht, trivial⟩

/-- No lock names an owner. -/
def NoOwner (l : List Lock) : Prop := ∀ x ∈ l, x.owner = none

theorem reach_noOwner (D : DbExt) (s : LockServer) (hs : LockServer.Reach D s) :
    (∀ k, NoOwner ((s.table k).getD [])) ∧ ∀ a ∈ s.tasks, TaskRows NoOwner (·.owner = none) a := by
  refine reach_rows D NoOwner _ (by simp [NoOwner]) (fun _ _ _ => rfl) ?_ ?_ s hs
  · intro old l new ho hl hp _ x hx
    rcases List.mem_append.1 (hp.mem_iff.1 hx) with hx | hx
    · exact ho x hx
    · rw [List.mem_singleton.1 hx]; exact hl
  · exact fun old f ho x hx => ho x (List.mem_filter.1 hx).1

/-- Locks without an owner are all reported as the caller's own. -/
theorem verify_noOwner (D : DbExt) (t : LockTable) (r : Bytes) (ht : NoOwner ((t (D.fold r)).getD [])) (cursor : Option Bytes)
    (limit : Option Int) (v : VerifiableLockList) (hv : verifyLock D t r cursor limit = .ok v) : v.theirs = [] := by
  simp only [verifyLock, lfsGetFilteredLocks, lfsGetLocks] at hv
  cases hf : fromCursor ((t (D.fold r)).getD []) (cursor.getD []) with
  | ok rest =>
    have hsub : ∀ x ∈ rest, x ∈ (t (D.fold r)).getD [] := by
      unfold fromCursor at hf
      split at hf
      · cases hf; exact fun _ h => h
      · split at hf
        · cases hf; exact fun x hx => List.mem_of_mem_drop hx
        · cases hf
    rw [hf] at hv
    simp only [Res.bind_ok, onlyPath, if_true] at hv
    cases hc : cutPage rest (i64Str (if limit.getD 0 = 0 then 100 else limit.getD 0)) with
    | ok page =>
      have hpage : ∀ x ∈ page.1, x ∈ rest := by
        unfold cutPage at hc
        rw [if_neg (i64Str_ne_nil _)] at hc
        split at hc
        · cases hc
        · simp only at hc
          split at hc
          · cases hc
          · cases hc
            exact fun x hx => List.mem_of_mem_take hx
      rw [hc] at hv
      simp only [Reply.ok.injEq] at hv
      subst hv
      simp only [List.filter_eq_nil_iff]
      intro x hx
      simp [ht x (hsub x (hpage x hx))]
    | err e => rw [hc] at hv; simp at hv
    | panic => rw [hc] at hv; simp at hv
    | spin => rw [hc] at hv; simp at hv
  | err e => rw [hf] at hv; simp at hv
  | panic => rw [hf] at hv; simp at hv
  | spin => rw [hf] at hv; simp at hv

/-- In every reachable state, overlapping requests included, the verification endpoint reports every lock as the caller's
own and none as somebody else's: the handler never learns who is asking, and locks are stored without an owner.
So the claim that locks of others are reported as such fails for every lock of every client. -/
theorem C66_theirs_always_empty (D : DbExt) (s : LockServer) (hs : LockServer.Reach D s) (r : Bytes) (cursor : Option Bytes)
    (limit : Option Int) (v : VerifiableLockList) (hv : verifyLock D s.table r cursor limit = .ok v) : v.theirs = [] :=
  verify_noOwner D s.table r ((reach_noOwner D s hs).1 (D.fold r)) cursor limit v hv

/-- And every lock can be deleted by anybody without `force`. -/
theorem C66_anyone_unlocks (D : DbExt) (s : LockServer) (hs : LockServer.Reach D s) (r : Bytes) (ls : List Lock)
    (hl : Spec.Listed D s.table r ls) (l : Lock) (hm : l ∈ ls) (hne : l.id ≠ [])
    (hfit : ∀ x : List Lock, x.Sublist ls → x.length < ls.length → D.locksFit r x = true) :
    ∃ l' t', deleteLock D s.table r l.id none = (.ok l', t') := by
  refine C42_known_id D s.table r l.id none ls hl l hm rfl hne (.inr ?_) hfit
  intro x hx _
  rw [listed_iff] at hl
  exact (reach_noOwner D s hs).1 (D.fold r) x (hl ▸ hx)

/-- Two locks created by overlapping requests, both reported as the caller's. -/
example : ∃ v, verifyLock demoDb (sched demoDb { table := noLocks, tasks := [] } (lateRead (ascii "f") (ascii "g"))).table
    (ascii "r") none none = .ok v ∧ v.ours.length = 2 ∧ v.theirs = [] :=
  ⟨{ ours := [newLock (ascii "f") (ascii "01234567") (ascii "t1"), newLock (ascii "g") (ascii "76543210") (ascii "t2")],
     theirs := [], next := [] }, by decide +kernel, rfl, rfl⟩

/-! ## C67: order -/

theorem bytesLe_iff : ∀ a b : Bytes, bytesLe a b = true ↔ ¬ b < a
  | [], b => by simp [bytesLe]
  | a :: s, [] => by simp [bytesLe]
  | a :: s, b :: t => by
    rw [List.cons_lt_cons_iff, bytesLe]
    simp only [Bool.or_eq_true, Bool.and_eq_true, decide_eq_true_eq, beq_iff_eq, bytesLe_iff s t,
      UInt8.lt_iff_toNat_lt, ← UInt8.toNat_inj]
    by_cases h : t < s <;> simp only [h, not_true, not_false_iff, and_true, and_false, or_false] <;> omega

/-- In every reachable state, overlapping requests included, locks are listed in the order of their (textual) times. -/
theorem C67_oldest_first (D : DbExt) (s : LockServer) (hs : LockServer.Reach D s) (r : Bytes) (ls : List Lock)
    (hl : Spec.Listed D s.table r ls) : ls.Pairwise (fun a b => ¬ b.lockedAt < a.lockedAt) := by
  simp only [← bytesLe_iff]
  rw [listed_iff] at hl
  subst hl
  exact (reach_rows D OldestFirst (fun _ => True) List.Pairwise.nil (fun _ _ _ => trivial) (fun _ _ _ _ _ _ h => h)
    (fun _ f h => List.Pairwise.filter f h) s hs).1 (D.fold r)

/-- The same for requests processed one after the other. -/
theorem C67_sequential (D : DbExt) (h : List LockReq) (r : Bytes) (ls : List Lock)
    (hl : Spec.Listed D (runLocks D h) r ls) : ls.Pairwise (fun a b => ¬ b.lockedAt < a.lockedAt) := by
  simp only [← bytesLe_iff]
  rw [listed_iff] at hl
  subst hl
  generalize D.fold r = k
  induction h using List.reverseRecOn generalizing k with
  | nil => simp [runLocks, noLocks]
  | append_singleton h q ih =>
    rw [runLocks_snoc]
    exact run_relation D OldestFirst OldestFirst (fun _ h => h) (fun a b hs hb => List.Pairwise.sublist hs hb) q
      (fun _ _ _ _ _ _ _ _ _ _ hs => hs) _ ih k

/-- Times that arrive out of order. -/
example : ∃ ls, Spec.Listed demoDb (runLocks demoDb [.create (ascii "r") (ascii "f") (ascii "01234567") (ascii "t2"),
    .create (ascii "r") (ascii "g") (ascii "11234567") (ascii "t1")]) (ascii "r") ls ∧ ls.map (·.path) = [ascii "g", ascii "f"] :=
  ⟨_, (listed_iff _ _ _ _).2 rfl, by decide +kernel⟩

end Gust

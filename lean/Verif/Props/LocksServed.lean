import Verif.Props.LockText
import Verif.Props.ServerBoth
import Verif.Props.ServerExamples
import Verif.Base.Tactics

/-! # C40, C42, C65, C66 and C67 for whole histories of requests

Statements in terms of HTTP requests and their replies, after any history of requests and messages to the two servers. -/

namespace Gust

/-! ## The requests -/

/-- A GET request for the locks of a ref. -/
def Spec.AsksLocks (r : HttpReq) (ref : Bytes) : Prop :=
  route r.method r.path r.service = .listLocks ∧ r.query = { refspec := some ref }

/-- A request to lock a file: what its body says. -/
def Spec.AsksLock (P : ServerExt) (r : HttpReq) (ref path : Bytes) : Prop :=
  route r.method r.path r.service = .createLock ∧ P.J.lock r.body = some (ref, path)

/-- A request to remove a lock. -/
def Spec.AsksUnlock (P : ServerExt) (r : HttpReq) (ref i : Bytes) (force : Option Bool) : Prop :=
  route r.method r.path r.service = .deleteLock i ∧ r.body ≠ [] ∧ P.J.unlock r.body = some (ref, force)

/-- A request to verify the locks of a ref. -/
def Spec.AsksVerify (P : ServerExt) (r : HttpReq) (ref : Bytes) (cursor : Option Bytes) (limit : Option Int) : Prop :=
  route r.method r.path r.service = .verifyLocks ∧ P.J.verify r.body = some (ref, cursor, limit)

/-- The locks of a ref that a client is shown: every request for them is answered with these. -/
def Spec.Shown (P : ServerExt) (s : Both) (ref : Bytes) (ls : List Lock) : Prop :=
  ∀ m r, Spec.AsksLocks r ref → (serve P m s.web r).1 = .reply (.ok (.locks ls []))

theorem listReq_asks (ref : Bytes) : Spec.AsksLocks { listReq with query := { refspec := some ref } } ref :=
  ⟨show route .get (ascii "/org/locks") none = .listLocks by decide +kernel, rfl⟩

theorem shown_iff (P : ServerExt) (s : Both) (ref : Bytes) (ls : List Lock) :
    Spec.Shown P s ref ls ↔ Spec.Listed P.D s.web.locks ref ls := by
  have e : ∀ m r, Spec.AsksLocks r ref → (serve P m s.web r).1 = .reply (.ok (.locks ((s.web.locks (P.D.fold ref)).getD []) [])) := by
    intro m r hr
    have := (listed_iff P.D s.web.locks ref _).2 rfl
    rw [Spec.Listed] at this
    unfold serve
    rw [hr.1]
    simp only [hr.2, this]
    rfl
  rw [listed_iff]
  constructor
  · intro h
    have h1 := h demoMoment _ (listReq_asks ref)
    rw [e _ _ (listReq_asks ref)] at h1
    simpa [eq_comm] using h1
  · rintro rfl m r hr
    exact e m r hr

/-- The locks after a visit are those after at most one lock request. -/
theorem visit_locks (P : ServerExt) (m : Moment) (s : Both) (v : Visit) :
    (bothStep P m s v).web.locks = s.web.locks ∨
    (∃ r ref path, v = .http r ∧ Spec.AsksLock P r ref path ∧
      (bothStep P m s v).web.locks = (LockReq.create ref path m.lockId m.now).run P.D s.web.locks) ∨
    ∃ r ref i force, v = .http r ∧ Spec.AsksUnlock P r ref i force ∧
      (bothStep P m s v).web.locks = (LockReq.delete ref i force).run P.D s.web.locks := by
  cases v with
  | ssh i e => exact .inl rfl
  | http r =>
    have h := serve_locks P m s.web r
    cases hq : route r.method r.path r.service with
    | createLock =>
      rw [hq] at h
      simp only at h
      cases hj : P.J.lock r.body with
      | none => rw [hj] at h; exact .inl h
      | some x => rw [hj] at h; exact .inr (.inl ⟨r, x.1, x.2, rfl, ⟨hq, hj⟩, h⟩)
    | deleteLock i =>
      rw [hq] at h
      simp only at h
      split at h
      · exact .inl h
      · rename_i hne
        cases hj : P.J.unlock r.body with
        | none => rw [hj] at h; exact .inl h
        | some x => rw [hj] at h; exact .inr (.inr ⟨r, x.1, i, x.2, rfl, ⟨hq, fun e => hne (.inr e), hj⟩, h⟩)
    | _ => rw [hq] at h; exact .inl h

/-- The lock requests of a history. -/
theorem history_locks (P : ServerExt) : ∀ (h : BothHist) (s : Both), ∃ q : List LockReq,
    (runBoth P s h).web.locks = q.foldl (LockReq.run P.D) s.web.locks ∧
    (∀ ref i force, LockReq.delete ref i force ∈ q → ∃ m r, (m, Visit.http r) ∈ h ∧ Spec.AsksUnlock P r ref i force) ∧
    (∀ ref i n p, LockReq.create ref p i n ∈ q → ∃ m r, (m, Visit.http r) ∈ h ∧ Spec.AsksLock P r ref p ∧ i = m.lockId ∧ n = m.now) ∧
    (Spec.drawnIds q).Sublist (h.map (·.1.lockId))
  | [], s => ⟨[], rfl, by simp, by simp, by simp [Spec.drawnIds]⟩
  | (m, v) :: h, s => by
    obtain ⟨q, e, hd, hc, hi⟩ := history_locks P h (bothStep P m s v)
    have hd' : ∀ ref i force, LockReq.delete ref i force ∈ q → ∃ m' r, (m', Visit.http r) ∈ (m, v) :: h ∧ Spec.AsksUnlock P r ref i force :=
      fun ref i force hx => by
        obtain ⟨m', r, h1, h2⟩ := hd ref i force hx
        exact ⟨m', r, List.mem_cons_of_mem _ h1, h2⟩
    have hc' : ∀ ref i n p, LockReq.create ref p i n ∈ q → ∃ m' r, (m', Visit.http r) ∈ (m, v) :: h ∧ Spec.AsksLock P r ref p ∧ i = m'.lockId ∧ n = m'.now :=
      fun ref i n p hx => by
        obtain ⟨m', r, h1, h2⟩ := hc ref i n p hx
        exact ⟨m', r, List.mem_cons_of_mem _ h1, h2⟩
    rcases visit_locks P m s v with h0 | ⟨r, ref, path, rfl, ha, h0⟩ | ⟨r, ref, i, force, rfl, ha, h0⟩
    · exact ⟨q, by rw [runBoth_cons, e, h0], hd', hc', hi.trans (List.sublist_cons_self _ _)⟩
    · refine ⟨.create ref path m.lockId m.now :: q, by rw [runBoth_cons, e, h0, List.foldl_cons], ?_, ?_, ?_⟩
      · intro ref' i' f' hx
        rcases List.mem_cons.1 hx with hx | hx
        · cases hx
        · exact hd' ref' i' f' hx
      · intro ref' i' n' p' hx
        rcases List.mem_cons.1 hx with hx | hx
        · cases hx; exact ⟨m, r, List.mem_cons_self, ha, rfl, rfl⟩
        · exact hc' ref' i' n' p' hx
      · simpa [Spec.drawnIds] using hi.cons₂ m.lockId
    · refine ⟨.delete ref i force :: q, by rw [runBoth_cons, e, h0, List.foldl_cons], ?_, ?_, ?_⟩
      · intro ref' i' f' hx
        rcases List.mem_cons.1 hx with hx | hx
        · cases hx; exact ⟨m, r, List.mem_cons_self, ha⟩
        · exact hd' ref' i' f' hx
      · intro ref' i' n' p' hx
        rcases List.mem_cons.1 hx with hx | hx
        · cases hx
        · exact hc' ref' i' n' p' hx
      · simpa [Spec.drawnIds] using hi.trans (List.sublist_cons_self _ _)

/-- The locks that the servers hold after a history that began with empty tables. -/
theorem served_locks (P : ServerExt) (h : BothHist) : ∃ q, (runBoth P .empty h).web.locks = runLocks P.D q ∧
    (Spec.drawnIds q).Sublist (h.map (·.1.lockId)) := by
  obtain ⟨q, e, -, -, hi⟩ := history_locks P h .empty
  exact ⟨q, e, hi⟩

/-- The reply to a request to lock a file. -/
theorem serve_lock (P : ServerExt) (m : Moment) (s : ServerState) (r : HttpReq) (ref path : Bytes) (hr : Spec.AsksLock P r ref path) :
    serve P m s r = ((createLock P.D s.locks ref path m.lockId m.now).1.outcome .lock,
      { s with locks := (createLock P.D s.locks ref path m.lockId m.now).2 }) := by
  unfold serve
  rw [hr.1]
  simp only [hr.2]

/-- The reply to a request to remove a lock. -/
theorem serve_unlock (P : ServerExt) (m : Moment) (s : ServerState) (r : HttpReq) (ref i : Bytes) (force : Option Bool)
    (hr : Spec.AsksUnlock P r ref i force) (hi : i ≠ []) :
    serve P m s r = ((deleteLock P.D s.locks ref i force).1.outcome .lock,
      { s with locks := (deleteLock P.D s.locks ref i force).2 }) := by
  unfold serve
  rw [hr.1]
  simp only [hr.2.1, hi, or_self, if_false, hr.2.2]

/-- The reply to a request to verify the locks. -/
theorem serve_verify (P : ServerExt) (m : Moment) (s : ServerState) (r : HttpReq) (ref : Bytes) (cursor : Option Bytes) (limit : Option Int)
    (hr : Spec.AsksVerify P r ref cursor limit) :
    serve P m s r = ((verifyLock P.D s.locks ref cursor limit).outcome .verified, s) := by
  unfold serve
  rw [hr.1]
  simp only [hr.2]

/-! ## C40 -/

/-- **C40** After every history of the two servers a request for the locks of a ref is answered, and no two of the locks have the same path. A
request to lock a file that is among them is answered with a conflict (409) and changes nothing at all. (Missing: requests that overlap in time.) -/
theorem C40_served_partial (P : ServerExt) (h : BothHist) (ref : Bytes) : ∃ ls, Spec.Shown P (runBoth P .empty h) ref ls ∧
    (ls.map (·.path)).Nodup ∧
    ∀ m r l, l ∈ ls → Spec.AsksLock P r ref l.path →
      (serve P m (runBoth P .empty h).web r).1 = .reply (.status 409) ∧ runBoth P .empty (h ++ [(m, .http r)]) = runBoth P .empty h := by
  obtain ⟨q, e, -⟩ := served_locks P h
  have hl := (listed_iff P.D (runBoth P .empty h).web.locks ref _).2 rfl
  refine ⟨_, (shown_iff P _ ref _).2 hl, C40_sequential_partial P.D q ref _ (e ▸ hl), fun m r l hm hr => ?_⟩
  have hc := C40_conflict P.D (runBoth P .empty h).web.locks ref l.path m.lockId m.now _ l hl hm rfl
  have hs := serve_lock P m (runBoth P .empty h).web r ref l.path hr
  rw [hc] at hs
  refine ⟨by rw [hs]; rfl, ?_⟩
  rw [runBoth_concat]
  simp only [bothStep, hs]

/-! ## C42 -/

/-- **C42** After every history of the two servers in which the random ids were different and not empty: an unlock request that is answered with
success returns a lock that was shown with the id of the request; afterwards all the locks of the ref are shown except this one, and the locks of
refs that the database tells apart are shown as before. An unlock request that is not answered with success changes nothing.
(Missing: equal ids; refs that are equal for the database; requests that overlap in time.) -/
theorem C42_served_partial (P : ServerExt) (h : BothHist) (hd : (h.map (·.1.lockId)).Nodup) (hne : [] ∉ h.map (·.1.lockId))
    (m : Moment) (r : HttpReq) (ref i : Bytes) (force : Option Bool) (hr : Spec.AsksUnlock P r ref i force) (ls : List Lock)
    (hl : Spec.Shown P (runBoth P .empty h) ref ls) :
    (∃ l, (serve P m (runBoth P .empty h).web r).1 = .reply (.ok (.lock l)) ∧ l ∈ ls ∧ l.id = i ∧
      Spec.Shown P (runBoth P .empty (h ++ [(m, .http r)])) ref (ls.erase l) ∧
      ∀ ref', P.D.fold ref' ≠ P.D.fold ref → ∀ x, Spec.Shown P (runBoth P .empty (h ++ [(m, .http r)])) ref' x ↔ Spec.Shown P (runBoth P .empty h) ref' x) ∨
    ∃ c, (serve P m (runBoth P .empty h).web r).1 = .reply (.status c) ∧ runBoth P .empty (h ++ [(m, .http r)]) = runBoth P .empty h := by
  obtain ⟨q, e, hi⟩ := served_locks P h
  rw [shown_iff] at hl
  by_cases hi0 : i = []
  · have hs : serve P m (runBoth P .empty h).web r = (.reply (.status 400), (runBoth P .empty h).web) := by
      unfold serve
      rw [hr.1]
      simp only [hi0, true_or, if_true]
    refine .inr ⟨400, by rw [hs], ?_⟩
    rw [runBoth_concat]
    simp only [bothStep, hs]
  have hs := serve_unlock P m (runBoth P .empty h).web r ref i force hr hi0
  rcases C42_delete P.D (runBoth P .empty h).web.locks ref i force ls hl with ⟨c, hx⟩ | ⟨l, t', hx, -⟩
  · refine .inr ⟨c, by rw [hs, hx]; rfl, ?_⟩
    rw [runBoth_concat]
    simp only [bothStep, hs, hx]
  · have hex := C42_exact_partial P.D q (hi.nodup hd) (fun hm => hne (hi.subset hm)) ref i force ls (e ▸ hl) l t' (e ▸ hx)
    have ht : (runBoth P .empty (h ++ [(m, .http r)])).web.locks = t' := by
      rw [runBoth_concat]
      simp only [bothStep, hs, hx]
    refine .inl ⟨l, by rw [hs, hx]; rfl, hex.1, hex.2.1, ?_, fun ref' hf x => ?_⟩
    · rw [shown_iff, ht]; exact hex.2.2.1
    · rw [shown_iff, shown_iff, ht, e]; exact hex.2.2.2 ref' hf x

/-! ## C65 -/

/-- **C65** A request to lock a file, after any history, is answered with a lock. Then this lock is shown for its ref after every further history of
the two servers in which nobody asks to remove a lock with this id, and every further request to lock the same file is answered with a conflict.
(Missing: requests that overlap in time.) -/
theorem C65_served_partial (P : ServerExt) (h1 h2 : BothHist) (m : Moment) (r : HttpReq) (ref path : Bytes) (l : Lock) (hne : m.lockId ≠ [])
    (hr : Spec.AsksLock P r ref path) (hok : (serve P m (runBoth P .empty h1).web r).1 = .reply (.ok (.lock l)))
    (hd : ∀ p ∈ h2, ∀ r' ref' force, p.2 = .http r' → ¬ Spec.AsksUnlock P r' ref' l.id force) :
    l = { id := m.lockId, path := path, lockedAt := m.now, owner := none } ∧
    ∃ ls, Spec.Shown P (runBoth P .empty (h1 ++ (m, .http r) :: h2)) ref ls ∧ l ∈ ls ∧
      ∀ m' r', Spec.AsksLock P r' ref path →
        (serve P m' (runBoth P .empty (h1 ++ (m, .http r) :: h2)).web r').1 = .reply (.status 409) := by
  have hs := serve_lock P m (runBoth P .empty h1).web r ref path hr
  rw [hs] at hok
  have hl : l = newLock path m.lockId m.now ∧
      ∃ ls, (createLock P.D (runBoth P .empty h1).web.locks ref path m.lockId m.now).2 (P.D.fold ref) = some ls ∧ newLock path m.lockId m.now ∈ ls := by
    rcases createLock_cases P.D (runBoth P .empty h1).web.locks ref path m.lockId m.now with ⟨-, e⟩ | ⟨-, -, e⟩ | ⟨-, t', ha, e⟩
    · rw [e] at hok; cases hok
    · rw [e] at hok; cases hok
    · rw [e] at hok ⊢
      obtain ⟨new, rfl, hperm⟩ := addLockWrite_some ha
      refine ⟨?_, new, setAt_same _ _ _, hperm.mem_iff.2 (by simp)⟩
      simpa [Reply.outcome, eq_comm] using hok
  obtain ⟨rfl, hcr⟩ := hl
  refine ⟨rfl, ?_⟩
  have hrun : runBoth P .empty (h1 ++ (m, .http r) :: h2) = runBoth P (runBoth P .empty (h1 ++ [(m, .http r)])) h2 := by
    rw [← runBoth_append, List.append_assoc, List.singleton_append]
  obtain ⟨q, e, hq, -⟩ := history_locks P h2 (runBoth P .empty (h1 ++ [(m, .http r)]))
  have e0 : (runBoth P .empty (h1 ++ [(m, .http r)])).web.locks = (createLock P.D (runBoth P .empty h1).web.locks ref path m.lockId m.now).2 := by
    rw [runBoth_concat]
    simp only [bothStep, hs]
  obtain ⟨ls, e1, e2⟩ := keeps_lock P.D (l := newLock path m.lockId m.now) hne q _ (by
    rintro r' i' f hx rfl
    obtain ⟨m', r'', hm, ha⟩ := hq r' _ f hx
    exact hd _ hm r'' r' f rfl ha) (e0 ▸ hcr)
  have hlist : Spec.Listed P.D (runBoth P .empty (h1 ++ (m, .http r) :: h2)).web.locks ref ls := by
    rw [listed_iff, hrun, e, e0, ← e0, e1]; rfl
  refine ⟨ls, (shown_iff P _ ref ls).2 hlist, e2, fun m' r' hr' => ?_⟩
  have hc := C40_conflict P.D _ ref path m'.lockId m'.now ls _ hlist e2 rfl
  rw [serve_lock P m' _ r' ref path hr', hc]
  rfl

/-! ## C66 -/

/-- No lock in a history names an owner. -/
theorem served_noOwner (P : ServerExt) (h : BothHist) (ref : Bytes) : NoOwner (((runBoth P .empty h).web.locks (P.D.fold ref)).getD []) := by
  obtain ⟨q, e, -⟩ := served_locks P h
  rw [e]
  suffices ∀ (q : List LockReq) (t : LockTable), (∀ k, NoOwner ((t k).getD [])) → ∀ k, NoOwner ((q.foldl (LockReq.run P.D) t k).getD []) from
    this q noLocks (fun k => by simp [noLocks, NoOwner]) _
  intro q
  induction q with
  | nil => exact fun t ht => ht
  | cons x q ih =>
    intro t ht
    refine ih _ (run_invariant P.D NoOwner (fun a b hp ha y hy => ha y (hp.mem_iff.2 hy)) (fun a b hs hb y hy => hb y (hs.subset hy)) x ?_ t ht)
    intro r p i n _ l hl _ y hy
    rcases List.mem_append.1 hy with hy | hy
    · exact hl y hy
    · rw [List.mem_singleton.1 hy]; rfl

/-- **C66 is false** for every lock of everybody: after every history of the two servers, whoever asks and whoever made the locks, a request to verify
locks that is answered names no lock as somebody else's. -/
theorem C66_theirs_false (P : ServerExt) (h : BothHist) (m : Moment) (r : HttpReq) (ref : Bytes) (cursor : Option Bytes) (limit : Option Int)
    (hr : Spec.AsksVerify P r ref cursor limit) (v : VerifiableLockList)
    (hv : (serve P m (runBoth P .empty h).web r).1 = .reply (.ok (.verified v))) : v.theirs = [] := by
  rw [serve_verify P m _ r ref cursor limit hr] at hv
  have hv' : verifyLock P.D (runBoth P .empty h).web.locks ref cursor limit = .ok v := by
    cases e : verifyLock P.D (runBoth P .empty h).web.locks ref cursor limit with
    | ok w => rw [e] at hv; simpa [Reply.outcome] using hv
    | status c => rw [e] at hv; cases hv
    | panic => rw [e] at hv; cases hv
  exact verify_noOwner P.D _ ref (served_noOwner P h ref) cursor limit v hv'

/-- **C66**, what holds: after every history a request to verify the locks of a ref, without a cursor and without a limit, is answered, and when there
are at most a hundred of them it names every lock that is shown for the ref, once. (Missing: that locks of others are told apart from one's own.) -/
theorem C66_named_partial (P : ServerExt) (h : BothHist) (m : Moment) (r : HttpReq) (ref : Bytes) (hr : Spec.AsksVerify P r ref none none)
    (ls : List Lock) (hl : Spec.Shown P (runBoth P .empty h) ref ls) (hn : ls.length ≤ 100) :
    ∃ v, (serve P m (runBoth P .empty h).web r).1 = .reply (.ok (.verified v)) ∧ (v.ours ++ v.theirs).Perm ls ∧ v.next = [] := by
  rw [shown_iff, listed_iff] at hl
  obtain ⟨v, e, hp, hx⟩ := verify_page P.D (runBoth P .empty h).web.locks ref none none 100 (by decide) (by decide) ls (by rw [hl]; rfl)
  refine ⟨v, by rw [serve_verify P m _ r ref none none hr, e]; rfl, ?_, ?_⟩
  · rwa [List.take_of_length_le hn] at hp
  · rw [hx, if_neg (by omega)]

/-- **C66 is false** for the removal of locks: after every history, whoever asks and whoever made the lock, an unlock request that does not force
anything is answered with the lock, and the lock is not shown any more. (The shorter row must fit into its column.) -/
theorem C66_unlock_false (P : ServerExt) (h : BothHist) (m : Moment) (r : HttpReq) (ref i : Bytes) (hr : Spec.AsksUnlock P r ref i none)
    (ls : List Lock) (hl : Spec.Shown P (runBoth P .empty h) ref ls) (l : Lock) (hm : l ∈ ls) (hi : l.id = i) (hne : i ≠ [])
    (hfit : ∀ x : List Lock, x.Sublist ls → x.length < ls.length → P.D.locksFit ref x = true) :
    (∃ l', (serve P m (runBoth P .empty h).web r).1 = .reply (.ok (.lock l')) ∧ l'.id = i) ∧
    ∃ ls', Spec.Shown P (runBoth P .empty (h ++ [(m, .http r)])) ref ls' ∧ l ∉ ls' := by
  rw [shown_iff] at hl
  have hs := serve_unlock P m (runBoth P .empty h).web r ref i none hr hne
  have hown : ∀ x ∈ ls, x.id = i → x.owner = none := by
    intro x hx _
    rw [listed_iff] at hl
    exact served_noOwner P h ref x (hl ▸ hx)
  obtain ⟨l1, t1, h1⟩ := C42_known_id P.D _ ref i none ls hl l hm hi hne (.inr hown) hfit
  rcases C42_delete P.D (runBoth P .empty h).web.locks ref i none ls hl with ⟨c, hx⟩ | ⟨l', t', hx, hm', hi', hlist, -⟩
  · rw [h1] at hx; cases hx
  · refine ⟨⟨l', by rw [hs, hx]; rfl, hi'⟩, ls.filter (fun x => decide (x.id ≠ i ∧ x.id ≠ [])), (shown_iff P _ ref _).2 ?_, ?_⟩
    · rw [runBoth_concat]
      simp only [bothStep, hs, hx]
      exact hlist
    · simp [hi]

/-! ## C67 -/

/-- **C67** After every history of the two servers the locks of a ref are shown in the order of their times. -/
theorem C67_served (P : ServerExt) (h : BothHist) (ref : Bytes) (ls : List Lock) (hl : Spec.Shown P (runBoth P .empty h) ref ls) :
    ls.Pairwise (fun a b => ¬ b.lockedAt < a.lockedAt) := by
  obtain ⟨q, e, -⟩ := served_locks P h
  exact C67_sequential P.D q ref ls (e ▸ (shown_iff P _ ref ls).1 hl)

/-! ## Examples -/

/-- Two moments, with the ids that are drawn. -/
def firstMoment : Moment := { demoMoment with lockId := ascii "18", now := ascii "2023-05-22" }
def unlockReq (i : Bytes) : HttpReq := { method := .post, path := ascii "/org/locks/" ++ i ++ ascii "/unlock", body := ascii "refs/heads/main" }
def verifyReq : HttpReq := { method := .post, path := ascii "/org/locks/verify", body := ascii "refs/heads/main" }

theorem lockReq_asks (p : Bytes) (hp : p ≠ []) : Spec.AsksLock demoServer (lockReq p) (ascii "refs/heads/main") p :=
  ⟨show route .post (ascii "/org/locks") none = .createLock by decide +kernel, if_neg hp⟩
theorem unlockReq_asks : Spec.AsksUnlock demoServer (unlockReq (ascii "17")) (ascii "refs/heads/main") (ascii "17") none :=
  ⟨by decide +kernel, by decide +kernel, by decide +kernel⟩
theorem verifyReq_asks : Spec.AsksVerify demoServer verifyReq (ascii "refs/heads/main") none none := ⟨by decide +kernel, by decide +kernel⟩

/-- Somebody locks two files; between the requests somebody connects over SSH. -/
def twoLocked : BothHist :=
  [(demoMoment, .http (lockReq (ascii "big.psd"))), (demoMoment, .ssh 3 (.exec 0 (ascii "git-upload-pack '/app.git'"))), (firstMoment, .http (lockReq (ascii "b.psd")))]

/-- The locks that are shown: the one with the earlier time first. -/
def twoShown : List Lock :=
  [{ id := ascii "18", path := ascii "b.psd", lockedAt := ascii "2023-05-22", owner := none },
   { id := ascii "17", path := ascii "big.psd", lockedAt := ascii "2023-05-23", owner := none }]

theorem twoLocked_shown : Spec.Shown demoServer (runBoth demoServer .empty twoLocked) (ascii "refs/heads/main") twoShown := by
  rw [shown_iff, listed_iff]; decide +kernel

/-- C40 at work: the file is locked again, by a request that is refused. -/
example : (serve demoServer demoMoment (runBoth demoServer .empty twoLocked).web (lockReq (ascii "b.psd"))).1 = .reply (.status 409) := by
  obtain ⟨ls, hl, -, h⟩ := C40_served_partial demoServer twoLocked (ascii "refs/heads/main")
  have : ls = twoShown := by
    rw [(listed_iff _ _ _ _).1 ((shown_iff _ _ _ _).1 hl), ← (listed_iff _ _ _ _).1 ((shown_iff _ _ _ _).1 twoLocked_shown)]
  subst this
  exact (h demoMoment _ { id := ascii "18", path := ascii "b.psd", lockedAt := ascii "2023-05-22", owner := none } (by decide) (lockReq_asks _ (by decide))).1

/-- C67 at work. -/
example : twoShown.Pairwise (fun a b => ¬ b.lockedAt < a.lockedAt) := C67_served demoServer twoLocked _ _ twoLocked_shown

/-- C66 at work: somebody else verifies the locks. Both are named, both as the caller's own; and the request to remove one of them, without force, is
answered with success. -/
example : (serve demoServer demoMoment (runBoth demoServer .empty twoLocked).web verifyReq).1 =
      .reply (.ok (.verified { ours := twoShown, theirs := [], next := [] })) ∧
    (∃ l', (serve demoServer demoMoment (runBoth demoServer .empty twoLocked).web (unlockReq (ascii "17"))).1 = .reply (.ok (.lock l')) ∧ l'.id = ascii "17") ∧
    (∃ v, (serve demoServer demoMoment (runBoth demoServer .empty twoLocked).web verifyReq).1 = .reply (.ok (.verified v)) ∧
      (v.ours ++ v.theirs).Perm twoShown ∧ v.next = [] ∧ v.theirs = []) := by
  refine ⟨by decide +kernel, (C66_unlock_false demoServer twoLocked demoMoment _ _ _ unlockReq_asks _ twoLocked_shown _
    (List.mem_cons_of_mem _ List.mem_cons_self) rfl (by decide) (fun _ _ _ => rfl)).1, ?_⟩
  obtain ⟨v, h1, h2, h3⟩ := C66_named_partial demoServer twoLocked demoMoment _ _ verifyReq_asks _ twoLocked_shown (by decide)
  exact ⟨v, h1, h2, h3, C66_theirs_false demoServer twoLocked demoMoment _ _ _ _ verifyReq_asks v h1⟩

/-- C42 at work: the lock is removed, the other one stays. (The moments draw different ids.) -/
def apartLocked : BothHist := [(demoMoment, .http (lockReq (ascii "big.psd"))), (firstMoment, .http (lockReq (ascii "b.psd")))]

example : ∃ l, (serve demoServer demoMoment (runBoth demoServer .empty apartLocked).web (unlockReq (ascii "17"))).1 = .reply (.ok (.lock l)) ∧
    Spec.Shown demoServer (runBoth demoServer .empty (apartLocked ++ [(demoMoment, .http (unlockReq (ascii "17")))])) (ascii "refs/heads/main") (twoShown.erase l) ∧
    twoShown.erase l = [{ id := ascii "18", path := ascii "b.psd", lockedAt := ascii "2023-05-22", owner := none }] := by
  have hl : Spec.Shown demoServer (runBoth demoServer .empty apartLocked) (ascii "refs/heads/main") twoShown := by
    rw [shown_iff, listed_iff]; decide +kernel
  rcases C42_served_partial demoServer apartLocked (by decide) (by decide) demoMoment _ _ _ _ unlockReq_asks _ hl with ⟨l, h1, h2, h3, h4, -⟩ | ⟨c, h1, -⟩
  · refine ⟨l, h1, h4, ?_⟩
    rcases List.mem_cons.1 h2 with rfl | h2
    · exact absurd h3 (by decide)
    · rcases List.mem_singleton.1 h2 with rfl
      decide
  · exact absurd h1 (by
      rw [show (serve demoServer demoMoment (runBoth demoServer .empty apartLocked).web (unlockReq (ascii "17"))).1 =
        .reply (.ok (.lock { id := ascii "17", path := ascii "big.psd", lockedAt := ascii "2023-05-23", owner := none })) by decide +kernel]
      exact fun h => nomatch h)

/-- C65 at work: the first lock is still shown after a lock on another file and the removal of that. -/
example : ∃ ls, Spec.Shown demoServer (runBoth demoServer .empty ([] ++ (demoMoment, .http (lockReq (ascii "big.psd"))) ::
      [(firstMoment, .http (lockReq (ascii "b.psd"))), (firstMoment, .http (unlockReq (ascii "18")))])) (ascii "refs/heads/main") ls ∧
    ({ id := ascii "17", path := ascii "big.psd", lockedAt := ascii "2023-05-23", owner := none } : Lock) ∈ ls := by
  obtain ⟨-, ls, h1, h2, -⟩ := C65_served_partial demoServer []
    [(firstMoment, .http (lockReq (ascii "b.psd"))), (firstMoment, .http (unlockReq (ascii "18")))] demoMoment (lockReq (ascii "big.psd"))
    (ascii "refs/heads/main") (ascii "big.psd") { id := ascii "17", path := ascii "big.psd", lockedAt := ascii "2023-05-23", owner := none } (by decide)
    (lockReq_asks _ (by decide)) (by decide +kernel) (by
      intro p hp r' ref' force e ha
      have hroute := ha.1
      rcases List.mem_cons.1 hp with rfl | hp
      · cases e; exact absurd hroute (by decide +kernel)
      · rcases List.mem_singleton.1 hp with rfl
        cases e; exact absurd hroute (by decide +kernel))
  exact ⟨ls, h1, h2⟩

end Gust

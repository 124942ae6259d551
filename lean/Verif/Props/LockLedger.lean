import Verif.Props.LocksServed

/-! # C158: the locks that are listed follow from the replies -/

namespace Gust

/-- The HTTP requests of a history, with their replies. -/
def Spec.exchanges (P : ServerExt) : Both → BothHist → List (HttpReq × Outcome)
  | _, [] => []
  | s, (m, .http r) :: h => (r, (serve P m s.web r).1) :: Spec.exchanges P (bothStep P m s (.http r)) h
  | s, (m, .ssh i e) :: h => Spec.exchanges P (bothStep P m s (.ssh i e)) h

/-- What one request and its reply mean for the locks of a ref, to somebody who keeps a list of them: a lock that was granted is added, and one that was removed is crossed out. -/
def Spec.noteLock (P : ServerExt) (ref : Bytes) (held : List Lock) : HttpReq × Outcome → List Lock
  | (r, .reply (.ok (.lock l))) =>
    match route r.method r.path r.service with
    | .createLock => if (P.J.lock r.body).any (fun b => P.D.fold b.1 == P.D.fold ref) then held ++ [l] else held
    | .deleteLock _ => if (P.J.unlock r.body).any (fun b => P.D.fold b.1 == P.D.fold ref) then held.filter (fun x => x.id ≠ l.id) else held
    | _ => held
  | _ => held

/-- The locks of a ref by the replies. -/
def Spec.heldLocks (P : ServerExt) (ref : Bytes) (x : List (HttpReq × Outcome)) : List Lock := x.foldl (Spec.noteLock P ref) []

/-! ## Lemmas -/

/-- The locks that the server has for a ref. -/
abbrev rowOf (P : ServerExt) (s : Both) (ref : Bytes) : List Lock := (s.web.locks (P.D.fold ref)).getD []

theorem note_other {P : ServerExt} {ref : Bytes} {held : List Lock} {r : HttpReq} {o : Outcome} (h1 : route r.method r.path r.service ≠ .createLock)
    (h2 : ∀ i, route r.method r.path r.service ≠ .deleteLock i) : Spec.noteLock P ref held (r, o) = held := by
  unfold Spec.noteLock
  split
  · rename_i e
    cases e
    split
    · exact absurd ‹_› h1
    · exact absurd ‹_› (h2 _)
    · rfl
  · rfl

theorem note_step (P : ServerExt) (ref : Bytes) (m : Moment) (hm : m.lockId ≠ []) (s : Both) (r : HttpReq) (held : List Lock) (hp : (rowOf P s ref).Perm held)
    (hn : ∀ l ∈ rowOf P s ref, l.id ≠ []) :
    (rowOf P (bothStep P m s (.http r)) ref).Perm (Spec.noteLock P ref held (r, (serve P m s.web r).1)) ∧ ∀ l ∈ rowOf P (bothStep P m s (.http r)) ref, l.id ≠ [] := by
  have same : ∀ o, serve P m s.web r = (o, s.web) → (∀ l, o ≠ .reply (.ok (.lock l))) →
      (rowOf P (bothStep P m s (.http r)) ref).Perm (Spec.noteLock P ref held (r, (serve P m s.web r).1)) ∧ ∀ l ∈ rowOf P (bothStep P m s (.http r)) ref, l.id ≠ [] := by
    intro o e ho
    have e1 : Spec.noteLock P ref held (r, o) = held := by
      unfold Spec.noteLock
      split
      · rename_i e
        cases e
        exact absurd rfl (ho _)
      · rfl
    simp only [rowOf, bothStep, e, e1]
    exact ⟨hp, hn⟩
  by_cases hc : route r.method r.path r.service = .createLock
  · cases hj : P.J.lock r.body with
    | none => exact same (.reply .panic) (by unfold serve; rw [hc]; simp only [hj]) (fun l h => nomatch h)
    | some b =>
      obtain ⟨ref', path⟩ := b
      have hs := serve_lock P m s.web r ref' path ⟨hc, hj⟩
      rcases createLock_cases P.D s.web.locks ref' path m.lockId m.now with ⟨-, e⟩ | ⟨-, -, e⟩ | ⟨-, t', ha, e⟩
      · rw [e] at hs
        exact same _ hs (fun l h => nomatch h)
      · rw [e] at hs
        exact same _ hs (fun l h => nomatch h)
      · rw [e] at hs
        obtain ⟨new, rfl, hperm⟩ := addLockWrite_some ha
        have e1 : Spec.noteLock P ref held (r, (Reply.ok (newLock path m.lockId m.now)).outcome .lock) =
            if P.D.fold ref' = P.D.fold ref then held ++ [newLock path m.lockId m.now] else held := by
          simp only [Spec.noteLock, Reply.outcome, hc, hj, Option.any_some, beq_iff_eq]
        simp only [rowOf, bothStep, hs, e1]
        by_cases hf : P.D.fold ref' = P.D.fold ref
        · rw [if_pos hf, ← hf, setAt_same]
          simp only [Option.getD_some]
          rw [rowOf, ← hf] at hp hn
          refine ⟨hperm.trans (hp.append_right _), ?_⟩
          intro l hl
          rcases List.mem_append.1 (hperm.mem_iff.1 hl) with hl | hl
          · exact hn l hl
          · rw [List.mem_singleton.1 hl]
            exact hm
        · rw [if_neg hf, setAt_other _ _ (fun e => hf e.symm)]
          exact ⟨hp, hn⟩
  by_cases hd : ∃ i, route r.method r.path r.service = .deleteLock i
  · obtain ⟨i, hd⟩ := hd
    by_cases hne : i = [] ∨ r.body = []
    · exact same (.reply (.status 400)) (by unfold serve; rw [hd]; simp only [if_pos hne]) (fun l h => nomatch h)
    · cases hj : P.J.unlock r.body with
      | none => exact same (.reply .panic) (by unfold serve; rw [hd]; simp only [if_neg hne, hj]) (fun l h => nomatch h)
      | some b =>
        obtain ⟨ref', force⟩ := b
        have hs := serve_unlock P m s.web r ref' i force ⟨hd, fun e => hne (.inr e), hj⟩ (fun e => hne (.inl e))
        rcases C42_delete P.D s.web.locks ref' i force _ ((listed_iff _ _ _ _).2 rfl) with ⟨c, e⟩ | ⟨l, t', e, hl, hi, h1, h2⟩
        · rw [e] at hs
          exact same _ hs (fun l h => nomatch h)
        · rw [e] at hs
          have e1 : Spec.noteLock P ref held (r, (Reply.ok l).outcome .lock) = if P.D.fold ref' = P.D.fold ref then held.filter (fun x => x.id ≠ l.id) else held := by
            simp only [Spec.noteLock, Reply.outcome, hd, hj, Option.any_some, beq_iff_eq]
          simp only [rowOf, bothStep, hs, e1]
          by_cases hf : P.D.fold ref' = P.D.fold ref
          · rw [listed_iff, hf] at h1
            rw [if_pos hf, ← h1]
            have e2 : ((s.web.locks (P.D.fold ref)).getD []).filter (fun x => decide (x.id ≠ i ∧ x.id ≠ [])) =
                ((s.web.locks (P.D.fold ref)).getD []).filter (fun x => decide (x.id ≠ l.id)) := by
              refine List.filter_congr (fun x hx => ?_)
              have := hn x hx
              simp [this, hi]
            refine ⟨?_, ?_⟩
            · rw [e2]
              exact hp.filter _
            · intro x hx
              exact hn x (List.mem_filter.1 hx).1
          · rw [if_neg hf]
            have h3 := (listed_iff _ _ _ _).1 ((h2 ref (fun e => hf e.symm) _).2 ((listed_iff _ _ _ _).2 rfl))
            rw [← h3]
            exact ⟨hp, hn⟩
  · have hl : (serve P m s.web r).2.locks = s.web.locks := by
      rw [serve_locks]
      split
      · exact absurd ‹_› hc
      · exact absurd ⟨_, ‹_›⟩ hd
      · rfl
    rw [note_other hc (fun i e => hd ⟨i, e⟩)]
    simp only [rowOf, bothStep, hl]
    exact ⟨hp, hn⟩

theorem ledger_from (P : ServerExt) (ref : Bytes) : ∀ (h : BothHist) (s : Both) (held : List Lock), (∀ p ∈ h, p.1.lockId ≠ []) → (rowOf P s ref).Perm held →
    (∀ l ∈ rowOf P s ref, l.id ≠ []) → (rowOf P (runBoth P s h) ref).Perm ((Spec.exchanges P s h).foldl (Spec.noteLock P ref) held)
  | [], _, _, _, hp, _ => hp
  | (m, .http r) :: h, s, held, hm, hp, hn => by
    obtain ⟨a, b⟩ := note_step P ref m (hm _ List.mem_cons_self) s r held hp hn
    exact ledger_from P ref h _ _ (fun p hp => hm p (List.mem_cons_of_mem _ hp)) a b
  | (m, .ssh i e) :: h, s, held, hm, hp, hn => ledger_from P ref h (bothStep P m s (.ssh i e)) held (fun p hp => hm p (List.mem_cons_of_mem _ hp)) hp hn

/-! ## The theorems -/

/-- **C158** After every history of both servers, whatever requests were refused or not understood, the locks that are shown for a ref are exactly those that follow from the replies that were given:
the locks that were granted, without those whose removal was acknowledged. They are shown oldest first. (The ids that the server draws are not empty.) -/
theorem C158_listed (P : ServerExt) (h : BothHist) (hid : ∀ p ∈ h, p.1.lockId ≠ []) (ref : Bytes) : ∃ ls, Spec.Shown P (runBoth P .empty h) ref ls ∧
    ls.Perm (Spec.heldLocks P ref (Spec.exchanges P .empty h)) ∧ ls.Pairwise (fun a b => ¬ b.lockedAt < a.lockedAt) := by
  have hs := (shown_iff P (runBoth P .empty h) ref _).2 ((listed_iff _ _ _ _).2 rfl)
  exact ⟨_, hs, ledger_from P ref h .empty [] hid (List.Perm.refl _) (fun l hl => nomatch hl), C67_served P h ref _ hs⟩

/-- **C158**, requests for a lock: after every history, a request to lock a file is answered in one of three ways. It is granted if no lock that follows from the replies has its path; it is
answered with a conflict (409) exactly if one has; otherwise the locks of the ref would not fit into their column (500). -/
theorem C158_asked (P : ServerExt) (h : BothHist) (hid : ∀ p ∈ h, p.1.lockId ≠ []) (ref path : Bytes) (hpath : path ≠ []) (m : Moment) (r : HttpReq) (hr : Spec.AsksLock P r ref path) :
    ((∃ l ∈ Spec.heldLocks P ref (Spec.exchanges P .empty h), l.path = path) ∧ (serve P m (runBoth P .empty h).web r).1 = .reply (.status 409)) ∨
    ((∀ l ∈ Spec.heldLocks P ref (Spec.exchanges P .empty h), l.path ≠ path) ∧
      ((serve P m (runBoth P .empty h).web r).1 = .reply (.ok (.lock { id := m.lockId, path := path, lockedAt := m.now, owner := none })) ∨
       (serve P m (runBoth P .empty h).web r).1 = .reply (.status 500) ∧
         ∃ ls : List Lock, ls.Perm ({ id := m.lockId, path := path, lockedAt := m.now, owner := none } :: Spec.heldLocks P ref (Spec.exchanges P .empty h)) ∧ P.D.locksFit ref ls = false)) := by
  have hl := ledger_from P ref h .empty [] hid (List.Perm.refl _) (fun l hl => nomatch hl)
  have hl : ((runBoth P .empty h).web.locks (P.D.fold ref)).getD [] |>.Perm (Spec.heldLocks P ref (Spec.exchanges P .empty h)) := hl
  have hnil : onlyPath (((runBoth P .empty h).web.locks (P.D.fold ref)).getD []) path = [] ↔ ∀ l ∈ Spec.heldLocks P ref (Spec.exchanges P .empty h), l.path ≠ path := by
    unfold onlyPath
    rw [if_neg hpath, List.filter_eq_nil_iff]
    constructor
    · intro k l hm e
      exact k l (hl.mem_iff.2 hm) (by simpa using e)
    · intro k l hm e
      exact k l (hl.mem_iff.1 hm) (by simpa using e)
  rw [serve_lock P m _ r ref path hr]
  rcases createLock_cases P.D (runBoth P .empty h).web.locks ref path m.lockId m.now with ⟨a, e⟩ | ⟨a, b, e⟩ | ⟨a, t', -, e⟩ <;> rw [e]
  · refine .inl ⟨?_, rfl⟩
    by_contra hno
    exact a (hnil.2 (fun l hm ep => hno ⟨l, hm, ep⟩))
  · refine .inr ⟨hnil.1 a, .inr ⟨rfl, ?_⟩⟩
    refine ⟨sortLocks (((runBoth P .empty h).web.locks (P.D.fold ref)).getD [] ++ [newLock path m.lockId m.now]), ?_, ?_⟩
    · refine (sortLocks_perm _).trans ((List.perm_append_comm).trans ?_)
      exact List.Perm.cons _ hl
    · by_contra hf
      obtain ⟨t', ht⟩ := addLock_succeeds P.D _ ref [newLock path m.lockId m.now] (by simpa using hf)
      rw [b] at ht
      cases ht
  · exact .inr ⟨hnil.1 a, .inl rfl⟩

/-! ## Examples -/

/-- Two files are locked, one of them twice, which is refused; then the first lock is removed. -/
def ledgerRun : BothHist := twoLocked ++ [(demoMoment, .http (lockReq (ascii "b.psd"))), (demoMoment, .http (unlockReq (ascii "17"))), (demoMoment, .http (unlockReq (ascii "99")))]

example : ∃ ls, Spec.Shown demoServer (runBoth demoServer .empty ledgerRun) (ascii "refs/heads/main") ls ∧
    ls = [{ id := ascii "18", path := ascii "b.psd", lockedAt := ascii "2023-05-22", owner := none }] ∧ (Spec.exchanges demoServer .empty ledgerRun).length = 5 := by
  obtain ⟨ls, h1, h2, -⟩ := C158_listed demoServer ledgerRun (by decide +kernel) (ascii "refs/heads/main")
  refine ⟨ls, h1, ?_, by decide +kernel⟩
  rw [show Spec.heldLocks demoServer (ascii "refs/heads/main") (Spec.exchanges demoServer .empty ledgerRun) =
    [{ id := ascii "18", path := ascii "b.psd", lockedAt := ascii "2023-05-22", owner := none }] by decide +kernel] at h2
  exact List.perm_singleton.1 h2

/-- The file whose lock was removed can be locked again; the other one cannot. -/
example : (serve demoServer demoMoment (runBoth demoServer .empty ledgerRun).web (lockReq (ascii "big.psd"))).1 =
      .reply (.ok (.lock { id := demoMoment.lockId, path := ascii "big.psd", lockedAt := demoMoment.now, owner := none })) ∧
    (serve demoServer demoMoment (runBoth demoServer .empty ledgerRun).web (lockReq (ascii "b.psd"))).1 = .reply (.status 409) := by
  have e : Spec.heldLocks demoServer (ascii "refs/heads/main") (Spec.exchanges demoServer .empty ledgerRun) =
    [{ id := ascii "18", path := ascii "b.psd", lockedAt := ascii "2023-05-22", owner := none }] := by decide +kernel
  constructor
  · rcases C158_asked demoServer ledgerRun (by decide +kernel) (ascii "refs/heads/main") (ascii "big.psd") (by decide) demoMoment _ (lockReq_asks _ (by decide)) with ⟨⟨l, h1, h2⟩, -⟩ | ⟨-, h | ⟨-, ls, -, h⟩⟩
    · rw [e, List.mem_singleton] at h1
      subst h1
      exact absurd h2 (by decide)
    · exact h
    · exact absurd h (by show ¬ true = false; decide)
  · rcases C158_asked demoServer ledgerRun (by decide +kernel) (ascii "refs/heads/main") (ascii "b.psd") (by decide) demoMoment _ (lockReq_asks _ (by decide)) with ⟨-, h⟩ | ⟨h, -⟩
    · exact h
    · exact absurd rfl (h _ (by rw [e]; exact List.mem_singleton.2 rfl))

end Gust

import Verif.Props.SchemaLfs
import Verif.Props.InstancesLfs
import Verif.Base.Tactics

/-! # Locks and big objects with the tables of the dump: concrete runs -/

namespace Gust

/-- A database with exactly the limits of the dump. -/
def dumpDb : DbExt where
  fold := lowerDb.fold
  locksFit := fun r ls => decide (chars r ≤ 200) && decide (chars (jsonLocks ls) ≤ 10000)
  metaFits := fun oid size => decide (chars oid ≤ 100) && decide (-2 ^ 31 ≤ size) && decide (size < 2 ^ 31)
  minTime := ascii "0"

theorem dumpDb_limits : Spec.DumpLimitsOnly dumpDb where
  locks := fun r ls h => by simp only [dumpDb, Bool.and_eq_true, decide_eq_true_eq] at h; exact h.2
  metas := fun oid size h => by simp only [dumpDb, Bool.and_eq_true, decide_eq_true_eq] at h; exact ⟨h.1.2, h.2⟩
  locks_ok := fun r ls h1 h2 => by simp only [dumpDb, Bool.and_eq_true, decide_eq_true_eq]; exact ⟨h1, h2⟩
  metas_ok := fun oid size h1 h2 h3 => by simp only [dumpDb, Bool.and_eq_true, decide_eq_true_eq]; exact ⟨⟨h1, h2⟩, h3⟩

theorem dumpDb_ok : Spec.CollationOk dumpDb := lowerDb_ok

/-! ## Big objects -/

/-- A file of 3 GiB is announced. -/
def announceBig : LfsReq := .batch (ascii "upload") [{ oid := rightOid, size := 3 * 2 ^ 30 }]

/-- The client announces a file of 3 GiB and gets no answer; it is not told that the file is too big, and it cannot upload it either. -/
example : ∃ s, LfsServer.Runs dumpDb demoStore (Spec.BigObject dumpDb rightOid) (.new freshLfs) s ∧ s.answer 0 = some .panic ∧ s.answer 1 = some .panic ∧
    s.state.metas (dumpDb.fold rightOid) = none := by
  refine ⟨_, schedule_runs ([.arrive announceBig, .arrive (.upload rightOid (ascii "right"))] ++ stepsOf 0 4 ++ stepsOf 1 2) _ ?_, by decide +kernel, by decide +kernel, ?_⟩
  · intro q hq
    simp [stepsOf] at hq
    rcases hq with rfl | rfl
    · intro op vs e v hv _
      cases e
      rw [List.mem_singleton] at hv
      subst hv
      decide
    · intro op vs e; cases e
  · decide +kernel

/-- A file of almost 2 GiB is announced. -/
def announceAlmost : LfsReq := .batch (ascii "upload") [{ oid := rightOid, size := 2 ^ 31 - 1 }]

/-- It is answered, also while somebody else asks for another object. -/
example : ∃ s l, LfsServer.Runs dumpDb demoStore Spec.RoutedReq (.new freshLfs) s ∧ s.answer 0 = some (.ok (.entries l)) ∧ l.length = 1 := by
  have hr := schedule_runs (D := dumpDb) (E := demoStore) (R := Spec.RoutedReq)
    ([.arrive announceAlmost, .arrive (.download (ascii "abcdef"))] ++ stepsOf 0 2 ++ stepsOf 1 2 ++ stepsOf 0 3) (.new freshLfs) (by
      intro q hq
      simp [stepsOf] at hq
      rcases hq with rfl | rfl
      · intro o b e; cases e
      · intro o b e; cases e)
  generalize hs : LfsServer.schedule dumpDb demoStore _ _ = s at hr
  have ht : s.tasks = [{ req := announceAlmost, phase := .done (.ok (.entries
      [{ oid := rightOid, size := 2 ^ 31 - 1, offer := .upload (internalLink demoStore.origin { oid := rightOid, size := 2 ^ 31 - 1 }) }])) },
      { req := .download (ascii "abcdef"), phase := .done .panic }] := by
    rw [← hs]; rfl
  obtain ⟨l, hl, hf⟩ := C120_announced_partial dumpDb dumpDb_ok dumpDb_limits demoStore freshLfs (freshLfs_fresh _) s hr 0 (ascii "upload") [{ oid := rightOid, size := 2 ^ 31 - 1 }]
    (fun v hv => by rw [List.mem_singleton.1 hv]; decide) (fun v hv => by rw [List.mem_singleton.1 hv]; decide +kernel)
    (fun v hv o ho => by rw [List.mem_singleton.1 hv] at ho; exact lower_storePath rightOid_route ho) (by
      intro _ j u ws hj hu hq
      match j, hj with
      | 0, hj => exact absurd rfl hj
      | 1, _ =>
        rw [ht] at hu
        cases Option.some.inj hu
        cases hq
      | n + 2, _ => rw [ht] at hu; cases hu) _ (by rw [ht]; rfl)
  refine ⟨s, l, hr, ?_, hf.length_eq⟩
  simp only [LfsServer.answer, ht]
  exact congrArg some hl

/-! ## Full refs -/

/-- A path with `n` characters. -/
def longFile (c : UInt8) (n : Nat) : Bytes := List.replicate n c

/-- Two locks for files with very long paths, then a third one. -/
def fillRow : List Ev :=
  [.create (ascii "r") (longFile 0x61 4000) (ascii "01234567") (ascii "t1"), .act 0, .act 0, .act 0,
   .create (ascii "r") (longFile 0x62 4000) (ascii "11234567") (ascii "t2"), .act 1, .act 1, .act 1,
   .create (ascii "r") (longFile 0x63 4000) (ascii "21234567") (ascii "t3"), .act 2, .act 2, .act 2]

/-- **C121 is false**: two clients hold locks; a third file, which nobody has locked, cannot be locked: the request is answered with status 500. -/
theorem C121_third_false : ∃ s a b, LockServer.Reach dumpDb s ∧ s.tasks = [.done (.ok a), .done (.ok b), .done (.status 500)] ∧
    Spec.Listed dumpDb s.table (ascii "r") [a, b] ∧ a.path ≠ longFile 0x63 4000 ∧ b.path ≠ longFile 0x63 4000 := by
  refine ⟨sched dumpDb { table := noLocks, tasks := [] } fillRow, newLock (longFile 0x61 4000) (ascii "01234567") (ascii "t1"),
    newLock (longFile 0x62 4000) (ascii "11234567") (ascii "t2"), sched_reach _ _ _ .init, ?_, ?_, ?_, ?_⟩
  · decide +kernel
  · rw [listed_iff]; decide +kernel
  · decide +kernel
  · decide +kernel

/-- The first two requests. -/
def twoLong : LockServer := sched dumpDb { table := noLocks, tasks := [] } (fillRow.take 8)

theorem twoLong_reach : LockServer.Reach dumpDb twoLong := sched_reach _ _ _ .init

theorem twoLong_listed : Spec.Listed dumpDb twoLong.table (ascii "r")
    [newLock (longFile 0x61 4000) (ascii "01234567") (ascii "t1"), newLock (longFile 0x62 4000) (ascii "11234567") (ascii "t2")] := by
  rw [listed_iff]; decide +kernel

/-- There are at most two locks for paths of 4000 characters, a lock for a shorter path still fits, and the locks can be removed. -/
example : 2 * (48 + 4000) < 10000 ∧ createLock dumpDb twoLong.table (ascii "r") (longFile 0x63 4000) (ascii "21234567") (ascii "t3") = (.status 500, twoLong.table) ∧
    (∃ l t', createLock dumpDb twoLong.table (ascii "r") (ascii "file") (ascii "21234567") (ascii "t3") = (.ok l, t')) ∧
    (∃ l t', deleteLock dumpDb twoLong.table (ascii "r") (ascii "01234567") none = (.ok l, t')) := by
  have h1 := (C121_bounded_false dumpDb dumpDb_limits.toDumpLimits _ twoLong_reach _ _ twoLong_listed).2 4000 (by decide +kernel)
  refine ⟨h1,
    C121_full_false dumpDb dumpDb_limits.toDumpLimits _ _ _ _ _ _ twoLong_listed (by decide +kernel) (by decide +kernel) (by decide +kernel), ?_,
    C121_unlock_partial dumpDb dumpDb_limits _ twoLong_reach (ascii "r") (by decide +kernel) _ twoLong_listed (newLock (longFile 0x61 4000) (ascii "01234567") (ascii "t1"))
      (List.mem_cons_self ..) (by decide +kernel)⟩
  obtain ⟨t', ls', h, _⟩ := C121_create_partial dumpDb dumpDb_limits twoLong.table (ascii "r") (ascii "file") (ascii "21234567") (ascii "t3") (by decide +kernel) _ twoLong_listed
    (by decide +kernel) (by decide +kernel) (by decide +kernel)
  exact ⟨_, t', h⟩

end Gust

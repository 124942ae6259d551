import Verif.Props.LfsAlive
import Verif.Props.LfsLock

/-!
Applications of the theorems about the LFS object store to concrete histories: every hypothesis is met by a history with an accepted upload
(and other requests around it), so none of the theorems is vacuous.
-/

namespace Gust

/-- The history announces two objects and uploads both, the second one with wrong bytes. -/
theorem mixed_uploads {oid body : Bytes} (h : LfsReq.upload oid body ∈ mixedHistory) :
    (oid = rightOid ∧ body = ascii "right") ∨ (oid = ascii "abcdef" ∧ body = ascii "xyz") := by
  unfold mixedHistory at h
  simp only [List.mem_cons, List.not_mem_nil, or_false] at h
  rcases h with h | h | h
  · cases h
  · cases h; exact .inl ⟨rfl, rfl⟩
  · cases h; exact .inr ⟨rfl, rfl⟩

theorem abcdef_route : Spec.RouteOid (ascii "abcdef") := by
  unfold Spec.RouteOid
  decide

theorem abcdef_other : ascii "abcdef" ≠ rightOid := by decide +kernel

/-- C46. -/
example (h : storePath demoStore (ascii "abcdef") = storePath demoStore rightOid) : False :=
  abcdef_other (C46_distinct demoStore _ _ abcdef_route rightOid_route h)

/-- C44: the upload that was rejected was for another object. -/
example : demoStore.digest (ascii "right") = rightOid := by
  refine C44_download_partial lowerDb demoStore lowerDb_ok demoStore_digest freshLfs (freshLfs_fresh _) mixedHistory ?_ rightOid rightOid_route ?_ (ascii "right")
    (by decide +kernel)
  · intro oid body h
    rcases mixed_uploads h with ⟨rfl, rfl⟩ | ⟨rfl, rfl⟩
    · exact ⟨rightOid_route, by decide⟩
    · exact ⟨abcdef_route, by decide⟩
  · intro pre body post h
    have hb : body = ascii "right" := by
      have := mixed_uploads (oid := rightOid) (body := body) (by rw [h]; simp)
      rcases this with ⟨-, h⟩ | ⟨h, -⟩
      · exact h
      · exact absurd h.symm abcdef_other
    subst hb
    unfold mixedHistory at h
    match pre, h with
    | [], h => cases h
    | [q], h =>
      simp only [List.cons_append, List.nil_append, List.cons.injEq] at h
      obtain ⟨rfl, -⟩ := h
      decide +kernel
    | [_, _], h =>
      simp only [List.cons_append, List.nil_append, List.cons.injEq] at h
      exact absurd (LfsReq.upload.inj h.2.2.1).1 abcdef_other
    | _ :: _ :: _ :: pre, h =>
      simp only [List.cons_append, List.cons.injEq] at h
      have := h.2.2.2
      simp at this

/-- C45: in between somebody uploads another object. -/
example : (downloadObject lowerDb demoStore (runLfs lowerDb demoStore freshLfs (mixedHistory.take 1 ++ .upload rightOid (ascii "right") ::
    [.upload (ascii "abcdef") (ascii "xyz"), .download rightOid])) rightOid).1 = .ok (ascii "right") := by
  refine C45_upload_download_partial lowerDb demoStore lowerDb_ok demoStore_digest freshLfs (freshLfs_fresh _) (mixedHistory.take 1) _ rightOid (ascii "right")
    rightOid_route (by decide) (by decide +kernel) ?_
  intro oid body h
  simp only [List.mem_cons, List.not_mem_nil, or_false] at h
  rcases h with h | h <;> cases h
  exact ⟨abcdef_route, abcdef_other⟩

theorem batch_routes : ∀ v ∈ ([{ oid := rightOid, size := 1 }, { oid := ascii "abcdef", size := 3 }] : List RequestVars), Spec.RouteOid v.oid := by
  intro v hv
  simp only [List.mem_cons, List.not_mem_nil, or_false] at hv
  rcases hv with rfl | rfl
  · exact rightOid_route
  · exact abcdef_route

theorem mixed_long : ∀ q ∈ mixedHistory.take 2, Spec.LongOids q := by
  intro q hq
  unfold mixedHistory at hq
  simp only [List.take_succ_cons, List.take_zero, List.mem_cons, List.not_mem_nil, or_false] at hq
  rcases hq with rfl | rfl
  · intro v hv
    simp only [List.mem_cons, List.not_mem_nil, or_false] at hv
    rcases hv with rfl | rfl <;> decide
  · simp [Spec.LongOids, rightOid_route]

/-- C47: the object that was uploaded is offered for download, and the one that was only announced is not. -/
example : (∃ l, (Offer.download (internalLink demoStore.origin { oid := rightOid, size := 5 })) = .download l) ∧
    ¬ ∃ c, (downloadObject lowerDb demoStore (runLfs lowerDb demoStore freshLfs (mixedHistory.take 2)) (ascii "abcdef")).1 = .ok c := by
  have hb : (processBatch lowerDb demoStore (runLfs lowerDb demoStore freshLfs (mixedHistory.take 2)) (ascii "download")
      [{ oid := rightOid, size := 1 }, { oid := ascii "abcdef", size := 3 }]).1 =
      .ok [{ oid := rightOid, size := 5, offer := .download (internalLink demoStore.origin { oid := rightOid, size := 5 }) },
        { oid := ascii "abcdef", size := 3, offer := .error 404 }] := by decide +kernel
  have h := C47_served_partial lowerDb demoStore lowerDb_ok freshLfs (freshLfs_fresh _) (mixedHistory.take 2) mixed_long (ascii "download") _ batch_routes
    (by decide +kernel) _ hb
  refine ⟨(h 0 _ _ rfl rfl).2 ⟨ascii "right", by decide +kernel⟩, ?_⟩
  intro hc
  obtain ⟨l, hl⟩ := (h 1 _ _ rfl rfl).2 hc
  cases hl

/-- C68. -/
example : (uploadObject lowerDb demoStore (runLfs lowerDb demoStore freshLfs (mixedHistory.take 2)) rightOid (ascii "right")).1 = .ok () :=
  C68_upload_accepted_partial lowerDb demoStore lowerDb_ok freshLfs (freshLfs_fresh _) (mixedHistory.take 2) mixed_long rightOid (ascii "right") rightOid_route
    (by decide +kernel) (by decide +kernel) (by decide)

/-- The requests of the schedules below. -/
def rightReqs (q : LfsReq) : Prop := q = announceRight ∨ q = .upload rightOid (ascii "right") ∨ q = .download rightOid

/-- Announced, uploaded twice with a download in between that sees nothing. -/
def shortEvents : List LfsEv :=
  [.arrive announceRight] ++ stepsOf 0 5 ++ [.arrive (.upload rightOid (ascii "right"))] ++ stepsOf 1 5 ++
    [.arrive (.upload rightOid (ascii "right"))] ++ stepsOf 2 4 ++ [.arrive (.download rightOid)] ++ stepsOf 3 4 ++ stepsOf 2 1

theorem short_reqs : ∀ q, .arrive q ∈ shortEvents → rightReqs q := by
  intro q hq
  unfold rightReqs
  simpa [shortEvents, stepsOf] using hq

def shortState : LfsServer := (LfsServer.new freshLfs).schedule lowerDb demoStore shortEvents

theorem short_runs {Q : LfsReq → Prop} (h : ∀ q, rightReqs q → Q q) : LfsServer.Runs lowerDb demoStore Q (.new freshLfs) shortState :=
  schedule_runs shortEvents _ (fun q hq => h q (short_reqs q hq))

/-- C101: the download that overlaps with the second upload delivers the beginning (here nothing). -/
example : ([] : Bytes) <+: ascii "right" :=
  C101_prefix_partial lowerDb lowerDb_ok demoStore freshLfs (freshLfs_fresh _) rightOid (ascii "right") rightOid_route shortState
    (short_runs fun _ h => oneBody_right h) 3 [] (by rfl)

/-- C101: an accepted upload had the right bytes. -/
example : demoStore.digest (ascii "right") = rightOid :=
  C101_accepted_partial lowerDb lowerDb_ok demoStore demoStore_digest freshLfs (freshLfs_fresh _) shortState (short_runs fun _ _ => trivial) 2 rightOid (ascii "right")
    rightOid_route (by rfl)

/-- C101: a download that starts when both uploads are over, and overlaps with an announcement, delivers everything. -/
example : ∃ s', LfsServer.Runs lowerDb demoStore (fun q => Spec.OneBody lowerDb demoStore rightOid (ascii "right") q ∧ Spec.NotUploaded lowerDb rightOid q) shortState s' ∧
    s'.answer 4 = some (.ok (.content (ascii "right"))) ∧
    ∀ c, s'.tasks[4]? = some { req := .download rightOid, phase := .done (.ok (.content c)) } → c = ascii "right" := by
  have hr : LfsServer.Runs lowerDb demoStore (fun q => Spec.OneBody lowerDb demoStore rightOid (ascii "right") q ∧ Spec.NotUploaded lowerDb rightOid q) shortState
      (shortState.schedule lowerDb demoStore ([.arrive (.download rightOid), .arrive announceRight] ++ stepsOf 4 2 ++ stepsOf 5 5 ++ stepsOf 4 3)) := by
    refine schedule_runs _ _ ?_
    intro q hq
    have hq : q = .download rightOid ∨ q = announceRight := by simpa [stepsOf] using hq
    rcases hq with rfl | rfl
    · exact ⟨oneBody_right (.inr (.inr rfl)), fun _ _ e => by cases e⟩
    · exact ⟨oneBody_right (.inl rfl), fun _ _ e => by cases e⟩
  refine ⟨_, hr, by decide +kernel, fun c hc => ?_⟩
  refine C101_quiet_partial lowerDb lowerDb_ok demoStore freshLfs (freshLfs_fresh _) rightOid (ascii "right") rightOid_route shortState _
    (short_runs fun _ h => oneBody_right h) ?_ hr 4 (by decide +kernel) c hc
  intro i t oid' body' ht hq hf
  match i, ht with
  | 0, ht => exact ⟨_, (congrArg LfsTask.phase (Option.some.inj ht)).symm⟩
  | 1, ht => exact ⟨_, (congrArg LfsTask.phase (Option.some.inj ht)).symm⟩
  | 2, ht => exact ⟨_, (congrArg LfsTask.phase (Option.some.inj ht)).symm⟩
  | 3, ht => exact ⟨_, (congrArg LfsTask.phase (Option.some.inj ht)).symm⟩
  | i + 4, ht =>
    have : shortState.tasks.length = 4 := by decide +kernel
    rw [List.getElem?_eq_none (by omega)] at ht
    cases ht

/-- Strings that agree with a routed oid up to case have a file. -/
theorem lower_storePath {oid o : Bytes} (ho : Spec.RouteOid oid) (h : lowerDb.fold o = lowerDb.fold oid) : ∃ p, storePath demoStore o = .ok p := by
  obtain ⟨h1, h2, h3, -⟩ := lowerDb_ok o oid ho h
  refine ⟨_, storePath_ascii demoStore ⟨h1, h2, h3⟩ ?_⟩
  intro c hc
  have key : ∀ c : Fin 256, lowerByte (UInt8.ofFin c) < 0x80 → UInt8.ofFin c < 0x80 := by decide +kernel
  refine key c.toFin ?_
  have hm : lowerByte c ∈ lowerDb.fold o := List.mem_map_of_mem hc
  rw [h] at hm
  have hl : lowerDb.fold oid = oid := lower_route ho
  rw [hl] at hm
  exact routeOid_ascii ho _ hm

/-- C102: two announcements of different objects overlap with an upload, and are answered. -/
example : ∃ s l, LfsServer.Runs lowerDb demoStore Spec.RoutedReq (.new freshLfs) s ∧ s.answer 2 = some (.ok (.entries l)) ∧
    List.Forall₂ (Spec.EntryFor lowerDb) l [{ oid := ascii "abcdef", size := 3 }] := by
  have hr : LfsServer.Runs lowerDb demoStore Spec.RoutedReq (.new freshLfs) ((LfsServer.new freshLfs).schedule lowerDb demoStore ([.arrive announceRight] ++
      stepsOf 0 3 ++ [.arrive (.upload rightOid (ascii "right")), .arrive (.batch (ascii "upload") [{ oid := ascii "abcdef", size := 3 }])] ++ stepsOf 2 2 ++
      stepsOf 0 2 ++ stepsOf 1 3 ++ stepsOf 2 3 ++ stepsOf 1 2)) := by
    refine schedule_runs _ _ ?_
    intro q hq
    have hq : q = announceRight ∨ q = .upload rightOid (ascii "right") ∨ q = .batch (ascii "upload") [{ oid := ascii "abcdef", size := 3 }] := by
      simpa [stepsOf] using hq
    intro o b e
    rcases hq with rfl | rfl | rfl <;> cases e
    exact rightOid_route
  generalize hs : (LfsServer.new freshLfs).schedule lowerDb demoStore ([.arrive announceRight] ++
      stepsOf 0 3 ++ [.arrive (.upload rightOid (ascii "right")), .arrive (.batch (ascii "upload") [{ oid := ascii "abcdef", size := 3 }])] ++ stepsOf 2 2 ++
      stepsOf 0 2 ++ stepsOf 1 3 ++ stepsOf 2 3 ++ stepsOf 1 2) = s at hr
  have ht : s.tasks = [{ req := announceRight, phase := .done (.ok (.entries [{ oid := rightOid, size := 5, offer := .upload (internalLink demoStore.origin { oid := rightOid, size := 5 }) }])) },
      { req := .upload rightOid (ascii "right"), phase := .done (.ok .stored) },
      { req := .batch (ascii "upload") [{ oid := ascii "abcdef", size := 3 }],
        phase := .done (.ok (.entries [{ oid := ascii "abcdef", size := 3, offer := .upload (internalLink demoStore.origin { oid := ascii "abcdef", size := 3 }) }])) }] := by
    rw [← hs]; rfl
  obtain ⟨l, hl, hf⟩ := C102_answered_partial lowerDb lowerDb_ok demoStore freshLfs (freshLfs_fresh _) s hr 2 (ascii "upload") [{ oid := ascii "abcdef", size := 3 }]
    (fun _ _ => rfl) (fun v hv o ho => by rw [List.mem_singleton.1 hv] at ho; exact lower_storePath abcdef_route ho) (by
      intro _ j u ws hj hu hq v hv w hw
      rw [List.mem_singleton.1 hv]
      match j, hj with
      | 0, _ =>
        rw [ht] at hu
        cases Option.some.inj hu
        cases hq
        rw [List.mem_singleton.1 hw]
        decide +kernel
      | 1, _ =>
        rw [ht] at hu
        cases Option.some.inj hu
        cases hq
      | 2, hj => exact absurd rfl hj
      | j + 3, _ =>
        rw [ht] at hu
        cases hu) _ (by rw [ht]; rfl)
  refine ⟨s, l, hr, ?_, hf⟩
  unfold LfsServer.answer
  rw [ht]
  exact congrArg some hl

/-- C114: after one accepted upload, a download that overlaps with another upload. -/
example (es : List LfsEv) (hes : ∀ q, .arrive q ∈ es → rightReqs q) (ht : 9 ≤ Spec.turns 4 es) :
    ∃ c, (shortState.schedule lowerDb demoStore (.arrive (.download rightOid) :: es)).answer 4 = some (.ok (.content c)) ∧ c <+: ascii "right" := by
  have hl : shortState.tasks.length = 4 := by decide +kernel
  have h := C114_download_partial lowerDb lowerDb_ok demoStore freshLfs (freshLfs_fresh _) rightOid (ascii "right") rightOid_route (by decide +kernel) shortState
    (short_runs fun _ h => honest_right h) 1 (ascii "right") (by rfl) es (fun q hq => honest_right (hes q hq)) (by rw [hl]; exact ht)
  rw [hl] at h
  obtain ⟨c, h1, h2, -⟩ := h
  exact ⟨c, h1, h2⟩

/-! ## Locks -/

def lockF : Lock := newLock (ascii "f") (ascii "01234567") (ascii "t1")
def lockG : Lock := newLock (ascii "g") (ascii "11234567") (ascii "t2")
def lockH : Lock := newLock (ascii "h") (ascii "21234567") (ascii "t3")

theorem three_listed : Spec.Listed demoDb (runLocks demoDb threeLocks) (ascii "r") [lockF, lockG, lockH] := threeLocks_listed

/-- C40, C67: three locks, the third one asked for twice. -/
example : ([lockF, lockG, lockH].map (·.path)).Nodup ∧ [lockF, lockG, lockH].Pairwise (fun a b => ¬ b.lockedAt < a.lockedAt) ∧
    createLock demoDb (runLocks demoDb threeLocks) (ascii "r") (ascii "h") (ascii "31234567") (ascii "t4") = (.status 409, runLocks demoDb threeLocks) :=
  ⟨C40_sequential_partial demoDb threeLocks (ascii "r") _ three_listed, C67_sequential demoDb threeLocks (ascii "r") _ three_listed,
    C40_conflict demoDb _ (ascii "r") (ascii "h") (ascii "31234567") (ascii "t4") _ lockH three_listed (by simp) rfl⟩

/-- C40: a fourth lock. -/
example := C40_create demoDb (runLocks demoDb threeLocks) (ascii "r") (ascii "i") (ascii "31234567") (ascii "t4") _ (by decide) three_listed (by decide +kernel)
  (fun _ _ => rfl)

/-- C41. -/
example : verifyLock demoDb (runLocks demoDb threeLocks) (ascii "r") none (some (-1)) = .panic :=
  C41_negative_limit demoDb _ (ascii "r") (-1) (by decide) (by decide)

/-- C42: deleting the second lock, and one that is not there. -/
example : (∃ l' t', deleteLock demoDb (runLocks demoDb threeLocks) (ascii "r") (ascii "11234567") none = (.ok l', t') ∧
      Spec.Listed demoDb t' (ascii "r") ([lockF, lockG, lockH].erase l')) ∧
    ∃ c, deleteLock demoDb (runLocks demoDb threeLocks) (ascii "r") (ascii "9") none = (.status c, runLocks demoDb threeLocks) := by
  obtain ⟨l', t', h⟩ := C42_known_id demoDb (runLocks demoDb threeLocks) (ascii "r") (ascii "11234567") none _ three_listed lockG (by simp) rfl (by decide)
    (.inr (by decide +kernel)) (fun _ _ _ => rfl)
  exact ⟨⟨l', t', h, (C42_exact_partial demoDb threeLocks (by decide +kernel) (by decide +kernel) (ascii "r") (ascii "11234567") none _ three_listed l' t' h).2.2.1⟩,
    C42_unknown_id demoDb _ (ascii "r") (ascii "9") none _ three_listed (by decide +kernel)⟩

/-- C43: asking with an id where a path is expected. -/
example := C43_path_is_id demoDb (runLocks demoDb threeLocks) (ascii "r") (ascii "11234567") none none none (by decide) _ three_listed
  ([], []) (by decide +kernel)

def lateState : LockServer := sched demoDb { table := noLocks, tasks := [] } (lateRead (ascii "f") (ascii "g"))

theorem late_reach : LockServer.Reach demoDb lateState := sched_reach demoDb _ _ .init

theorem late_listed : Spec.Listed demoDb lateState.table (ascii "r") [lockF, newLock (ascii "g") (ascii "76543210") (ascii "t2")] := by
  rw [listed_iff]; decide +kernel

/-- C66, C67: two locks that were created at the same time. -/
example : (∀ v, verifyLock demoDb lateState.table (ascii "r") none none = .ok v → v.theirs = []) ∧
    (∃ l' t', deleteLock demoDb lateState.table (ascii "r") lockF.id none = (.ok l', t')) ∧
    [lockF, newLock (ascii "g") (ascii "76543210") (ascii "t2")].Pairwise (fun a b => ¬ b.lockedAt < a.lockedAt) :=
  ⟨C66_theirs_always_empty demoDb _ late_reach (ascii "r") none none,
    C66_anyone_unlocks demoDb _ late_reach (ascii "r") _ late_listed lockF (by simp) (by decide) (fun _ _ _ => rfl),
    C67_oldest_first demoDb _ late_reach (ascii "r") _ late_listed⟩

end Gust

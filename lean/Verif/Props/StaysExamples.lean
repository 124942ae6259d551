import Verif.Props.Stays
import Verif.Props.RefinedExamples

/-! # C155 on a concrete run -/

namespace Gust

/-- C155: the repository is cloned, `master` is set back to an older commit, and the clone made then still has everything: both commits check out to the same files. -/
example : ∃ (pack : Bytes) (m m2 : Moment) (out file out' file' : Bytes) (ms ms' : List MetaData),
    (serve demoServer m (runBoth demoServer .empty (askHist pack)).web (Spec.fetchReq (ascii "/app" ++ []) (doneBody cloneLines (ascii "\n") []))).1 = .reply (.ok (.bytes out)) ∧
    (serve demoServer m2 (runBoth demoServer .empty (askHist pack ++ [(backMoment, .http setBack)])).web
      (Spec.fetchReq (ascii "/app" ++ []) (doneBody cloneLines (ascii "\n") []))).1 = .reply (.ok (.bytes out')) ∧
    Spec.readClone out = some file ∧ Spec.readClone out' = some file' ∧ PackHas polyExt file ms ∧ PackHas polyExt file' ms' ∧
    metaOf polyExt (.commit, appCommit.encode) ∈ ms ∧ metaOf polyExt (.commit, srcCommit.encode) ∈ ms ∧ (∀ x ∈ ms, x ∈ ms') ∧
    ∃ p q, decodePack polyExt (fun _ => none) 1 file = .ok p ∧ decodePack polyExt (fun _ => none) 1 file' = .ok q ∧ ∀ path mode data,
      Spec.CheckedOut p.result.hashObject (metaOf polyExt (.commit, appCommit.encode)).id path mode data ↔
        Spec.CheckedOut q.result.hashObject (metaOf polyExt (.commit, appCommit.encode)).id path mode data := by
  obtain ⟨pack, p1, _, objs1, objs2⟩ := set_published
  obtain ⟨m, hm⟩ : ∃ m : Moment, m = { demoMoment with fuel := (runBoth demoServer .empty (askHist pack)).web.db.nodes.length } := ⟨_, rfl⟩
  obtain ⟨m2, hm2⟩ : ∃ m : Moment, m = { demoMoment with fuel := (runBoth demoServer .empty (setHist pack)).web.db.nodes.length } := ⟨_, rfl⟩
  have sub : ∀ x ∈ askHist pack, x ∈ setHist pack := fun x hx => List.mem_append_left _ hx
  have f2 : Spec.SameFoldAny demoFold (setHist pack) := fun x hx => (set_names pack x hx).1
  obtain ⟨out, file0, ms0, k1, _, k3, k4, k5⟩ := C152_exact_partial demoServer demoFold_hash (ascii "/app") (askHist pack) _ _ p1 (sameFoldAny_sub sub f2) (noneAboveAny_sub sub (set_above pack))
    (few_unique libObjects_ids objs1) (few_fits (by decide) lib_big objs1) ⟨libEntries, by simp, _, lib_given⟩ m (by rw [hm]; rfl) (by rw [hm]) (by rw [hm]; exact fun _ _ => .rfl)
    (by rw [hm]; exact demoCut_ok) cloneLines (ascii "\n") [] cloneLines_ok
  have q1 := k1 [] app_clean_url (.inl rfl)
  have hlen : ∀ (H : BothHist), H = setHist pack → (runBoth demoServer .empty H).web.db.nodes.length ≤ m2.fuel := fun H e => by rw [e, hm2]
  obtain ⟨file, ms, out', file', ms', r1, r2, _, r4, _, r6, r7, r8, _, r10⟩ := C155_stays_partial demoServer demoFold_hash (ascii "/app") (askHist pack) [(backMoment, .http setBack)] f2 (set_above pack)
    (few_unique libObjects_ids objs2) (few_fits (by decide) lib_big objs2) m (by rw [hm]; rfl) (by rw [hm]; exact fun _ _ => .rfl) (by rw [hm]; exact demoCut_ok)
    cloneLines (ascii "\n") [] out cloneLines_ok (.http [] app_clean_url (.inl rfl) q1) m2 (by rw [hm2]; rfl) (hlen _ rfl) (by rw [hm2]; exact fun _ _ => .rfl)
    (by rw [hm2]; exact demoCut_ok) cloneLines (ascii "\n") [] cloneLines_ok
  have same : ∀ x ∈ ms0, x ∈ ms := by
    rw [k3] at r1
    cases r1
    intro x hx
    obtain ⟨a, a1, _, a2⟩ := k4.2 (fun _ => none) 0
    obtain ⟨b, b1, _, b2⟩ := r2.2 (fun _ => none) 0
    rw [show decodePack demoServer.X (fun _ => none) (0 + 1) file0 = .ok a from a1] at b1
    cases b1
    exact ((b2 _ _).1 ((a2 _ _).2 ⟨hx, rfl⟩)).1
  have has : ∀ x ∈ libObjects, x.t = .commit → x ∈ ms := fun x hx ht => same x ((k5 x).2 ⟨libEntries, by simp, (lib_found _ _).2 ⟨hx, rfl⟩, .inl ht⟩)
  have happ := has (metaOf polyExt (.commit, appCommit.encode)) (by decide +kernel) rfl
  obtain ⟨p, q, d1, d2, d3⟩ := r10 (fun _ => none) 0 (fun _ => none) 0
  exact ⟨pack, m, m2, out, file, out', file', ms, ms', q1, r4 [] app_clean_url (.inl rfl), r1, r6, r2, r7, happ, has _ (by decide +kernel) rfl, r8, p, q, d1, d2, d3 _ happ rfl⟩

/-- C155: somebody asks for the refs of another repository; a clone made then has exactly the objects of the one made before. -/
example : ∃ (pack : Bytes) (m m2 : Moment) (out file out' file' : Bytes) (ms ms' : List MetaData),
    (serve demoServer m (runBoth demoServer .empty (onceHist pack)).web (Spec.fetchReq (ascii "/app" ++ []) (doneBody cloneLines (ascii "\n") []))).1 = .reply (.ok (.bytes out)) ∧
    (serve demoServer m2 (runBoth demoServer .empty (onceHist pack ++ lookedAt)).web
      (Spec.fetchReq (ascii "/app" ++ []) (doneBody cloneLines (ascii "\n") []))).1 = .reply (.ok (.bytes out')) ∧
    Spec.readClone out = some file ∧ Spec.readClone out' = some file' ∧ PackHas polyExt file ms ∧ PackHas polyExt file' ms' ∧ (∃ x ∈ ms, x.t = .commit) ∧ ms.Perm ms' := by
  obtain ⟨pack, _, _, _, hpack, hpush, _, _, _, e1, _⟩ := twice_pushed
  have objs := (back_stored hpack hpush).1
  have e := lookedAt_db e1
  have no : Spec.NoPack demoServer (ascii "/app") (runBoth demoServer .empty (onceHist pack)) lookedAt := by
    refine ⟨fun a ha => ?_, trivial⟩
    rw [show route (Spec.refsReq (ascii "/lib") .uploadPack).method (Spec.refsReq (ascii "/lib") .uploadPack).path (Spec.refsReq (ascii "/lib") .uploadPack).service =
      .infoRefs (ascii "/lib") .uploadPack from lookedAt_route] at ha
    cases ha
  have p0 : Spec.Published demoServer (ascii "/app") (onceHist pack) [libEntries] [(appCmd.new, ascii "refs/heads/master")] :=
    .push [] (onceHist pack) [] [] _ backMoment appCmd (ascii "report-status") pack libEntries .nothing (once_publishes hpack) once_moved
  obtain ⟨m, hm⟩ : ∃ m : Moment, m = { demoMoment with fuel := (runBoth demoServer .empty (onceHist pack)).web.db.nodes.length } := ⟨_, rfl⟩
  have sub : ∀ x ∈ onceHist pack ++ lookedAt, x ∈ setHist pack := fun x hx => List.mem_append_left _ hx
  have sub0 : ∀ x ∈ onceHist pack, x ∈ setHist pack := fun x hx => sub x (List.mem_append_left _ hx)
  have f2 : Spec.SameFoldAny demoFold (setHist pack) := fun x hx => (set_names pack x hx).1
  obtain ⟨out, _, _, k1, _⟩ := C152_exact_partial demoServer demoFold_hash (ascii "/app") (onceHist pack) _ _ p0 (sameFoldAny_sub sub0 f2) (noneAboveAny_sub sub0 (set_above pack))
    (few_unique libObjects_ids objs) (few_fits (by decide) lib_big objs) ⟨libEntries, by simp, _, lib_given⟩ m (by rw [hm]; rfl) (by rw [hm]) (by rw [hm]; exact fun _ _ => .rfl)
    (by rw [hm]; exact demoCut_ok) cloneLines (ascii "\n") [] cloneLines_ok
  have q1 := k1 [] app_clean_url (.inl rfl)
  obtain ⟨file, ms, out', file', ms', r1, r2, r3, r4, _, r6, r7, _, r9, _⟩ := C155_stays_partial demoServer demoFold_hash (ascii "/app") (onceHist pack) lookedAt (sameFoldAny_sub sub f2)
    (noneAboveAny_sub sub (set_above pack)) (by rw [e]; exact few_unique libObjects_ids objs) (by rw [e]; exact few_fits (by decide) lib_big objs) m (by rw [hm]; rfl)
    (by rw [hm]; exact fun _ _ => .rfl) (by rw [hm]; exact demoCut_ok) cloneLines (ascii "\n") [] out cloneLines_ok (.http [] app_clean_url (.inl rfl) q1) m (by rw [hm]; rfl)
    (by rw [e, hm]) (by rw [hm]; exact fun _ _ => .rfl) (by rw [hm]; exact demoCut_ok) cloneLines (ascii "\n") [] cloneLines_ok
  exact ⟨pack, m, m, out, file, out', file', ms, ms', q1, r4 [] app_clean_url (.inl rfl), r1, r6, r2, r7, r3, r9 no⟩

end Gust

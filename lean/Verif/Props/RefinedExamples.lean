import Verif.Props.Refined
import Verif.Props.AgainExamples

/-! # C152 on a concrete run -/

namespace Gust

/-- A project is pushed, somebody asks for the refs of another repository, `master` is set back. -/
def askHist (pack : Bytes) : BothHist := onceHist pack ++ lookedAt
def setHist (pack : Bytes) : BothHist := askHist pack ++ [(backMoment, .http setBack)]

theorem set_names (pack : Bytes) : ∀ x ∈ setHist pack, x.1.sql.fold = demoFold ∧ ∀ a, x.2.repo = some a → a = ascii "/app" ∨ a = ascii "/lib" := by
  intro x hx
  have : x = (backMoment, .http (bothCommits pack)) ∨ x = (demoMoment, .http (Spec.refsReq (ascii "/lib") .uploadPack)) ∨ x = (backMoment, .http setBack) := by
    simpa [setHist, askHist, onceHist, lookedAt] using hx
  rcases this with rfl | rfl | rfl
  · refine ⟨rfl, fun a e => .inl ?_⟩
    simp only [Visit.repo, HttpReq.repo, bothCommits, Spec.pushReq, route_push app_clean_url (.inl rfl)] at e
    exact (Option.some.inj e).symm
  · refine ⟨rfl, fun a e => .inr ?_⟩
    rw [show Visit.repo (.http (Spec.refsReq (ascii "/lib") .uploadPack)) = some (ascii "/lib") by decide +kernel] at e
    exact (Option.some.inj e).symm
  · refine ⟨rfl, fun a e => .inl ?_⟩
    simp only [Visit.repo, HttpReq.repo, setBack, Spec.pushReq, route_push app_clean_url (.inl rfl)] at e
    exact (Option.some.inj e).symm

theorem set_above (pack : Bytes) : Spec.NoneAboveAny demoFold (ascii "/app") (setHist pack) := by
  intro x hx y hy a b ha hb e hp
  rcases (set_names pack y hy).2 b hb with rfl | rfl
  · rcases (set_names pack x hx).2 a ha with rfl | rfl
    · rfl
    · exact absurd hp (by decide +kernel)
  · exact absurd e (by decide +kernel)

/-- Asking changes nothing. -/
theorem lookedAt_db {h : BothHist} (hr : (runBoth demoServer .empty h).web.db.refs = [bothRow]) : (runBoth demoServer .empty (h ++ lookedAt)).web.db = (runBoth demoServer .empty h).web.db := by
  rw [show h ++ lookedAt = h ++ [(demoMoment, .http (Spec.refsReq (ascii "/lib") .uploadPack))] from rfl, runBoth_concat]
  rcases both_change demoServer demoMoment (runBoth demoServer .empty h) (.http (Spec.refsReq (ascii "/lib") .uploadPack)) with e | ⟨a, ha, e⟩ | ⟨a, file, p, hs, _⟩
  · exact e
  · rw [show Visit.repo (.http (Spec.refsReq (ascii "/lib") .uploadPack)) = some (ascii "/lib") by decide +kernel] at ha
    cases ha
    rw [e]
    refine getHead_same _ _ _ _ fun r hr' hp => ?_
    rw [hr] at hr'
    rw [List.mem_singleton.1 hr'] at hp
    exact absurd hp (by decide +kernel)
  · have := hs.1
    rw [show route (Spec.refsReq (ascii "/lib") .uploadPack).method (Spec.refsReq (ascii "/lib") .uploadPack).path (Spec.refsReq (ascii "/lib") .uploadPack).service =
      .infoRefs (ascii "/lib") .uploadPack from lookedAt_route] at this
    cases this

theorem once_publishes {pack : Bytes} (hpack : Spec.PackOf polyExt demoFold Db.empty pack libEntries) :
    Spec.Publishes demoServer (ascii "/app") [] (onceHist pack) backMoment appCmd (ascii "report-status") pack libEntries :=
  ⟨appCmd_ok, by decide, by decide, back_accepts, hpack, lib_project, by rw [show libEntries.length = 6 from objectsAt_length polyExt 12 libObjects]; decide, .http [] [] app_clean_url (.inl rfl)⟩

theorem set_publishes (h : BothHist) : Spec.Publishes demoServer (ascii "/app") h (h ++ [(backMoment, .http setBack)]) backMoment backCmd (ascii "report-status") noObjects [] :=
  ⟨backCmd_ok, by decide, by decide, back_accepts, noObjects_packOf _ _, noObjects_project, by decide, .http h [] app_clean_url (.inl rfl)⟩

theorem once_moved : Spec.Moved demoFold appCmd [] [(appCmd.new, ascii "refs/heads/master")] := ⟨by decide +kernel, .inl ⟨rfl, rfl⟩⟩

theorem set_moved : Spec.Moved demoFold backCmd [(appCmd.new, ascii "refs/heads/master")] [(backCmd.new, ascii "refs/heads/master")] :=
  ⟨by decide +kernel, .inr ⟨by decide +kernel, [], [], rfl, fun _ h => (nomatch h), rfl⟩⟩

theorem stored_refs {db : Db} {refs : List RefRow} {o : Spec.Obj} (h : StoredObj { db with refs := refs } o) : StoredObj db o := h

/-- What has been published in the example, and what is stored. -/
theorem set_published : ∃ pack, Spec.Published demoServer (ascii "/app") (askHist pack) [libEntries] [(appCmd.new, ascii "refs/heads/master")] ∧
    Spec.Published demoServer (ascii "/app") (setHist pack) [[], libEntries] [(backCmd.new, ascii "refs/heads/master")] ∧
    (∀ o, StoredObj (runBoth demoServer .empty (askHist pack)).web.db o → metaOf polyExt o ∈ libObjects) ∧
    ∀ o, StoredObj (runBoth demoServer .empty (setHist pack)).web.db o → metaOf polyExt o ∈ libObjects := by
  obtain ⟨pack, _, _, _, hpack, hpush, _, _, _, e1, _⟩ := twice_pushed
  have objs := (back_stored hpack hpush).1
  have e := lookedAt_db e1
  have no : Spec.NoPack demoServer (ascii "/app") (runBoth demoServer .empty (onceHist pack)) lookedAt := by
    refine ⟨fun a ha => ?_, trivial⟩
    rw [show route (Spec.refsReq (ascii "/lib") .uploadPack).method (Spec.refsReq (ascii "/lib") .uploadPack).path (Spec.refsReq (ascii "/lib") .uploadPack).service =
      .infoRefs (ascii "/lib") .uploadPack from lookedAt_route] at ha
    cases ha
  have p1 : Spec.Published demoServer (ascii "/app") (askHist pack) [libEntries] [(appCmd.new, ascii "refs/heads/master")] :=
    .others (onceHist pack) lookedAt _ _ (.push [] (onceHist pack) [] [] _ backMoment appCmd (ascii "report-status") pack libEntries .nothing (once_publishes hpack) once_moved) no
  refine ⟨pack, p1, .push (askHist pack) (setHist pack) _ _ _ backMoment backCmd (ascii "report-status") noObjects [] p1 (set_publishes (askHist pack)) set_moved, ?_, ?_⟩
  · intro o ho
    rw [show askHist pack = onceHist pack ++ lookedAt from rfl, e] at ho
    exact objs o ho
  · have hsent : Spec.SentAny demoServer (ascii "/app") backCmd (ascii "report-status") noObjects backMoment (askHist pack) (setHist pack) := (set_publishes (askHist pack)).sent
    obtain ⟨rep, _, r2, _⟩ := C126_both_moved_partial demoServer (ascii "/app") (askHist pack) (setHist pack) backMoment backCmd backCmd_ok (by decide +kernel) (by decide +kernel)
      (ascii "report-status") (by decide) (by decide) noObjects Hash.zero (noObjects_pack _) [] []
      (by rw [show askHist pack = onceHist pack ++ lookedAt from rfl, e, e1]; rfl) (fun _ h => nomatch h) rfl hsent
    rw [r2, show askHist pack = onceHist pack ++ lookedAt from rfl, e]
    intro o ho
    exact objs o (stored_refs ho)

theorem lib_given : Spec.Given polyExt libEntries (metaOf polyExt (.commit, appCommit.encode)) :=
  ⟨(lib_found _ _).2 ⟨by decide +kernel, rfl⟩, .inl rfl⟩

/-- C152: setting `master` back is answered with `ok`. -/
example : ∃ pack rep, (serve demoServer backMoment (runBoth demoServer .empty (askHist pack)).web setBack).1 = .reply (.ok (.bytes rep)) ∧
    Spec.reportLines false rep = some [ascii "unpack ok\n", ascii "ok refs/heads/master" ++ [0]] := by
  obtain ⟨pack, p1, _, objs, _⟩ := set_published
  obtain ⟨rep, r1, r2⟩ := C152_accepted_partial demoServer demoFold_hash (ascii "/app") (askHist pack) (setHist pack) _ _ _ p1 (fun x hx => (set_names pack x hx).1) (set_above pack)
    (few_unique libObjects_ids objs) backMoment backCmd (ascii "report-status") noObjects [] (set_publishes (askHist pack)) set_moved
  rw [show decide (Capability.sideBand ∈ parseCapabilities (ascii "report-status") ∨ Capability.sideBand64k ∈ parseCapabilities (ascii "report-status")) = false by decide +kernel,
    show Spec.statusLine (backCmd.name ++ [0]) none = ascii "ok refs/heads/master" ++ [0] by decide] at r2
  exact ⟨pack, rep, pushed_serve r1 rfl, r2⟩

theorem lib_big : ∀ m ∈ libObjects, m.data.length < 2 ^ 61 ∧ (MetaData.convertToVec polyExt m).length ≤ 10000 := by decide +kernel

/-- C152: the clone after that has both commits, and nothing that is not of the project. -/
example : ∃ (pack : Bytes) (m2 : Moment) (out file : Bytes) (ms : List MetaData),
    (serve demoServer m2 (runBoth demoServer .empty (setHist pack)).web (Spec.fetchReq (ascii "/app" ++ []) (doneBody cloneLines (ascii "\n") []))).1 = .reply (.ok (.bytes out)) ∧
    Spec.readClone out = some file ∧ PackHas polyExt file ms ∧ (∀ m ∈ libObjects, m.t = .commit → m ∈ ms) ∧ ∀ m ∈ ms, m ∈ libObjects := by
  obtain ⟨pack, _, p2, _, objs⟩ := set_published
  obtain ⟨m2, hm2⟩ : ∃ m2 : Moment, m2 = { demoMoment with fuel := (runBoth demoServer .empty (setHist pack)).web.db.nodes.length } := ⟨_, rfl⟩
  obtain ⟨out, file, ms, k1, _, k3, k4, k5⟩ := C152_exact_partial demoServer demoFold_hash (ascii "/app") (setHist pack) _ _ p2 (fun x hx => (set_names pack x hx).1) (set_above pack)
    (few_unique libObjects_ids objs) (few_fits (by decide) lib_big objs) ⟨libEntries, by simp, _, lib_given⟩ m2 (by rw [hm2]; rfl) (by rw [hm2]) (by rw [hm2]; exact fun _ _ => .rfl)
    (by rw [hm2]; exact demoCut_ok) cloneLines (ascii "\n") [] cloneLines_ok
  refine ⟨pack, m2, out, file, ms, k1 [] app_clean_url (.inl rfl), k3, k4, fun m hm ht => ?_, fun m hm => ?_⟩
  · exact (k5 m).2 ⟨libEntries, by simp, (lib_found _ _).2 ⟨hm, rfl⟩, .inl ht⟩
  · obtain ⟨os, h1, h2⟩ := (k5 m).1 hm
    simp only [List.mem_cons, List.not_mem_nil, or_false] at h1
    rcases h1 with rfl | rfl
    · exact nomatch h2.1
    · exact ((lib_found _ _).1 h2.1).1

/-- C152: whoever asks is told of one branch, `master`, at the commit to which it was set back. -/
example : ∃ (pack head : Bytes) (refs : List (Bytes × Bytes)), Spec.ToldBoth demoServer (ascii "/app") .uploadPack demoMoment (setHist pack) head refs ∧
    refs = [(backCmd.new, ascii "refs/heads/master" ++ [0])] ∧ head = backCmd.new := by
  obtain ⟨pack, _, p2, _, objs⟩ := set_published
  obtain ⟨head, refs, k1, k2, name, k3, _⟩ := C152_branches_partial demoServer demoFold_hash (ascii "/app") (by decide) (setHist pack) _ _ p2 (fun x hx => (set_names pack x hx).1) (set_above pack)
    (few_unique libObjects_ids objs) (by simp) ⟨_, .head _, by decide +kernel⟩ demoMoment rfl .uploadPack
  exact ⟨pack, head, refs, k1, List.perm_singleton.1 k2, congrArg Prod.fst (List.mem_singleton.1 k3)⟩

/-- C152: clones before and after that have the same objects. -/
example : ∃ (pack : Bytes) (m m' : Moment) (out out' file file' : Bytes) (ms ms' : List MetaData),
    (serve demoServer m (runBoth demoServer .empty (askHist pack)).web (Spec.fetchReq (ascii "/app" ++ []) (doneBody cloneLines (ascii "\n") []))).1 = .reply (.ok (.bytes out)) ∧
    (serve demoServer m' (runBoth demoServer .empty (setHist pack)).web (Spec.fetchReq (ascii "/app" ++ []) (doneBody cloneLines (ascii "\n") []))).1 = .reply (.ok (.bytes out')) ∧
    Spec.readClone out = some file ∧ Spec.readClone out' = some file' ∧ PackHas polyExt file ms ∧ PackHas polyExt file' ms' ∧ ms.Perm ms' := by
  obtain ⟨pack, p1, p2, objs1, objs2⟩ := set_published
  obtain ⟨m, hm⟩ : ∃ m : Moment, m = { demoMoment with fuel := (runBoth demoServer .empty (askHist pack)).web.db.nodes.length } := ⟨_, rfl⟩
  obtain ⟨m', hm'⟩ : ∃ m : Moment, m = { demoMoment with fuel := (runBoth demoServer .empty (setHist pack)).web.db.nodes.length } := ⟨_, rfl⟩
  have sub : ∀ x ∈ askHist pack, x ∈ setHist pack := fun x hx => List.mem_append_left _ hx
  have f2 : Spec.SameFoldAny demoFold (setHist pack) := fun x hx => (set_names pack x hx).1
  have f1 := sameFoldAny_sub sub f2
  have a1 := noneAboveAny_sub sub (set_above pack)
  obtain ⟨out, _, _, k1, _⟩ := C152_exact_partial demoServer demoFold_hash (ascii "/app") (askHist pack) _ _ p1 f1 a1
    (few_unique libObjects_ids objs1) (few_fits (by decide) lib_big objs1) ⟨libEntries, by simp, _, lib_given⟩ m (by rw [hm]; rfl) (by rw [hm]) (by rw [hm]; exact fun _ _ => .rfl)
    (by rw [hm]; exact demoCut_ok) cloneLines (ascii "\n") [] cloneLines_ok
  obtain ⟨out', _, _, k1', _⟩ := C152_exact_partial demoServer demoFold_hash (ascii "/app") (setHist pack) _ _ p2 f2 (set_above pack)
    (few_unique libObjects_ids objs2) (few_fits (by decide) lib_big objs2) ⟨libEntries, by simp, _, lib_given⟩ m' (by rw [hm']; rfl) (by rw [hm']) (by rw [hm']; exact fun _ _ => .rfl)
    (by rw [hm']; exact demoCut_ok) cloneLines (ascii "\n") [] cloneLines_ok
  have q1 := k1 [] app_clean_url (.inl rfl)
  have q2 := k1' [] app_clean_url (.inl rfl)
  obtain ⟨file, file', ms, ms', r⟩ := C152_same_partial demoServer demoFold_hash (ascii "/app") (ascii "/app") (askHist pack) (setHist pack) _ _ _ _ p1 p2
    (fun x => ⟨fun ⟨os, h1, h2⟩ => ⟨os, .tail _ h1, h2⟩, fun ⟨os, h1, h2⟩ => by
      rcases List.mem_cons.1 h1 with rfl | h1
      · exact nomatch h2.1
      · exact ⟨os, h1, h2⟩⟩) f1 f2 a1 (set_above pack) (few_unique libObjects_ids objs1) (few_unique libObjects_ids objs2) (few_fits (by decide) lib_big objs1)
    (few_fits (by decide) lib_big objs2) m m' (by rw [hm]; rfl) (by rw [hm']; rfl) (by rw [hm]; exact fun _ _ => .rfl) (by rw [hm]; exact demoCut_ok) (by rw [hm']; exact fun _ _ => .rfl)
    (by rw [hm']; exact demoCut_ok) cloneLines cloneLines (ascii "\n") [] (ascii "\n") [] out out' cloneLines_ok cloneLines_ok (.http [] app_clean_url (.inl rfl) q1)
    (.http [] app_clean_url (.inl rfl) q2)
  exact ⟨pack, m, m', out, out', file, file', ms, ms', q1, q2, r⟩

end Gust

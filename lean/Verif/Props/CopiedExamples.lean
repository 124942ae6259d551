import Verif.Props.Copied
import Verif.Props.RefinedExamples

/-! # C153 on a concrete run -/

namespace Gust

theorem lib_all_given : ∀ m ∈ libObjects, Spec.Given polyExt libEntries m := by
  have find : ∀ m ∈ libObjects, Spec.found polyExt libEntries m.id = some m := fun m hm => (lib_found _ _).2 ⟨hm, rfl⟩
  have r1 : Spec.PackReach (Spec.found polyExt libEntries) appCommit.treeId :=
    .commit (metaOf polyExt (.commit, appCommit.encode)) appCommit (find _ (by decide +kernel)) rfl appCommit_decode
  have at1 : ∀ i ∈ appItems, Spec.PackReach (Spec.found polyExt libEntries) i.id := fun i hi =>
    .item (metaOf polyExt (.tree, encodeTree appItems)) appItems i r1 (find _ (by simp [libObjects, appObjects, appThin])) rfl appItems_decode hi
  have r2 : Spec.PackReach (Spec.found polyExt libEntries) (metaOf polyExt (.tree, encodeTree srcA)).id := at1 _ (.tail _ (.head _))
  have at2 : ∀ i ∈ srcA, Spec.PackReach (Spec.found polyExt libEntries) i.id := fun i hi =>
    .item (metaOf polyExt (.tree, encodeTree srcA)) srcA i r2 (find _ (by simp [libObjects, appObjects, appThin])) rfl srcA_decode hi
  intro m hm
  refine ⟨find m hm, ?_⟩
  have : (m = metaOf polyExt (.commit, appCommit.encode) ∨ m = metaOf polyExt (.tree, encodeTree appItems) ∨
      m = metaOf polyExt (.tree, encodeTree srcA) ∨ m = libBlob ∨ m = appBlob) ∨ m = metaOf polyExt (.commit, srcCommit.encode) := by
    simpa [libObjects, appObjects, appThin, libBlob, or_assoc] using hm
  rcases this with (rfl | rfl | rfl | rfl | rfl) | rfl
  · exact .inl rfl
  · exact .inr r1
  · exact .inr r2
  · exact .inr (at1 _ (.head _))
  · exact .inr (at2 _ (.head _))
  · exact .inl rfl

/-- The clone of `/app`, pushed to `/lib`. -/
def copyPush (pack : Bytes) : HttpReq := Spec.pushReq (ascii "/lib" ++ []) (Spec.pushBody appCmd [] (ascii "report-status") pack)
def copyHist (pack pack' : Bytes) : BothHist := askHist pack ++ [(backMoment, .http (copyPush pack'))]

theorem copy_clean_url : Spec.CleanUrl (ascii "/lib") := lib_clean_url

theorem copy_names (pack pack' : Bytes) : ∀ x ∈ copyHist pack pack', x.1.sql.fold = demoFold ∧ ∀ a, x.2.repo = some a → a = ascii "/app" ∨ a = ascii "/lib" := by
  intro x hx
  rcases List.mem_append.1 hx with hx | hx
  · exact set_names pack x (List.mem_append_left _ hx)
  · rw [List.mem_singleton.1 hx]
    refine ⟨rfl, fun a e => .inr ?_⟩
    simp only [Visit.repo, HttpReq.repo, copyPush, Spec.pushReq, route_push copy_clean_url (.inl rfl)] at e
    exact (Option.some.inj e).symm

theorem copy_fold (pack pack' : Bytes) : Spec.SameFoldAny demoFold (copyHist pack pack' ++ []) := by
  rw [List.append_nil]
  exact fun x hx => (copy_names pack pack' x hx).1

theorem copy_above (pack pack' : Bytes) : Spec.NoneAboveAny demoFold (ascii "/lib") (copyHist pack pack' ++ []) := by
  rw [List.append_nil]
  intro x hx y hy a b ha hb e hp
  rcases (copy_names pack pack' y hy).2 b hb with rfl | rfl
  · exact absurd e (by decide +kernel)
  · rcases (copy_names pack pack' x hx).2 a ha with rfl | rfl
    · exact absurd hp (by decide +kernel)
    · rfl

theorem copy_noPack (pack : Bytes) : Spec.NoPack demoServer (ascii "/lib") .empty (askHist pack) := by
  refine ⟨fun a ha => ?_, fun a ha => ?_, trivial⟩
  · simp only [bothCommits, Spec.pushReq, route_push app_clean_url (.inl rfl)] at ha
    cases ha
    exact fun e => absurd e (show demoFold (ascii "/app") ≠ demoFold (ascii "/lib") by decide +kernel)
  · rw [show route (Spec.refsReq (ascii "/lib") .uploadPack).method (Spec.refsReq (ascii "/lib") .uploadPack).path (Spec.refsReq (ascii "/lib") .uploadPack).service =
      .infoRefs (ascii "/lib") .uploadPack from lookedAt_route] at ha
    cases ha

/-- C153: the copy is accepted, and a clone of it has the objects of the clone of the original. -/
example : ∃ (pack pack' : Bytes) (m m2 : Moment) (out rep out' file file' : Bytes) (ms ms' : List MetaData),
    (serve demoServer m (runBoth demoServer .empty (askHist pack)).web (Spec.fetchReq (ascii "/app" ++ []) (doneBody cloneLines (ascii "\n") []))).1 = .reply (.ok (.bytes out)) ∧
    Spec.readClone out = some file ∧ PackHas polyExt file ms ∧
    (serve demoServer backMoment (runBoth demoServer .empty (askHist pack)).web (copyPush pack')).1 = .reply (.ok (.bytes rep)) ∧
    (serve demoServer m2 (runBoth demoServer .empty (askHist pack ++ [(backMoment, .http (copyPush pack'))])).web
      (Spec.fetchReq (ascii "/lib" ++ []) (doneBody cloneLines (ascii "\n") []))).1 = .reply (.ok (.bytes out')) ∧
    Spec.readClone out' = some file' ∧ PackHas polyExt file' ms' ∧ ms.Perm ms' := by
  obtain ⟨pack, p1, _, objs1, _⟩ := set_published
  have sub : ∀ x ∈ askHist pack, x ∈ setHist pack := fun x hx => List.mem_append_left _ hx
  have f1 : Spec.SameFoldAny demoFold (askHist pack) := sameFoldAny_sub sub fun x hx => (set_names pack x hx).1
  have a1 := noneAboveAny_sub sub (set_above pack)
  obtain ⟨m, hm⟩ : ∃ m : Moment, m = { demoMoment with fuel := (runBoth demoServer .empty (askHist pack)).web.db.nodes.length } := ⟨_, rfl⟩
  obtain ⟨out, _, _, k1, _⟩ := C152_exact_partial demoServer demoFold_hash (ascii "/app") (askHist pack) _ _ p1 f1 a1
    (few_unique libObjects_ids objs1) (few_fits (by decide) lib_big objs1) ⟨libEntries, by simp, _, lib_given⟩ m (by rw [hm]; rfl) (by rw [hm]) (by rw [hm]; exact fun _ _ => .rfl)
    (by rw [hm]; exact demoCut_ok) cloneLines (ascii "\n") [] cloneLines_ok
  have q1 := k1 [] app_clean_url (.inl rfl)
  obtain ⟨file, ms, r1, r2, r3, key⟩ := C153_copied_partial demoServer demoFold_hash (ascii "/app") (askHist pack) _ _ p1 f1 a1 (few_unique libObjects_ids objs1)
    (few_fits (by decide) lib_big objs1) m (by rw [hm]; rfl) (by rw [hm]; exact fun _ _ => .rfl) (by rw [hm]; exact demoCut_ok) cloneLines (ascii "\n") [] out cloneLines_ok
    (.http [] app_clean_url (.inl rfl) q1)
  have hms : ∀ x, x ∈ ms ↔ ∃ q ∈ libEntries, metaOf polyExt q.2 = x := by
    intro x
    have e : (∃ q ∈ libEntries, metaOf polyExt q.2 = x) ↔ x ∈ libObjects := by
      have := lib_found x.id x
      rw [found_iff libEntries_ids] at this
      simpa using this
    rw [r3, e]
    simp only [List.mem_singleton, exists_eq_left]
    exact ⟨fun h => ((lib_found _ _).1 h.1).1, lib_all_given x⟩
  have hlen : libEntries.length = 6 := objectsAt_length polyExt 12 libObjects
  obtain ⟨pack', hpack'⟩ := lib_packOf demoFold (runBoth demoServer .empty (askHist pack)).web.db
  have hsent : Spec.SentAny demoServer (ascii "/lib") appCmd (ascii "report-status") pack' backMoment (askHist pack) (copyHist pack pack') :=
    .http (askHist pack) [] copy_clean_url (.inl rfl)
  obtain ⟨rep, hpush, _⟩ := C111_both_partial demoServer demoFold_hash (ascii "/lib") (askHist pack) _ backMoment (few_unique libObjects_ids objs1) rfl back_accepts appCmd appCmd_ok
    (ascii "report-status") (by decide) (by decide) (.inl rfl) libEntries pack' hpack' lib_project (by rw [hlen]; decide) hsent
  have objs2 := lib_again hpack' objs1 hpush
  obtain ⟨m2, hm2⟩ : ∃ m2 : Moment, m2 = { demoMoment with fuel := (runBoth demoServer .empty (copyHist pack pack')).web.db.nodes.length } := ⟨_, rfl⟩
  have hnil : ∀ (H : BothHist), H = copyHist pack pack' → (runBoth demoServer .empty H).web.db.nodes.length ≤ m2.fuel := fun H e => by rw [e, hm2]
  obtain ⟨_, k2⟩ := key (ascii "/lib") (askHist pack) (copyHist pack pack') [] backMoment appCmd (ascii "report-status") pack' libEntries hms (copy_noPack pack)
    appCmd_ok rfl (by decide +kernel) (by decide) (by decide) back_accepts hpack' (by rw [hlen]; decide) hsent trivial (copy_fold pack pack') (copy_above pack pack')
    (by rw [List.append_nil]; exact few_unique libObjects_ids objs2) (by rw [List.append_nil]; exact few_fits (by decide) lib_big objs2)
  obtain ⟨out', file', ms', o1, _, o3, o4, o5⟩ := k2 m2 cloneLines (ascii "\n") [] (by rw [hm2]; rfl) (hnil _ (List.append_nil _)) (by rw [hm2]; exact fun _ _ => .rfl)
    (by rw [hm2]; exact demoCut_ok) cloneLines_ok
  have o1 := o1 [] copy_clean_url (.inl rfl)
  rw [List.append_nil] at o1
  exact ⟨pack, pack', m, m2, out, rep, out', file, file', ms, ms', q1, r1, r2, pushed_serve hpush rfl, o1, o3, o4, o5⟩

end Gust

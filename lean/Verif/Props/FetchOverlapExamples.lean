import Verif.Props.FetchOverlap
import Verif.Props.AcksExamples

/-! # C108 on a concrete run -/

namespace Gust

open Spec (nodeObj StoreReach commitsAt InRepo)

/-- The master of `/app` is wanted by a client that has it already. -/
def againLines : List Spec.ReqLine := [.want appCmd.new (ascii " multi_ack_detailed side-band-64k\n"), .flush, .have_ appCmd.new (ascii "\n")]

theorem againLines_ok : ∀ l ∈ againLines, l.Ok := by
  intro l hl
  simp only [againLines, List.mem_cons, List.not_mem_nil, or_false] at hl
  rcases hl with rfl | rfl | rfl
  · exact ⟨appCmd_ok.2.2.1, appCmd_ok.2.2.2.1, ⟨0x20, ascii "multi_ack_detailed side-band-64k\n", by decide, by decide⟩, by decide⟩
  · trivial
  · exact ⟨appCmd_ok.2.2.1, appCmd_ok.2.2.2.1, ⟨10, [], by decide, by simp⟩, by decide⟩

theorem againLines_asks : Spec.Asks againLines (ascii "multi_ack_detailed") :=
  ⟨ascii " multi_ack_detailed side-band-64k\n", [ascii "multi_ack_detailed", ascii "side-band-64k\n"], rfl, ⟨by decide, by decide, by decide⟩, .inl (by decide)⟩

/-- A request for `/app` during which a push to `/other` arrives and stores its objects: ids the client has are looked up before, the commits read before, everything else after. -/
theorem app_moments : ∃ (first last : Sys) (T : Spec.FetchMoments) (r : CommitRow), (∃ p, (∀ h m, p.result.hashObject h = some m ↔ m ∈ appObjects ∧ m.id = h) ∧
    first.pushed = [(0, ascii "/app", p)] ∧ SysRun polyExt AppSql AppPaths OwnCommit Sys.empty first) ∧ Spec.FetchDuring polyExt demoFold AppPaths OwnCommit first T last ∧ first.tasks = [some []] ∧
    (T.pack 1).2.tasks = [some [], some (refActs appCreate (ascii "/other"))] ∧ (∀ o, StoredObj last.db o → metaOf polyExt o ∈ appObjects) ∧
    r ∈ commitsAt demoFold first.db.commits (ascii "/app") ∧ r.data = appCommit.encode := by
  obtain ⟨p, a, b, h1, h2, hobj, ha1, ha2, _, hb1, hb2, _, objs, _⟩ := app_two
  have h1' := h1.weaken (Q' := fun E => E.fold = demoFold) fun E h => h.1
  have h2' := h2.weaken (Q' := fun E => E.fold = demoFold) fun E h => h.1
  have ext := sysRun_extends h2'
  have steps : ∀ k j : Nat, k ≤ j → SysRun polyExt (fun E => E.fold = demoFold) AppPaths OwnCommit (if k = 0 then a else b) (if j = 0 then a else b) := by
    intro k j hkj
    by_cases hk : k = 0
    · by_cases hj : j = 0
      · rw [if_pos hk, if_pos hj]; exact .refl _
      · rw [if_pos hk, if_neg hj]; exact h2'
    · rw [if_neg hk, if_neg (by omega)]; exact .refl _
  have to_b : ∀ (k : Nat) (_ : Bytes), SysRun polyExt (fun E => E.fold = demoFold) AppPaths OwnCommit (if k = 0 then a else b) b := by
    intro k _
    by_cases hk : k = 0
    · rw [if_pos hk]; exact h2'
    · rw [if_neg hk]; exact .refl _
  refine ⟨a, b, ⟨fun _ => (demoSqlRev, a), fun k => (demoSqlRev, if k = 0 then a else b), fun _ => (demoSql, b)⟩, ?_⟩
  obtain ⟨o, ho, e⟩ := (C82_overlapping_pushes_partial polyExt demoFold AppPaths OwnCommit (ascii "/app") (appPaths_above _) a h1' (ext.unique (app_unique objs))).2.2
      (h1.weaken fun E h => h.2) (0, ascii "/app", p) (by rw [ha1]; simp) (by rw [ha2]; rfl) (metaOf polyExt (.commit, appCommit.encode)) ((hobj _ _).2 ⟨by simp [appObjects, appThin], rfl⟩)
      (.inl rfl)
  cases ho with
  | commit r hr =>
    refine ⟨r, ⟨p, hobj, ha1, h1⟩, ⟨h1', fun _ => .refl _, fun _ => .refl _, fun k => steps k (k + 1) (by omega), to_b, fun _ => .refl _, fun _ => rfl, fun _ => rfl, fun _ => rfl⟩,
      ha2, hb2, objs, hr, (congrArg MetaData.data e).symm⟩
  | node r c x n =>
    have := congrArg MetaData.t e
    exfalso
    revert this
    show ObjectType.commit = (nodeObj n).1 → False
    unfold nodeObj
    split <;> simp

/-- C108: the clone of `/app` is answered with the commit, though a push to `/other` goes on. -/
example : ∃ (first last : Sys) (T : Spec.FetchMoments) (fuel : Nat) (out file : Bytes) (ms : List MetaData), Spec.FetchDuring polyExt demoFold AppPaths OwnCommit first T last ∧
    (T.pack 1).2.tasks = [some [], some (refActs appCreate (ascii "/other"))] ∧
    httpUploadPackL polyExt T.times fuel (ascii "/app") id demoCut (doneBody cloneLines (ascii "\n") []) = .ok out ∧ Spec.readClone out = some file ∧ PackHas polyExt file ms ∧
    metaOf polyExt (.commit, appCommit.encode) ∈ ms := by
  obtain ⟨first, last, T, r, _, hT, _, h2, objs, hr, e⟩ := app_moments
  obtain ⟨out, file, ms, c1, c2, c3, c4⟩ := C108_clone_partial polyExt demoFold demoFold_hash AppPaths OwnCommit (ascii "/app") (appPaths_above _) first last T hT (app_unique objs) (app_fits objs)
    _ (Nat.le_refl _) (List.ne_nil_of_mem hr) id (fun _ _ => .rfl) demoCut demoCut_ok cloneLines (ascii "\n") [] cloneLines_ok
  obtain ⟨q1, q2⟩ := commitsAt_mem.1 hr
  exact ⟨first, last, T, _, out, file, ms, hT, h2, c1, c2, c3, (c4 _).2 ⟨_, .commit r (commitsAt_mem.2 ⟨(sysRun_extends hT.at_pack.2.1).commits r q1, q2⟩), by rw [e]⟩⟩

/-- C108: a client that has the master of `/app` and wants it again is told that it is common and gets its tree. -/
example : ∃ (first last : Sys) (T : Spec.FetchMoments) (fuel : Nat) (out file : Bytes) (pkts : List Spec.Pkt) (ms : List MetaData), Spec.FetchDuring polyExt demoFold AppPaths OwnCommit first T last ∧
    (T.pack 1).2.tasks = [some [], some (refActs appCreate (ascii "/other"))] ∧
    httpUploadPackL polyExt T.times fuel (ascii "/app") id demoCut (doneBody againLines (ascii "\n") []) = .ok out ∧
    (∃ file, out = Spec.stream pkts ++ sendPack (requestCaps againLines) (demoCut file)) ∧ appCmd.new ∈ Spec.commonIds pkts ∧
    (∃ pkts, out = Spec.stream pkts ++ sendPack (requestCaps againLines) (demoCut file)) ∧ PackHas polyExt file ms ∧ ∃ m ∈ ms, m.id = appCommit.treeId := by
  obtain ⟨first, last, T, r, _, hT, _, h2, objs, hr, e⟩ := app_moments
  obtain ⟨q1, q2⟩ := commitsAt_mem.1 hr
  have hne : Spec.haveIds againLines ≠ [] := by simp [againLines, Spec.haveIds]
  have hw : Hash.toPlainStr (idOf polyExt (.commit, r.data)) ∈ Spec.wantIds againLines := by rw [e]; exact .head _
  obtain ⟨pkts, file, ms, c1, c2, c3, c4⟩ := C108_fetch_partial polyExt demoFold demoFold_hash AppPaths OwnCommit (ascii "/app") (appPaths_above _) first last T hT (app_unique objs) (app_fits objs)
    _ (Nat.le_refl _) id (fun _ _ => .rfl) demoCut againLines againLines_ok (ascii "\n") [] (by decide) hne againLines_asks r hr hw
  obtain ⟨pkts', file', d1, _, _, d4⟩ := C108_told_partial polyExt demoFold demoFold_hash AppPaths OwnCommit (ascii "/app") first last T hT _ id (fun _ _ => .rfl) demoCut againLines againLines_ok
    (ascii "\n") [] (by decide) hne _ c1
  refine ⟨first, last, T, _, _, file, pkts', ms, hT, h2, c1, ⟨file', d1⟩, d4 againLines_asks (idOf polyExt (.commit, appCommit.encode)) (.head _) ⟨r, q1, by rw [e]⟩, ⟨pkts, rfl⟩, c3, ?_⟩
  have ext := sysRun_extends hT.at_pack.2.1
  have inv := sysRun_inv (fun E h => h) (appPaths_above (ascii "/app")) (sysInv_empty polyExt demoFold AppPaths (ascii "/app")) hT.at_pack.1
  have ext' := sysRun_extends (hT.at_pack.2.2 0)
  have si := (inv.store (ext'.unique (app_unique objs))).1
  have hr' : r ∈ commitsAt demoFold (T.pack 0).2.db.commits (ascii "/app") := commitsAt_mem.2 ⟨ext.commits r q1, q2⟩
  obtain ⟨c, k1, ⟨n, k2, k3, _⟩, _⟩ := si.commits r hr'
  have k1' := k1
  rw [e, appCommit_decode] at k1'
  cases k1'
  refine ⟨_, (c4 _).2 ⟨nodeObj n, .node r _ _ n hr' hw k1 .refl k2 k3, rfl⟩, ?_⟩
  rw [si.id n k2] at k3
  exact Hash.toPlainStr_injective k3

end Gust

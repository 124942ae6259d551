import Verif.Props.ServerBoth
import Verif.Props.TagsBothExamples
import Verif.Props.ServerExamples

/-! # C76 on a concrete run over SSH -/

namespace Gust

theorem late_db : (runBoth demoServer .empty (tagBefore moveCmd)).web.db = .empty := by decide +kernel

theorem late_push : (runBoth demoServer .empty (tagBefore moveCmd)).link 0 =
    .ready (some { service := .receivePack, path := ascii "/app", caps := parseCapabilities (ascii "report-status"),
                   commands := [RefCommand.new moveCmd.old moveCmd.new (moveCmd.name ++ [0])] }) := by decide +kernel

theorem late_sent (pack : Bytes) :
    Spec.SentAny demoServer (ascii "/app") moveCmd (ascii "report-status") pack roomMoment (tagBefore moveCmd) (tagBefore moveCmd ++ [(roomMoment, .ssh 0 (.data 0 pack))]) :=
  .ssh [(demoMoment, .ssh 1 logIn), (demoMoment, .ssh 1 (askFor .uploadPack 0 (ascii "/app"))), (demoMoment, .ssh 0 logIn)] [] [] (tagBefore moveCmd) demoMoment demoMoment 0 0 0 0
    (by decide) (by decide) (fun _ h => nomatch h) (fun _ h => nomatch h) rfl _ late_push

/-- C76 fails over SSH: on connection 0 somebody wants to move `master` of `/app` from a commit that nobody has pushed, and sends five objects. There is no answer, and there is no ref; but
the commit and all it refers to belong to the repository now. -/
example : ∃ pack, (sshStep polyExt roomMoment (runBoth demoServer .empty (tagBefore moveCmd)).ssh 0 (.data 0 pack)).1 = [] ∧
    (runBoth demoServer .empty (tagBefore moveCmd ++ [(roomMoment, .ssh 0 (.data 0 pack))])).web.db.refs = [] ∧
    Spec.InRepo demoFold (runBoth demoServer .empty (tagBefore moveCmd ++ [(roomMoment, .ssh 0 (.data 0 pack))])).web.db (ascii "/app") (.commit, appCommit.encode) := by
  obtain ⟨pack, hpack⟩ := app_packOf demoServer.D.fold (runBoth demoServer .empty (tagBefore moveCmd)).web.db
  have hlen : appEntries.length = 5 := objectsAt_length polyExt 12 appObjects
  have hacc : Spec.Accepts roomMoment.sql := ⟨fun _ _ => rfl, fun _ _ => rfl, fun _ _ => rfl, fun _ _ => rfl⟩
  have hun : UniqueIds polyExt (runBoth demoServer .empty (tagBefore moveCmd)).web.db := by
    rw [late_db]
    intro a b ha
    rcases ha with ⟨n, hn, _⟩ | ⟨n, hn, _⟩ <;> cases hn
  have hstale : ¬ Spec.Applies demoServer.D.fold (runBoth demoServer .empty (tagBefore moveCmd)).web.db (ascii "/app") moveCmd := by
    rw [late_db]
    rintro (h | ⟨_, r, hr, _⟩)
    · exact absurd h (by decide +kernel)
    · cases hr
  obtain ⟨p, d1, d2, d3, d4, _⟩ := late_saved (P := demoServer) demoFold_hash rfl hun hacc moveCmd_ok (by decide) (by decide) hstale hpack app_project (by rw [hlen]; decide) (late_sent pack)
  have objs : ∀ o, StoredObj (runBoth demoServer .empty (tagBefore moveCmd ++ [(roomMoment, .ssh 0 (.data 0 pack))])).web.db o → metaOf polyExt o ∈ appObjects := by
    intro o ho
    rw [late_db] at d1 d3
    apply app_stored_objs d1 (fun h m => by rw [d2]; exact app_found h m) roomMoment.sql roomMoment.fuel (ascii "/app") o
    rw [d3]
    exact ho
  have names : ∀ x ∈ tagBefore moveCmd ++ [(roomMoment, Visit.ssh 0 (.data 0 pack))], x.1.sql.fold = demoFold ∧ ∀ a, x.2.repo = some a → a = ascii "/app" := by
    intro x hx
    rcases List.mem_append.1 hx with hx | hx
    · exact tagBefore_names (c := moveCmd) [] x (by simp only [List.mem_append]; exact .inl (.inl hx))
    · cases List.mem_singleton.1 hx
      exact ⟨rfl, fun _ e => nomatch e⟩
  obtain ⟨r1, r2, r3⟩ := C76_stale_false demoServer demoFold_hash (ascii "/app") _ _ roomMoment (fun x hx => (names x hx).1)
    (fun a ha b hb x y hx hy _ _ => by rw [(names a ha).2 x hx, (names b hb).2 y hy]) (app_unique objs) hacc moveCmd moveCmd_ok (ascii "report-status") (by decide) (by decide) hstale appEntries pack hpack app_project
    (by rw [hlen]; decide) (late_sent pack)
  refine ⟨pack, ?_, by rw [r2, late_db]; rfl, ?_⟩
  · generalize hh : tagBefore moveCmd ++ [(roomMoment, Visit.ssh 0 (.data 0 pack))] = h' at r1
    cases r1 with
    | http g ha =>
      have := List.append_cancel_left hh
      cases this
    | ssh i ch ha hl =>
      have := List.append_cancel_left hh
      simp only [List.cons.injEq, Prod.mk.injEq, Visit.ssh.injEq, SshEvent.data.injEq, true_and, and_true] at this
      obtain ⟨rfl, rfl⟩ := this
      exact ha
  · obtain ⟨q, hq, e⟩ : ∃ q ∈ appEntries, q.2 = (.commit, appCommit.encode) := ⟨_, .head _, rfl⟩
    have := r3 q hq (.inl (by rw [e]))
    rw [e] at this
    exact this

end Gust

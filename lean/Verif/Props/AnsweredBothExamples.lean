import Verif.Props.AnsweredBoth
import Verif.Props.AnsweredExamples
import Verif.Props.NestingBothExamples

/-! # C92 over both servers, on a concrete run -/

namespace Gust

/-- C92 at work: after the push on connection 0, a clone request on connection 1 does not leave it stuck, and a clone of any path over HTTP is answered. -/
example (u : Bytes) (hu : Spec.CleanUrl u) : ∃ (pack : Bytes) (h' : BothHist), h' = bothBefore ++ [(demoMoment, .ssh 0 (.data 0 pack))] ∧ (∃ n, n ∈ (runBoth demoServer .empty h').web.db.nodes) ∧
    (∃ k, ∀ fuel, k ≤ fuel → (sshStep polyExt { demoMoment with fuel := fuel } (runBoth demoServer .empty h').ssh 1 (.data 0 (doneBody cloneLines (ascii "\n") []))).2.link 1 ≠ .hung) ∧
    ∃ k, ∀ fuel, k ≤ fuel → (serve demoServer { demoMoment with fuel := fuel } (runBoth demoServer .empty h').web
      (Spec.fetchReq (u ++ []) (doneBody cloneLines (ascii "\n") []))).1 ≠ .hang := by
  obtain ⟨pack, rep, p, h1, h2, h3, _, hp, _⟩ := both_pushed
  have hag : Spec.SentAgree demoServer (bothBefore ++ [(demoMoment, .ssh 0 (.data 0 pack))]) := by
    intro p1 p2 a b hp1 hp2 o o' ho ho' e
    rw [both_sent_last h2 hp1, e] at ho
    rw [both_sent_last h2 hp2, ho] at ho'
    exact Option.some.inj ho'
  have hl : (runBoth demoServer .empty (bothBefore ++ [(demoMoment, .ssh 0 (.data 0 pack))])).link 1 = .ready (some { service := .uploadPack, path := ascii "/app", caps := [], commands := [] }) := by
    rw [runBoth_append, runBoth_elsewhere demoServer _ _ (i := 1)]
    · exact bothBefore_fetch
    · intro x hx e
      cases List.mem_singleton.1 hx
      exact fun h => nomatch h
  have hopen := openFor_link demoServer _ 1 _ hl
  refine ⟨pack, _, rfl, ?_, ?_, ?_⟩
  · obtain ⟨st', e1, e2, _⟩ := pushedAny_http appCmd_ok (by decide) (by decide) hp
    obtain ⟨p', d1, _, d3, _⟩ := C26_durable_partial demoServer.X demoMoment.sql demoMoment.fuel (ascii "/app") _ appCmd appCmd_ok _ (by decide) (by decide) pack h1 (fun _ _ => rfl) (fun _ _ => rfl) rep st' e1
    rw [bothBefore_db] at d1
    have : p' = p := Res.ok.inj (d1.symm.trans h2)
    subst this
    rw [e2]
    obtain ⟨n, hn, _⟩ := d3 _ (.commit (metaOf polyExt (.commit, appCommit.encode)) appCommit ((h3 _ _).2 ⟨by simp [appObjects, appThin], rfl⟩) rfl appCommit_decode)
    exact ⟨n, hn⟩
  · refine C92_ssh_partial demoServer demoFold_hash _ hag demoMoment rfl 1 (by rw [hl]; exact fun h => nomatch h) _ (fun repo ch bytes _ e => ?_) (fun repo ch bytes ho _ => ?_)
    · cases e
      exact done_finished cloneLines cloneLines_ok.ok (ascii "\n") [] (by decide)
    · rw [hopen] at ho
      cases ho
  · have hroute : route (Spec.fetchReq (u ++ []) (doneBody cloneLines (ascii "\n") [])).method (Spec.fetchReq (u ++ []) (doneBody cloneLines (ascii "\n") [])).path
        (Spec.fetchReq (u ++ []) (doneBody cloneLines (ascii "\n") [])).service = .uploadPack u := route_fetch hu (.inl rfl)
    refine C92_answered_both_partial demoServer demoFold_hash _ hag demoMoment rfl _ (fun repo _ => ?_) (fun repo h => ?_)
    · exact done_finished cloneLines cloneLines_ok.ok (ascii "\n") [] (by decide)
    · rw [hroute] at h
      cases h

/-- C92 is false over SSH, at work: the first request of a clone without `done` on connection 1, the fourteen bytes on connection 0. -/
example : (sshStep polyExt demoMoment (runBoth demoServer .empty bothBefore).ssh 1 (.data 0 (Spec.stream (cloneLines.map Spec.ReqLine.pkt)))).2.link 1 = .hung ∧
    (sshStep polyExt demoMoment (runBoth demoServer .empty bothBefore).ssh 0 (.data 0 selfDeltaPack)).2.link 0 = .hung :=
  ⟨(C92_ssh_fetch_false polyExt demoMoment (runBoth demoServer .empty bothBefore).ssh 1 0 _ bothBefore_fetch rfl _ (lines_unfinished cloneLines cloneLines_ok.ok)).2,
    (C92_ssh_push_false polyExt demoMoment (runBoth demoServer .empty bothBefore).ssh 0 0 _ bothBefore_push rfl (by decide)).2⟩

end Gust

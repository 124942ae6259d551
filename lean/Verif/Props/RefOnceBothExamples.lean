import Verif.Props.RefOnceBoth
import Verif.Props.RefsBothExamples
import Verif.Props.PublishBothExamples

/-! # C106 on a run of both servers -/

namespace Gust

/-- Somebody opens connection 0 for pushing to `/app` and sends the command that creates master. -/
def onceOpen : BothHist :=
  [(demoMoment, .ssh 0 logIn), (demoMoment, .ssh 0 (askFor .receivePack 0 (ascii "/app"))), (demoMoment, .ssh 0 (.data 0 (Spec.pushBody appCmd [] (ascii "report-status") [])))]

/-- The push of `dev` over HTTP. -/
def onceDev : HttpReq := Spec.pushReq (ascii "/app" ++ []) (Spec.pushBody devCmd [] (ascii "report-status") noObjects)

/-- Then the pack is sent, and somebody else creates `dev` over HTTP. -/
def onceBoth : BothHist := onceOpen ++ [(demoMoment, .ssh 0 (.data 0 noObjects)), (demoMoment, .http onceDev)]

theorem onceOpen_refs : (runBoth demoServer .empty onceOpen).web.db.refs = [] := by decide +kernel

theorem oncePack_refs : (bothStep demoServer demoMoment (runBoth demoServer .empty onceOpen) (.ssh 0 (.data 0 noObjects))).web.db.refs = [masterRow] := by decide +kernel

theorem onceBoth_refs : (runBoth demoServer .empty onceBoth).web.db.refs = [masterRow, { repoPath := ascii "/app", refName := devCmd.name ++ [0], refGitId := devCmd.new }] := by decide +kernel

theorem onceDev_route : route onceDev.method onceDev.path onceDev.service = .receivePack (ascii "/app") := route_push app_url (.inl rfl)

theorem createsNewAny_append {P : ServerExt} : ∀ {h h' : BothHist} {s : Both}, Spec.CreatesNewAny P s h → Spec.CreatesNewAny P (runBoth P s h) h' → Spec.CreatesNewAny P s (h ++ h')
  | [], _, _, _, h2 => h2
  | _ :: _, _, _, h1, h2 => ⟨h1.1, h1.2.1, h1.2.2.1, createsNewAny_append h1.2.2.2 h2⟩

theorem onceBoth_careful : Spec.CreatesNewAny demoServer .empty onceBoth := by
  refine createsNewAny_append ?_ ?_
  · refine ⟨rfl, (fun _ h => nomatch h), trivial, rfl, fun u h => ?_, trivial, rfl, (fun _ h => nomatch h), ?_, trivial⟩
    · rw [show Visit.repo (.ssh 0 (askFor .receivePack 0 (ascii "/app"))) = some (ascii "/app") by decide +kernel] at h
      cases h
      decide
    · intro h
      exact absurd h (by decide +kernel)
  · refine ⟨rfl, (fun _ h => nomatch h), ?_, rfl, fun u h => ?_, ?_, trivial⟩
    · intro _ p c _ _ _ _ row hr
      rw [onceOpen_refs] at hr
      cases hr
    · have h : onceDev.repo = some u := h
      unfold HttpReq.repo at h
      rw [onceDev_route] at h
      cases h
      decide
    · intro u h
      rw [onceDev_route] at h
      cases h
      refine ⟨devCmd, ascii "report-status", noObjects, devCmd_ok, by decide, by decide, rfl, fun _ row hr _ => ?_⟩
      rw [oncePack_refs] at hr
      rw [List.mem_singleton.1 hr]
      decide +kernel

/-- C106 over both servers: master is created over SSH and `dev` over HTTP; each is shown once. -/
example : ∃ head refs, Spec.ToldBoth demoServer (ascii "/app") .uploadPack demoMoment onceBoth head refs ∧ (refs.map (fun p => demoFold p.2)).Nodup ∧
    (runBoth demoServer .empty onceBoth).web.db.refs.length = 2 := by
  obtain ⟨_, head, refs, k1, k2⟩ := C106_both_partial (P := demoServer) (u := ascii "/app") (by decide) onceBoth onceBoth_careful .uploadPack demoMoment rfl
    ⟨masterRow, by rw [onceBoth_refs]; simp, rfl, show demoFold masterRow.refName = demoFold (ascii "refs/heads/master") by decide +kernel⟩
    (by
      rw [onceBoth_refs]
      intro r hr _
      simp only [List.mem_cons, List.not_mem_nil, or_false] at hr
      rcases hr with rfl | rfl <;> rfl)
    (by
      rw [onceBoth_refs]
      intro r hr _
      simp only [List.mem_cons, List.not_mem_nil, or_false] at hr
      rcases hr with rfl | rfl <;> exact ⟨by decide +kernel, by decide +kernel, by decide +kernel, by decide +kernel⟩)
  exact ⟨head, refs, k1, k2, by rw [onceBoth_refs]; rfl⟩

end Gust

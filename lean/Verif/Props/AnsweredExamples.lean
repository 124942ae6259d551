import Verif.Props.Answered
import Verif.Props.NestingExamples

/-! # Examples for C92 -/

namespace Gust

/-- C92 at work: after the push of the example repository, a clone request for any path at all is answered. -/
example (u : Bytes) (hu : Spec.CleanUrl u) : ∃ pack : Bytes, (∃ n, n ∈ (runServer demoServer .empty [(demoMoment, appPush pack)]).db.commits) ∧ ∃ k, ∀ fuel, k ≤ fuel →
    (serve demoServer { demoMoment with fuel := fuel } (runServer demoServer .empty [(demoMoment, appPush pack)])
      (Spec.fetchReq (u ++ []) (doneBody cloneLines (ascii "\n") []))).1 ≠ .hang := by
  obtain ⟨pack, _, _, _, _, r, hr, _⟩ := app_pushed_server
  refine ⟨pack, ⟨r, (commitsAt_mem.1 hr).1⟩, ?_⟩
  have hroute : route (Spec.fetchReq (u ++ []) (doneBody cloneLines (ascii "\n") [])).method (Spec.fetchReq (u ++ []) (doneBody cloneLines (ascii "\n") [])).path
      (Spec.fetchReq (u ++ []) (doneBody cloneLines (ascii "\n") [])).service = .uploadPack u := route_fetch hu (.inl rfl)
  refine C92_answered_partial demoServer demoFold_hash _ (one_push_agrees _ _ _ _ (by intro q hq; cases hq)) demoMoment rfl _ (fun repo _ => ?_) (fun repo h => ?_)
  · exact done_finished cloneLines cloneLines_ok.ok (ascii "\n") [] (by decide)
  · rw [hroute] at h
    cases h

/-- The push of a foreign pack with a delta. -/
def foreignPush : HttpReq := Spec.pushReq (ascii "/app" ++ []) (Spec.pushBody appCmd [] (ascii "report-status") foreignPack)

theorem foreignPush_pack : Spec.packPart foreignPush.body = foreignPack := by decide +kernel

/-- C92 at work: this push is answered. -/
example : ∃ k, ∀ fuel, k ≤ fuel → (serve { demoServer with X := demoExt } { demoMoment with fuel := fuel } (runServer { demoServer with X := demoExt } .empty []) foreignPush).1 ≠ .hang := by
  refine C92_answered_partial { demoServer with X := demoExt } demoFold_hash [] ?_ demoMoment rfl _ (fun repo h => ?_) (fun repo _ => ?_)
  · rintro p q a b ⟨h1, _, _, _, _, _, e, _⟩
    cases h1 <;> cases e
  · rw [show route foreignPush.method foreignPush.path foreignPush.service = .receivePack (ascii "/app") from route_push app_clean_url (.inl rfl)] at h
    cases h
  · rw [foreignPush_pack]
    refine ⟨wellformed_no_self_delta foreignPack_file foreignPack_resolves (by decide), fun fuel p hp => ?_⟩
    cases fuel with
    | zero =>
      have spins : decodePack demoExt (getHashObject demoExt demoMoment.sql Db.empty) 0 foreignPack = .spin := by
        rw [decodePack, show checkHeader foreignPack = .ok (2, foreignPack.drop 12) from by decide]
        rfl
      have hp : decodePack demoExt (getHashObject demoExt demoMoment.sql Db.empty) 0 foreignPack = .ok p := hp
      rw [spins] at hp
      cases hp
    | succ fuel =>
      obtain ⟨q, h1, h2⟩ := C64_decode_wellformed (X := demoExt) (St := getHashObject demoExt demoMoment.sql Db.empty) (known := fun _ => none)
        (fun _ _ _ e => by cases e) foreignPack_file foreignPack_resolves foreignPack_ids (by decide) (by decide) fuel
      have hp : decodePack demoExt (getHashObject demoExt demoMoment.sql Db.empty) (fuel + 1) foreignPack = .ok p := hp
      rw [hp] at h1
      cases h1
      intro o items i ho ht
      obtain ⟨q, hq, hn, _⟩ := (h2.byId _ _).1 ho
      simp only [List.mem_cons, List.not_mem_nil, or_false] at hq
      rcases hq with rfl | rfl <;> (rw [new_metaOf demoExt (.blob, _) rfl] at hn; cases hn; cases ht)

/-- C92 is false, at work: a want line and a flush packet; the fourteen bytes. -/
example (s : ServerState) (m : Moment) : (serve demoServer m s (Spec.fetchReq (ascii "/app" ++ []) (Spec.stream (cloneLines.map Spec.ReqLine.pkt)))).1 = .hang ∧
    (serve demoServer m s (Spec.pushReq (ascii "/app" ++ []) (Spec.pushBody appCmd [] (ascii "report-status") selfDeltaPack))).1 = .hang :=
  ⟨C92_fetch_false demoServer s m app_clean_url (.inl rfl) _ (lines_unfinished cloneLines cloneLines_ok.ok), C92_push_false demoServer s m app_clean_url (.inl rfl) appCmd_ok (by decide) (by decide)⟩

end Gust

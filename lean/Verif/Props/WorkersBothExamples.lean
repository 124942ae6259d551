import Verif.Props.WorkersBoth
import Verif.Props.ServerBoth
import Verif.Props.BothExamples
import Verif.Props.AskedBoth

/-! # C136 on concrete runs over SSH -/

namespace Gust

/-- The first round of a negotiation. -/
def firstRound : Bytes := Spec.roundMsg (ascii "multi_ack_detailed") appBlob.id [] [appBlob.id]

theorem firstRound_unfinished : Spec.Unfinished true firstRound := roundMsg_unfinished (by decide) (by decide) _ _ _

/-- The connections of the example, in processes with one worker and with two workers. -/
theorem worn_fetch : (Duo.run 1 1 demoServer { state := .empty } bothBefore).state.link 1 = .ready (some { service := .uploadPack, path := ascii "/app", caps := [], commands := [] }) := by
  decide +kernel

/-- C136 fails over SSH: connection 1 is open for a fetch from `/app` and sends the first round of its negotiation to a process with one worker. From then on no message on any connection is answered, also no login.
But the HTTP server, here also with one worker, goes on listing its locks, whatever else is sent to the SSH server. -/
example : (∀ later m i e, ((Duo.run 1 1 demoServer { state := .empty } (bothBefore ++ ([(demoMoment, .ssh 1 (.data 0 firstRound))] ++ later))).handle 1 1 demoServer m (.ssh i e)).1 = none) ∧
    ∀ later : List (Moment × Nat × SshEvent), ((Duo.run 1 1 demoServer { state := .empty } (bothBefore ++ [(demoMoment, .ssh 1 (.data 0 firstRound))] ++
      later.map (fun x => (x.1, .ssh x.2.1 x.2.2)))).handle 1 1 demoServer demoMoment (.http ⟨.get, ascii "/app.git/locks", none, {}, []⟩)).1 =
        some (.http (.ok (.locks [] []))) := by
  refine ⟨fun later m i e => ?_, fun later => ?_⟩
  · rw [duo_append]
    exact C136_ssh_workers_false 1 1 demoServer _ [(demoMoment, 1, 0, firstRound)] (by decide) (fun a ha => by
      obtain rfl := List.mem_singleton.1 ha
      exact ⟨_, worn_fetch, rfl⟩) (fun a ha => by
      obtain rfl := List.mem_singleton.1 ha
      exact firstRound_unfinished) (Nat.le_refl _) later m i e
  · have hno : ∀ x ∈ bothBefore ++ [(demoMoment, .ssh 1 (.data 0 firstRound))] ++ later.map (fun x => (x.1, Visit.ssh x.2.1 x.2.2)), ∀ r, x.2 ≠ .http r := by
      intro x hx r
      rcases List.mem_append.1 hx with hx | hx
      · simp only [bothBefore, List.mem_append, List.mem_cons, List.not_mem_nil, or_false] at hx
        rcases hx with (rfl | rfl | rfl | rfl | rfl) | rfl <;> exact fun h => nomatch h
      · obtain ⟨y, _, rfl⟩ := List.mem_map.1 hx
        exact fun h => nomatch h
    classical
    obtain ⟨h', i1, _, i3⟩ := C136_apart_partial 1 1 demoServer _ (by
      unfold Spec.brokenHttp
      rw [List.filter_eq_nil_iff.2]
      · exact Nat.zero_lt_one
      · intro x hx e
        obtain ⟨r, e, _⟩ := of_decide_eq_true e
        exact hno x hx r e) (fun a m r b e => absurd rfl (hno (m, .http r) (by rw [e]; simp) r))
    rw [i3, C75_locks_both _ _ _ _ _ (.inr (.inr (.inl (by decide +kernel)))), List.filter_eq_nil_iff.2]
    · decide +kernel
    · intro x hx e
      have := of_decide_eq_true e
      obtain ⟨m, v⟩ := x
      cases v with
      | http r => exact hno _ (i1.subset hx) r rfl
      | ssh i e => exact this

/-- C136: with two workers the others do not notice: connection 2 logs in, and is shown that `/app` is empty. -/
example : ∃ out, ((Duo.run 1 2 demoServer { state := .empty } (bothBefore ++ [(demoMoment, .ssh 1 (.data 0 firstRound)), (demoMoment, .ssh 2 logIn)])).handle 1 2 demoServer demoMoment
    (.ssh 2 (askFor .uploadPack 0 (ascii "/app")))).1 = some (.ssh [(0, out)]) := by
  obtain ⟨h, hh⟩ : ∃ h, h = bothBefore ++ [(demoMoment, .ssh 1 (.data 0 firstRound)), (demoMoment, Visit.ssh 2 logIn)] := ⟨_, rfl⟩
  have hpre : ∀ a m i e b, h = a ++ (m, .ssh i e) :: b → (Duo.run 1 2 demoServer { state := .empty } a).state.link i ≠ .hung →
      (sshStep polyExt m (Duo.run 1 2 demoServer { state := .empty } a).state.ssh i e).2.link i = .hung → i ∈ [1] ∧ Spec.SshBreaks (Duo.run 1 2 demoServer { state := .empty } a).state i e := by
    intro a m i e b q hl hs
    have hstep : ∀ k, k < 7 → k ≠ 5 → ∀ x, h[k]? = some x → ∀ j ev, x.2 = .ssh j ev → (sshStep polyExt x.1 (Duo.run 1 2 demoServer { state := .empty } (h.take k)).state.ssh j ev).2.link j ≠ .hung := by
      intro k hk hk5 x hx j ev hv
      rw [hh] at hx ⊢
      match k, hk, hk5 with
      | 0, _, _ => cases hx; cases hv; decide +kernel
      | 1, _, _ => cases hx; cases hv; decide +kernel
      | 2, _, _ => cases hx; cases hv; decide +kernel
      | 3, _, _ => cases hx; cases hv; decide +kernel
      | 4, _, _ => cases hx; cases hv; decide +kernel
      | 6, _, _ => cases hx; cases hv; decide +kernel
    have ha : h.take a.length = a := by rw [q, List.take_left]
    have hx : h[a.length]? = some (m, .ssh i e) := by rw [q]; simp
    have hlen : a.length < 7 := by
      have := congrArg List.length q
      rw [hh] at this
      simp [bothBefore] at this
      omega
    by_cases h5 : a.length = 5
    · have : h[5]? = some (demoMoment, .ssh 1 (.data 0 firstRound)) := by rw [hh]; rfl
      rw [h5, this] at hx
      cases hx
      refine ⟨.head _, { service := .uploadPack, path := ascii "/app", caps := [], commands := [] }, 0, firstRound, ?_, rfl, rfl, firstRound_unfinished⟩
      rw [← ha, h5, hh]
      decide +kernel
    · have := hstep a.length hlen h5 _ hx i e rfl
      rw [ha] at this
      exact absurd hs this
  obtain ⟨h', i1, i2, i3⟩ := C136_ssh_kept_partial 1 2 demoServer h [1] (Nat.le_refl _) hpre
  have hall : Spec.overSsh h = h := by
    rw [hh]
    rfl
  have e : h' = h := i1.eq_of_length (Nat.le_antisymm i1.length_le (by rw [hall] at i2; rw [← i2]; exact List.length_filter_le _ _))
  rw [e, hh] at i3
  have hdb : (runBoth demoServer .empty (bothBefore ++ [(demoMoment, .ssh 1 (.data 0 firstRound)), (demoMoment, .ssh 2 logIn)])).web.db.refs = [] := by decide +kernel
  have hlink : (runBoth demoServer .empty (bothBefore ++ [(demoMoment, .ssh 1 (.data 0 firstRound)), (demoMoment, .ssh 2 logIn)])).link 2 = .ready none := by decide +kernel
  obtain ⟨out, p', o1, o2⟩ := (C99_both_partial (P := demoServer) (bothBefore ++ [(demoMoment, .ssh 1 (.data 0 firstRound)), (demoMoment, .ssh 2 logIn)]) demoMoment (u := ascii "/app") .uploadPack
    (by rw [hdb]; exact fun _ h => nomatch h)).2 2 0 none (by decide) (by decide) hlink
  refine ⟨out, ?_⟩
  have := i3 demoMoment 2 (askFor .uploadPack 0 (ascii "/app")) (by
    intro q
    have := o2.symm.trans q
    cases this)
  exact this.trans (congrArg (fun o => some (Reaction.ssh o)) o1)

/-- C136 fails over SSH: connection 0 has sent the command of a push to `/app` and now sends fourteen bytes; the process is gone, however many workers it had. -/
example (V : Nat) : ∀ later m i e, ((Duo.run 1 V demoServer { state := runBoth demoServer .empty bothBefore } ((demoMoment, .ssh 0 (.data 0 selfDeltaPack)) :: later)).handle 1 V demoServer m (.ssh i e)).1 = none :=
  fun later m i e => C136_ssh_push_false 1 V demoServer _ demoMoment 0 0 _ bothBefore_push rfl (List.cons_ne_nil _ _) later m i e

end Gust

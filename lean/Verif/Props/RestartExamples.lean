import Verif.Props.Restart
import Verif.Props.StaysExamples

/-! # C156 on concrete runs -/

namespace Gust

/-- A project is pushed; both servers are restarted; somebody asks for the refs of another repository. -/
def upHist (pack : Bytes) : Happenings := [(backMoment, .visit (.http (bothCommits pack)))]
def downUp : Happenings := [(demoMoment, .restartHttp), (demoMoment, .restartSsh), (demoMoment, .visit (.http (Spec.refsReq (ascii "/lib") .uploadPack)))]

theorem downUp_notTaken (pack : Bytes) : Spec.NotTaken (upHist pack ++ downUp) := by
  intro a m b e i ⟨x, y, hm⟩
  have : (x, Happening.visit (.ssh i y)) ∈ upHist pack ++ downUp := by rw [e]; exact List.mem_append_left _ hm
  simp [upHist, downUp] at this

theorem downUp_visits (pack : Bytes) : Spec.visits (upHist pack ++ downUp) = onceHist pack ++ lookedAt := rfl

/-- C156: a clone made before the restarts, and one made after them. -/
example : ∃ (pack : Bytes) (m : Moment) (out file out' file' : Bytes) (ms ms' : List MetaData),
    replyTo demoServer m (runAll demoServer .empty (upHist pack)) (.http (Spec.fetchReq (ascii "/app" ++ []) (doneBody cloneLines (ascii "\n") []))) = .http (.reply (.ok (.bytes out))) ∧
    replyTo demoServer m (runAll demoServer .empty (upHist pack ++ downUp)) (.http (Spec.fetchReq (ascii "/app" ++ []) (doneBody cloneLines (ascii "\n") []))) = .http (.reply (.ok (.bytes out'))) ∧
    Spec.readClone out = some file ∧ Spec.readClone out' = some file' ∧ PackHas polyExt file ms ∧ PackHas polyExt file' ms' ∧ (∃ x ∈ ms, x.t = .commit) ∧ ∀ x ∈ ms, x ∈ ms' := by
  obtain ⟨pack, _, _, _, hpack, hpush, _, _, _, e1, _⟩ := twice_pushed
  have objs := (back_stored hpack hpush).1
  have e := lookedAt_db e1
  have p0 : Spec.Published demoServer (ascii "/app") (onceHist pack) [libEntries] [(appCmd.new, ascii "refs/heads/master")] :=
    .push [] (onceHist pack) [] [] _ backMoment appCmd (ascii "report-status") pack libEntries .nothing (once_publishes hpack) once_moved
  obtain ⟨m, hm⟩ : ∃ m : Moment, m = { demoMoment with fuel := (runBoth demoServer .empty (onceHist pack)).web.db.nodes.length } := ⟨_, rfl⟩
  have sub : ∀ x ∈ onceHist pack ++ lookedAt, x ∈ setHist pack := fun x hx => List.mem_append_left _ hx
  have sub0 : ∀ x ∈ onceHist pack, x ∈ setHist pack := fun x hx => sub x (List.mem_append_left _ hx)
  have f2 : Spec.SameFoldAny demoFold (setHist pack) := fun x hx => (set_names pack x hx).1
  obtain ⟨out, _, _, k1, _⟩ := C152_exact_partial demoServer demoFold_hash (ascii "/app") (onceHist pack) _ _ p0 (sameFoldAny_sub sub0 f2) (noneAboveAny_sub sub0 (set_above pack))
    (few_unique libObjects_ids objs) (few_fits (by decide) lib_big objs) ⟨libEntries, by simp, _, lib_given⟩ m (by rw [hm]; rfl) (by rw [hm]) (by rw [hm]; exact fun _ _ => .rfl)
    (by rw [hm]; exact demoCut_ok) cloneLines (ascii "\n") [] cloneLines_ok
  have w1 := (restart_inv demoServer (upHist pack) downUp (downUp_notTaken pack)).1
  have w2 := (C156_unnoticed demoServer _ (downUp_notTaken pack)).1
  have w2 : (runAll demoServer .empty (upHist pack ++ downUp)).web.db = (runBoth demoServer .empty (onceHist pack)).web.db := by
    rw [w2, downUp_visits, e]
  have q1 : replyTo demoServer m (runAll demoServer .empty (upHist pack)) (.http (Spec.fetchReq (ascii "/app" ++ []) (doneBody cloneLines (ascii "\n") []))) = .http (.reply (.ok (.bytes out))) := by
    rw [replyTo, w1]
    exact congrArg Received.http (k1 [] app_clean_url (.inl rfl))
  obtain ⟨file, ms, out', file', ms', r1, r2, r3, r4, _, r6, r7, r8, _⟩ := C155_restarted_partial demoServer demoFold_hash (ascii "/app") (upHist pack) downUp (downUp_notTaken pack)
    (sameFoldAny_sub sub f2) (noneAboveAny_sub sub (set_above pack)) (by rw [w2]; exact few_unique libObjects_ids objs) (by rw [w2]; exact few_fits (by decide) lib_big objs) m (by rw [hm]; rfl)
    (by rw [hm]; exact fun _ _ => .rfl) (by rw [hm]; exact demoCut_ok) cloneLines (ascii "\n") [] out [] cloneLines_ok app_clean_url (.inl rfl) q1 m (by rw [hm]; rfl)
    (by rw [w2, hm]) (by rw [hm]; exact fun _ _ => .rfl) (by rw [hm]; exact demoCut_ok) cloneLines (ascii "\n") [] cloneLines_ok
  exact ⟨pack, m, out, file, out', file', ms, ms', q1, r4 [] (.inl rfl), r1, r6, r2, r7, r3, r8⟩

/-- A client connects over SSH, the server is restarted, and the client connects again, on connection `i`. -/
def sshAgain (i : Nat) : Happenings :=
  [(demoMoment, .visit (.ssh 0 (.auth [] []))), (demoMoment, .restartSsh), (demoMoment, .visit (.ssh i (.auth [] [])))]

theorem sent_one {out : SshOut} {ch : Nat} (h : out.map Prod.fst = [ch]) : ∃ b, Received.ssh out = .ssh [(ch, b)] := by
  match out, h with
  | [(_, b)], h => exact ⟨b, by simpa using h⟩

theorem again_sent : (sshStep demoServer.X demoMoment (runAll demoServer .empty (sshAgain 0)).ssh 0 (.exec 7 (Spec.sshAsk .uploadPack (ascii "app")))).1.map Prod.fst = [7] := by
  decide +kernel

theorem open_sent : (sshStep demoServer.X demoMoment (runBoth demoServer .empty (Spec.visits ((sshAgain 1).take 2))).ssh 0
    (.exec 7 (Spec.sshAsk .uploadPack (ascii "app")))).1.map Prod.fst = [7] := by
  decide +kernel

/-- C156: who connects again is answered after the restart, also if the server gives the number of the first connection to the second one. -/
example : ∃ out, replyTo demoServer demoMoment (runAll demoServer .empty (sshAgain 0)) (.ssh 0 (.exec 7 (Spec.sshAsk .uploadPack (ascii "app")))) = .ssh [(7, out)] ∧
    replyTo demoServer demoMoment (runBoth demoServer .empty (Spec.continued 0 (sshAgain 0))) (.ssh (Nat.pair 1 0) (.exec 7 (Spec.sshAsk .uploadPack (ascii "app")))) = .ssh [(7, out)] := by
  have h := (C156_numbers demoServer (sshAgain 0 ++ [(demoMoment, .visit (.ssh 0 (.exec 7 (Spec.sshAsk .uploadPack (ascii "app")))))])).2 _ _ _ [] rfl
  have : ∃ out, replyTo demoServer demoMoment (runAll demoServer .empty (sshAgain 0)) (.ssh 0 (.exec 7 (Spec.sshAsk .uploadPack (ascii "app")))) = .ssh [(7, out)] :=
    sent_one again_sent
  obtain ⟨out, e⟩ := this
  exact ⟨out, e, h.symm.trans e⟩

/-- The condition of `C156_unnoticed` is needed: on the old connection, without connecting again, nobody is answered after the restart, but would be without it. -/
example : replyTo demoServer demoMoment (runAll demoServer .empty ((sshAgain 1).take 2)) (.ssh 0 (.exec 7 (Spec.sshAsk .uploadPack (ascii "app")))) = .ssh [] ∧
    ∃ out, replyTo demoServer demoMoment (runBoth demoServer .empty (Spec.visits ((sshAgain 1).take 2))) (.ssh 0 (.exec 7 (Spec.sshAsk .uploadPack (ascii "app")))) = .ssh [(7, out)] :=
  ⟨rfl, sent_one open_sent⟩

end Gust

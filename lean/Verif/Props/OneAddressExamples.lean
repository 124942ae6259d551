import Verif.Props.OneAddress
import Verif.Props.RefsBothExamples

/-! # C157 on concrete runs -/

namespace Gust

/-- The comparison of the examples keeps a slash in front. -/
theorem demoFold_rooted {a : Bytes} (h : Spec.Rooted a) : Spec.Rooted (demoFold a) := by
  cases a with
  | nil => cases h
  | cons c a =>
    unfold Spec.Rooted at h
    cases Option.some.inj h
    rfl

theorem demoFold_slash {q a : Bytes} (hq : ¬ Spec.Rooted (demoFold q)) (h : Spec.Rooted a) : demoFold a ≠ demoFold q := by
  intro e
  apply hq
  rw [← e]
  exact demoFold_rooted h

/-- The push of the example project to `/app` over HTTP is reported as done. Whoever then asks for `/app.git` over SSH reads that the repository is empty; whoever asks for
`//app.git` reads the branch. -/
example : ∃ (pack rep : Bytes) (h' : BothHist), h' = bothBefore ++ [(demoMoment, .http (Spec.pushReq (ascii "/app" ++ ascii ".git") (Spec.pushBody appCmd [] (ascii "report-status") pack)))] ∧
    (serve demoServer demoMoment (runBoth demoServer .empty bothBefore).web (Spec.pushReq (ascii "/app" ++ ascii ".git") (Spec.pushBody appCmd [] (ascii "report-status") pack))).1 =
      .reply (.ok (.bytes rep)) ∧
    Spec.reportLines false rep = some [ascii "unpack ok\n", Spec.statusLine (ascii "refs/heads/master" ++ [0]) none] ∧
    (∃ out, (sshStep demoServer.X demoMoment (runBoth demoServer .empty h').ssh 1 (.exec 0 (Spec.sshLine .uploadPack (ascii "/app.git")))).1 = [(0, out)] ∧ Spec.clientSsh out = some []) ∧
    ∃ out out' head refs, (serve demoServer demoMoment (runBoth demoServer .empty h').web (Spec.refsReq (ascii "/app.git") .uploadPack)).1 = .reply (.ok (.bytes out)) ∧
      (sshStep demoServer.X demoMoment (runBoth demoServer .empty h').ssh 1 (.exec 0 (Spec.sshLine .uploadPack (ascii "//app.git")))).1 = [(0, out')] ∧
      Spec.clientHttp .uploadPack out = some ((head, ascii "HEAD") :: refs) ∧ Spec.clientSsh out' = some ((head, ascii "HEAD") :: refs) := by
  obtain ⟨pack, rep, p, h1, h2, h3, h5, _, hp⟩ := both_pushed
  have hst := bothRow_stored h1 hp
  have hans : (serve demoServer demoMoment (runBoth demoServer .empty bothBefore).web (Spec.pushReq (ascii "/app" ++ ascii ".git")
      (Spec.pushBody appCmd [] (ascii "report-status") pack))).1 = .reply (.ok (.bytes rep)) := by
    obtain ⟨st', e1, _⟩ := pushedAny_http appCmd_ok (by decide) (by decide) hp
    have hroute : route .post (ascii "/app" ++ ascii ".git" ++ ascii "/git-receive-pack") none = .receivePack (ascii "/app") := route_push app_clean_url (.inr rfl)
    simp only [serve, Spec.pushReq, hroute]
    simp only [e1]
    rfl
  obtain ⟨h', e⟩ : ∃ h', h' = bothBefore ++ [(demoMoment, Visit.http (Spec.pushReq (ascii "/app" ++ ascii ".git") (Spec.pushBody appCmd [] (ascii "report-status") pack)))] := ⟨_, rfl⟩
  have hl : (runBoth demoServer .empty h').link 1 = .ready (some { service := .uploadPack, path := ascii "/app", caps := [], commands := [] }) := by
    rw [e, runBoth_append, runBoth_elsewhere demoServer _ _ (by intro x hx e; cases List.mem_singleton.1 hx; simp), bothBefore_fetch]
  have names : ∀ x ∈ h', x.1.sql.fold = demoFold ∧ ∀ a, x.2.repo = some a → a = ascii "/app" := by
    intro x hx
    rw [e] at hx
    rcases List.mem_append.1 hx with hx | hx
    · exact bothBefore_names x hx
    · cases List.mem_singleton.1 hx
      refine ⟨rfl, fun a ha => ?_⟩
      have hroute : route .post (ascii "/app" ++ ascii ".git" ++ ascii "/git-receive-pack") none = .receivePack (ascii "/app") := route_push app_clean_url (.inr rfl)
      simp only [Visit.repo, HttpReq.repo, Spec.pushReq, hroute, Spec.RepoOf] at ha
      exact (Option.some.inj ha).symm
  rw [← e] at hst
  refine ⟨pack, rep, h', e, hans, h5, ?_, ?_⟩
  · exact C157_ssh_false demoServer (ascii "app") (by unfold Spec.Rooted; decide) (by decide) (by decide) (fun a => demoFold_slash (by unfold Spec.Rooted; decide)) h' (fun x hx => (names x hx).1)
      (fun x hx r a hv ha => by rw [(names x hx).2 a (by rw [hv]; exact ha)]; rfl) (fun x hx i e a _ ha => .inl (by rw [(names x hx).2 a ha]; rfl)) demoMoment rfl .uploadPack 1 0 _ hl
  · have hat : Spec.refsAt demoFold (runBoth demoServer .empty h').web.db.refs (ascii "/app") = [bothRow] := by rw [hst]; decide +kernel
    exact C157_slash_partial demoServer (ascii "app") (ascii ".git") app_clean_url (by decide) (by decide) (.inr rfl) h' demoMoment rfl
      ⟨bothRow, by rw [hst]; simp, rfl, show demoFold bothRow.refName = demoFold (ascii "refs/heads/master") by decide +kernel⟩ (bothRow_tell hat).text .uploadPack 1 0 _ hl

/-- Connection 0 is open for pushing to `/app.git` over SSH, as git names it. -/
def plainBefore : BothHist :=
  [(demoMoment, .ssh 0 logIn), (demoMoment, .ssh 0 (askFor .receivePack 0 (ascii "app"))), (demoMoment, .ssh 0 (.data 0 (Spec.pushBody appCmd [] (ascii "report-status") [])))]

theorem plainBefore_db : (runBoth demoServer .empty plainBefore).web.db = Db.empty := by decide +kernel

theorem plainBefore_push : (runBoth demoServer .empty plainBefore).link 0 = .ready (some { service := .receivePack, path := ascii "app", caps := parseCapabilities (ascii "report-status"),
                                                                                            commands := [RefCommand.new appCmd.old appCmd.new (appCmd.name ++ [0])] }) := by decide +kernel

theorem plainBefore_names : ∀ x ∈ plainBefore, x.1.sql.fold = demoFold ∧ (∀ r, x.2 ≠ .http r) ∧ ∀ a, x.2.repo = some a → a = ascii "app" := by
  intro x hx
  simp only [plainBefore, List.mem_cons, List.not_mem_nil, or_false] at hx
  rcases hx with rfl | rfl | rfl
  · exact ⟨rfl, (fun _ e => nomatch e), fun _ e => nomatch e⟩
  · refine ⟨rfl, (fun _ e => nomatch e), fun a e => ?_⟩
    rw [show Visit.repo (.ssh 0 (askFor .receivePack 0 (ascii "app"))) = some (ascii "app") by decide +kernel] at e
    exact (Option.some.inj e).symm
  · exact ⟨rfl, (fun _ e => nomatch e), fun _ e => nomatch e⟩

/-- The push of the example project to `/app.git` over SSH is reported as done. Whoever then asks for `/app.git` over HTTP reads that the repository is empty. -/
example : ∃ (pack rep : Bytes) (h' : BothHist), h' = plainBefore ++ [(demoMoment, .ssh 0 (.data 0 pack))] ∧
    Spec.PushedAny demoServer (ascii "app") appCmd (ascii "report-status") pack rep demoMoment plainBefore h' ∧
    Spec.reportLines false rep = some [ascii "unpack ok\n", Spec.statusLine (ascii "refs/heads/master" ++ [0]) none] ∧
    ∃ out, (serve demoServer demoMoment (runBoth demoServer .empty h').web (Spec.refsReq (ascii "/app.git") .uploadPack)).1 = .reply (.ok (.bytes out)) ∧
      Spec.clientHttp .uploadPack out = some [] := by
  obtain ⟨pack, p, out, st', h1, h2, h3, h4, h5⟩ := app_push demoSql (fun _ _ => rfl) 0 (ascii "app") (ascii "report-status") (by decide) (by decide) Db.empty
  rw [show decide (Capability.sideBand ∈ parseCapabilities (ascii "report-status") ∨ Capability.sideBand64k ∈ parseCapabilities (ascii "report-status")) = false by
    decide +kernel] at h5
  have hne : out ≠ [] := by
    rintro rfl
    simp [Spec.reportLines, Spec.readPkts, Spec.readPktsFuel] at h5
  have names : ∀ x ∈ plainBefore ++ [(demoMoment, Visit.ssh 0 (.data 0 pack))], x.1.sql.fold = demoFold ∧ (∀ r, x.2 ≠ .http r) ∧ ∀ a, x.2.repo = some a → a = ascii "app" := by
    intro x hx
    rcases List.mem_append.1 hx with hx | hx
    · exact plainBefore_names x hx
    · cases List.mem_singleton.1 hx
      exact ⟨rfl, (fun _ e => nomatch e), fun _ e => nomatch e⟩
  refine ⟨pack, out, _, rfl, ?_, h5, ?_⟩
  · refine .ssh [(demoMoment, .ssh 0 logIn)] [] [] plainBefore demoMoment demoMoment 0 0 0 0 (by decide) (by decide) (fun _ h => nomatch h) (fun _ h => nomatch h) rfl ?_
    refine ssh_pushed (u := ascii "app") (c := appCmd) (caps := ascii "report-status") (m := demoMoment) (st' := st') appCmd_ok (by decide) (by decide) 0 plainBefore_push ?_ hne
    rw [plainBefore_db]
    exact h4
  · exact C157_http_false demoServer (ascii "app") (ascii ".git") app_clean_url (by decide) (.inr rfl) _ (fun x hx => (names x hx).1)
      (fun x hx i e a _ ha => by rw [(names x hx).2.2 a ha]; exact ⟨by unfold Spec.Rooted; decide, by decide +kernel, show demoFold _ ≠ demoFold _ by decide +kernel⟩) (fun x hx r a hv _ => absurd hv ((names x hx).2.1 r)) demoMoment rfl .uploadPack

end Gust

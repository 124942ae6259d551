import Verif.Props.Ssh
import Verif.Props.ServerExamples

/-! # C85 – C87: examples and negations -/

namespace Gust

/-- The repository `u` is asked for. -/
def askFor (t : ServiceType) (ch : Nat) (u : Bytes) : SshEvent := .exec ch (Spec.sshLine t (0x2f :: (u ++ ascii ".git")))

/-- Somebody logs in. -/
def logIn : SshEvent := .auth (ascii "anyone") (ascii "anything")

/-- Connection 0 logs in and asks for two repositories on two channels. -/
def twoChannels : SshHist :=
  [(demoMoment, 0, logIn), (demoMoment, 0, askFor .receivePack 1 (ascii "/a")), (demoMoment, 0, askFor .receivePack 2 (ascii "/b"))]

theorem app_commits_path {St : ObjectSource} {fuel : Nat} {pack repo : Bytes} {p : Pack} (hdec : decodePack polyExt St fuel pack = .ok p) :
    ∀ r ∈ (savePackfile demoSql fuel p repo Db.empty).2.commits, r.repoPath = repo := by
  obtain ⟨_, _, _, _, h⟩ := push_effect hdec demoSql fuel repo Db.empty
  intro r hr
  rcases h r hr with h | h
  · cases h
  · exact h.1

/-- A push of the example repository over SSH to `/b` on a server without any repository. -/
theorem app_ssh (s1 : SshState) (hdb : s1.db = Db.empty) (i ch : Nat)
    (hs : s1.link i = .ready (some { service := .receivePack, path := ascii "/b", caps := [], commands := [] })) : ∃ (pack rep : Bytes),
    let s := sshRun polyExt s1 [(demoMoment, i, .data ch (Spec.pushBody appCmd [] (ascii "report-status") []))]
    let r := sshStep polyExt demoMoment s i (.data ch pack)
    r.1 = [(ch, rep)] ∧ Spec.reportLines false rep = some [ascii "unpack ok\n", Spec.statusLine (ascii "refs/heads/master" ++ [0]) none] ∧
      (∃ c ∈ r.2.db.commits, c.data = appCommit.encode) ∧ ∀ c ∈ r.2.db.commits, c.repoPath = ascii "/b" := by
  obtain ⟨pack, p, out, st', h1, h2, h3, h4, h5⟩ := app_push demoSql (fun _ _ => rfl) 0 (ascii "/b") (ascii "report-status") (by decide) (by decide) Db.empty
  obtain ⟨p', db1, q1, q2, q3, q4, _, q6⟩ := push_run (path := ascii "/b") .empty appCmd_ok (by decide) (by decide) h1 h4
  rw [h2] at q1
  cases q1
  obtain ⟨p', r1, r2, r4, _⟩ := C26_durable_partial polyExt demoSql 2 (ascii "/b") Db.empty appCmd appCmd_ok (ascii "report-status") (by decide) (by decide) pack h1
    (fun _ _ => rfl) (fun _ _ => rfl) out st' h4
  rw [h2] at r1
  cases r1
  refine ⟨pack, out, ?_⟩
  intro s r
  obtain ⟨_, k1⟩ := push_session (X := polyExt) (m1 := demoMoment) (ch1 := ch) (h1 := []) (h2 := []) (fun _ h => nomatch h) (fun _ h => nomatch h) appCmd_ok
    (caps := ascii "report-status") (by decide) (by decide) hs
  have k1 : s.link i = _ := k1
  have hdb' : s.db = Db.empty := by
    show (sshStep polyExt demoMoment s1 i _).2.db = _
    rw [sshStep_db, hs]
    simp only [sshLinkStep, sshData, receive_section_db, hdb]
  rw [show decide (Capability.sideBand ∈ parseCapabilities (ascii "report-status") ∨ Capability.sideBand64k ∈ parseCapabilities (ascii "report-status")) = false by
    decide +kernel] at h5
  have hne : out ≠ [] := by
    rintro rfl
    simp [Spec.reportLines, Spec.readPkts, Spec.readPktsFuel] at h5
  rw [httpReceivePack, receive_section _ _ _ appCmd_ok (by decide) (by decide), Res.unwrap_ok, Res.bind_ok] at h4
  replace h4 : (gitReceivePack (mysqlPush polyExt demoSql 2) { caps := parseCapabilities (ascii "report-status"),
                                                               commands := [RefCommand.new appCmd.old appCmd.new (appCmd.name ++ [0])], path := ascii "/b",
                                                               db := Db.empty } pack).unwrap = .ok (out, st') := h4
  have hd : gitReceiveDb (mysqlPush polyExt demoSql 2) 
      { caps := parseCapabilities (ascii "report-status"), commands := [RefCommand.new appCmd.old appCmd.new (appCmd.name ++ [0])], path := ascii "/b", db := Db.empty } pack = st'.db :=
    gitReceiveDb_ok (Res.unwrap_eq_ok.1 h4)
  have step : sshLinkStep polyExt demoMoment s.db (s.link i) (.data ch pack) =
      ([(ch, out)], .ready (some { service := .receivePack, path := ascii "/b", caps := st'.caps, commands := st'.commands }), st'.db) := by
    rw [k1, hdb']
    simp only [sshLinkStep, sshData, sshReceivePack]
    rw [show demoMoment.sql = demoSql from rfl, show demoMoment.fuel = 2 from rfl, h4, hd]
    simp only [Res.sent, Res.link, if_neg hne]
  have b1 : r.1 = [(ch, out)] := by
    show (sshStep polyExt demoMoment s i _).1 = _
    rw [sshStep_out, step]
  have b2 : r.2.db = st'.db := by
    show (sshStep polyExt demoMoment s i _).2.db = _
    rw [sshStep_db, step]
  rw [b1, b2]
  refine ⟨rfl, h5, ?_, ?_⟩
  · obtain ⟨c, hc, _, e2, _⟩ := r2 (metaOf polyExt (.commit, appCommit.encode)) ((h3 _ _).2 ⟨by simp [appObjects, appThin], rfl⟩) rfl
    exact ⟨c, hc, e2⟩
  · intro c hc
    rw [q4] at hc
    have := app_commits_path (repo := ascii "/b") h2 c
    rw [show (0 + 2) = 2 from rfl, q2] at this
    exact this hc

/-- Three connections: 0 asks for `/a`, 1 crashes (data before a command), 2 asks for `/c`; then 0 asks for `/b`. -/
def threeClients : SshHist :=
  [(demoMoment, 0, logIn), (demoMoment, 1, logIn), (demoMoment, 0, askFor .receivePack 1 (ascii "/a")), (demoMoment, 1, .data 1 (ascii "0000")),
   (demoMoment, 2, .auth [] []), (demoMoment, 2, askFor .uploadPack 1 (ascii "/c")), (demoMoment, 0, askFor .receivePack 1 (ascii "/b"))]

/-- C85: connection 0 gets two advertisements, as if it were alone, connection 1 is gone. -/
example : (sshSent polyExt 0 (.start Db.empty) threeClients).length = 2 ∧
    sshSent polyExt 0 (.start Db.empty) threeClients = sshSent polyExt 0 (.start Db.empty) (Spec.ofConn 0 threeClients) ∧ (Spec.ofConn 0 threeClients).length = 3 ∧
    (sshRun polyExt (.start Db.empty) threeClients).link 1 = .closed := by decide +kernel

/-- The messages of the others leave the repositories alone there. -/
example : sshSent polyExt 0 (.start Db.empty) threeClients = sshSent polyExt 0 (.start Db.empty) (Spec.ofConn 0 threeClients) := by
  refine (C85_connections_partial polyExt 0 threeClients _ ?_).1
  have all : ∀ k, k < threeClients.length → (sshRun polyExt (.start Db.empty) (threeClients.take k)).db = Db.empty ∧
      (sshRun polyExt (.start Db.empty) (threeClients.take (k + 1))).db = Db.empty := by decide +kernel
  intro h1 p h2 e _
  have hk : h1.length < threeClients.length := by rw [e]; simp
  obtain ⟨a, b⟩ := all _ hk
  have e1 : threeClients.take h1.length = h1 := by rw [e]; simp
  have e2 : threeClients.take (h1.length + 1) = h1 ++ [p] := by rw [e]; simp [List.take_append]
  rw [e1] at a
  rw [e2, sshRun_append] at b
  rw [a]
  exact b

/-- C86: a push over SSH stores the commit and is reported. -/
example : ∃ (s1 : SshState) (pack rep : Bytes), s1 = sshRun polyExt (.start Db.empty) [(demoMoment, 5, logIn), (demoMoment, 5, askFor .receivePack 0 (ascii "/b"))] ∧
    (sshStep polyExt demoMoment (sshRun polyExt s1 [(demoMoment, 5, .data 0 (Spec.pushBody appCmd [] (ascii "report-status") []))]) 5 (.data 0 pack)).1 = [(0, rep)] := by
  obtain ⟨h1, h2⟩ : (sshRun polyExt (.start Db.empty) [(demoMoment, 5, logIn), (demoMoment, 5, askFor .receivePack 0 (ascii "/b"))]).db = Db.empty ∧
      (sshRun polyExt (.start Db.empty) [(demoMoment, 5, logIn), (demoMoment, 5, askFor .receivePack 0 (ascii "/b"))]).link 5 =
        .ready (some { service := .receivePack, path := ascii "/b", caps := [], commands := [] }) := by decide +kernel
  obtain ⟨pack, rep, h, _⟩ := app_ssh _ h1 5 0 h2
  exact ⟨_, pack, rep, rfl, h⟩

/-- C86: the first advertisement of an empty repository over SSH. -/
example : sshSent polyExt 0 (.start Db.empty) [(demoMoment, 0, logIn), (demoMoment, 0, askFor .uploadPack 1 (ascii "/c"))] =
    [(1, gitInfoRefs .ssh .uploadPack zeroId [])] := by decide +kernel

/-- C86: a pack in the same message as the commands is sent back. -/
example : (sshStep polyExt demoMoment (sshRun polyExt (.start Db.empty) twoChannels) 0 (.data 1 (Spec.pushBody appCmd [] (ascii "report-status") (ascii "PACK...")))).1 =
    [(1, ascii "PACK...")] := by decide +kernel

/-- C87: two users. -/
example : Spec.SameHistory [(demoMoment, 0, .auth (ascii "alice") (ascii "secret")), (demoMoment, 0, askFor .receivePack 1 (ascii "/a"))]
    [(demoMoment, 0, .auth (ascii "mallory") []), (demoMoment, 0, askFor .receivePack 1 (ascii "/a"))] :=
  .cons trivial (.cons rfl .nil)

/-- C87: a request without credentials between those of another client. -/
example : sshSent polyExt 3 (.start Db.empty) (twoChannels ++ [(demoMoment, 3, askFor .receivePack 1 (ascii "/a")), (demoMoment, 3, .data 1 (ascii "PACK"))]) = [] :=
  (C87_no_credentials_partial polyExt 3 _ _ (.inl rfl) (by
    intro p hp hi user secret e
    simp only [twoChannels, List.cons_append, List.nil_append, List.mem_cons, List.not_mem_nil, or_false] at hp
    rcases hp with rfl | rfl | rfl | rfl | rfl <;> simp [askFor] at hi e)).1

theorem twoChannels_after : (sshRun polyExt (.start Db.empty) twoChannels).db = Db.empty ∧ (sshRun polyExt (.start Db.empty) twoChannels).link 0 =
    .ready (some { service := .receivePack, path := ascii "/b", caps := [], commands := [] }) := by decide +kernel

/-- **C85 is false** for two sessions on one connection (as clients that share connections have them): channel 1 is opened for a push to `/a`, channel 2 for a push to
`/b`; the client then pushes on channel 1. It is told that all is well, and the commit has been stored in `/b`; nothing has been stored in `/a`. -/
theorem C85_channels_false : ∃ (pack rep : Bytes),
    let s := sshRun polyExt (.start Db.empty) (twoChannels ++ [(demoMoment, 0, .data 1 (Spec.pushBody appCmd [] (ascii "report-status") []))])
    let r := sshStep polyExt demoMoment s 0 (.data 1 pack)
    r.1 = [(1, rep)] ∧ Spec.reportLines false rep = some [ascii "unpack ok\n", Spec.statusLine (ascii "refs/heads/master" ++ [0]) none] ∧
      (∃ c ∈ r.2.db.commits, c.data = appCommit.encode) ∧ ∀ c ∈ r.2.db.commits, c.repoPath = ascii "/b" := by
  obtain ⟨pack, rep, h⟩ := app_ssh _ twoChannels_after.1 0 1 twoChannels_after.2
  refine ⟨pack, rep, ?_⟩
  rw [sshRun_append]
  exact h

end Gust

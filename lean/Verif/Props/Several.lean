import Verif.Props.SshExamples
import Verif.Props.RefsShown

/-! # C24: pushes of several refs -/

namespace Gust

/-- What is left of the request behind the first command and the four digits that begin the next one. -/
def Spec.behindFirst (c2 : Spec.PushCmd) (cs : List Spec.PushCmd) (pack : Bytes) : Bytes :=
  Spec.cmdLine c2 ++ Spec.stream (cs.map (fun c => .line (Spec.cmdLine c))) ++ Spec.frame .flush ++ pack

theorem several_body (c c2 : Spec.PushCmd) (cs : List Spec.PushCmd) (caps pack : Bytes) : Spec.pushBody c (c2 :: cs) caps pack =
    Spec.frame (.line (Spec.firstCmdLine c caps)) ++ (Spec.len4 ((Spec.cmdLine c2).length + 4) ++ Spec.behindFirst c2 cs pack) := by
  simp only [Spec.pushBody, List.map_cons, stream_cons, Spec.behindFirst]
  simp only [Spec.frame, List.append_assoc]

theorem behindFirst_not_pack {c2 : Spec.PushCmd} (h2 : c2.Ok) (cs : List Spec.PushCmd) (pack : Bytes) : (ascii "PACK").isPrefixOf (Spec.behindFirst c2 cs pack) = false := by
  obtain ⟨o, n, m⟩ := c2
  obtain ⟨h, hx, _⟩ := h2
  cases o with
  | nil => cases h
  | cons x o =>
    have hx := hx x (.head _)
    have : (0x50 == x) = false := by
      rw [beq_eq_false_iff_ne]
      rintro rfl
      revert hx
      simp [Spec.IsHexDigit]
    simp [Spec.behindFirst, Spec.cmdLine, ascii, List.isPrefixOf, this]

/-- The first call takes the first command only. -/
theorem receive_several {σ P : Type} (E : PushEnv σ P) (st : PushState σ) {c : Spec.PushCmd} (hc : c.Ok) {caps : Bytes} (hl : caps.length ≤ 4000) (ha : ∀ x ∈ caps, x.toNat < 128)
    (c2 : Spec.PushCmd) (cs : List Spec.PushCmd) (pack : Bytes) :
    gitReceivePack E st (Spec.pushBody c (c2 :: cs) caps pack) =
      .ok (Spec.behindFirst c2 cs pack, { st with caps := st.caps ++ parseCapabilities caps, commands := st.commands ++ [RefCommand.new c.old c.new (c.name ++ [0])] }) := by
  rw [several_body, gitReceivePack, frame_not_pack]
  simp only [Bool.false_eq_true, if_false]
  exact receiveCommand_first _ c hc caps hl ha _ _ (len4_length _)

theorem receiveCommand_suffix {σ : Type} {st : PushState σ} {body : Bytes} {r : Bytes × PushState σ} (h : receiveCommand st body = .ok r) : r.1 <:+ body ∧ r.2.db = st.db := by
  unfold receiveCommand at h
  simp only [Res.bind_eq_ok] at h
  obtain ⟨⟨⟨n, line⟩, rest⟩, h1, h2⟩ := h
  have hs : rest <:+ body := readPktLine_rest h1
  simp only at h2
  split at h2
  · cases h2
    exact ⟨hs, rfl⟩
  · simp only [Res.bind_eq_ok] at h2
    obtain ⟨⟨cmd, capText⟩, _, h3⟩ := h2
    simp only at h3
    split at h3
    · simp only [Res.bind_eq_ok] at h3
      obtain ⟨out, h4, h5⟩ := h3
      cases h5
      refine ⟨?_, rfl⟩
      unfold sliceFrom at h4
      split at h4
      · cases h4
        exact (List.drop_suffix _ _).trans hs
      · cases h4
    · cases h3

/-- **C24 fails** for every push of more than one ref over HTTP: whatever the storage, the commands, the capabilities and the pack, nothing is stored and no ref is
changed; what the client gets, if the server does not crash, is an end of its own request. -/
theorem C24_several_lost {σ P : Type} (E : PushEnv σ P) (st : PushState σ) (c c2 : Spec.PushCmd) (hc : c.Ok) (h2 : c2.Ok) (caps : Bytes) (hl : caps.length ≤ 4000)
    (ha : ∀ x ∈ caps, x.toNat < 128) (cs : List Spec.PushCmd) (pack : Bytes) :
    httpReceiveDb E st (Spec.pushBody c (c2 :: cs) caps pack) = st.db ∧
    ∀ resp st', httpReceivePack E st (Spec.pushBody c (c2 :: cs) caps pack) = .ok (resp, st') → st'.db = st.db ∧ resp <:+ Spec.pushBody c (c2 :: cs) caps pack := by
  have key := receive_several E st hc hl ha c2 cs pack
  have np := behindFirst_not_pack h2 cs pack
  constructor
  · rw [httpReceiveDb, key]
    simp only [gitReceiveDb, np, Bool.false_eq_true, if_false]
  · intro resp st' h
    rw [httpReceivePack, key, Res.unwrap_ok, Res.bind_ok] at h
    simp only [gitReceivePack, np, Bool.false_eq_true, if_false] at h
    obtain ⟨k1, k2⟩ := receiveCommand_suffix (Res.unwrap_eq_ok.1 h)
    refine ⟨k2, k1.trans ?_⟩
    rw [several_body]
    exact ⟨Spec.frame (.line (Spec.firstCmdLine c caps)) ++ Spec.len4 ((Spec.cmdLine c2).length + 4), by rw [List.append_assoc]⟩

/-- **C24 fails** on the server: in every state, at every moment, a push of more than one ref to any URL leaves everything as it was, and any answer is an end of the request. -/
theorem C24_several_server {P : ServerExt} (m : Moment) (s : ServerState) {u g : Bytes} (hu : Spec.CleanUrl u) (hg : g = [] ∨ g = ascii ".git") (c c2 : Spec.PushCmd) (hc : c.Ok)
    (h2 : c2.Ok) (caps : Bytes) (hl : caps.length ≤ 4000) (ha : ∀ x ∈ caps, x.toNat < 128) (cs : List Spec.PushCmd) (pack : Bytes) :
    (serve P m s (Spec.pushReq (u ++ g) (Spec.pushBody c (c2 :: cs) caps pack))).2 = s ∧
    ∀ out, (serve P m s (Spec.pushReq (u ++ g) (Spec.pushBody c (c2 :: cs) caps pack))).1 = .reply (.ok (.bytes out)) → out <:+ Spec.pushBody c (c2 :: cs) caps pack := by
  have hroute : route .post (u ++ g ++ ascii "/git-receive-pack") none = .receivePack u := route_push hu hg
  obtain ⟨k1, k2⟩ := C24_several_lost (mysqlPush P.X m.sql m.fuel) { caps := [], commands := [], path := u, db := s.db } c c2 hc h2 caps hl ha cs pack
  constructor
  · simp only [serve, Spec.pushReq, hroute]
    rw [k1]
  · intro out h
    simp only [serve, Spec.pushReq, hroute] at h
    obtain ⟨⟨resp, st'⟩, e1, e2⟩ := Res.outcome_ok h
    cases e2
    exact (k2 _ _ e1).2

/-- **C24 fails** over SSH in another way: of a command section with several commands the first one alone counts. The server sends the others back to the client (without the four digits that
begin them) and is afterwards in the state in which it would be if the client had sent the first command only; so the pack that follows is stored and reported as that of a push of
the first ref. -/
theorem C24_ssh_first_only {X : Ext} {m : Moment} {s : SshState} {i ch : Nat} {u : Bytes} (hs : s.link i = .ready (some { service := .receivePack, path := u, caps := [], commands := [] }))
    (c c2 : Spec.PushCmd) (hc : c.Ok) (caps : Bytes) (hl : caps.length ≤ 4000) (ha : ∀ x ∈ caps, x.toNat < 128) (cs : List Spec.PushCmd) :
    (sshStep X m s i (.data ch (Spec.pushBody c (c2 :: cs) caps []))).1 = [(ch, Spec.behindFirst c2 cs [])] ∧
    (sshStep X m s i (.data ch (Spec.pushBody c (c2 :: cs) caps []))).2 = (sshStep X m s i (.data ch (Spec.pushBody c [] caps []))).2 ∧
    (sshStep X m s i (.data ch (Spec.pushBody c [] caps []))).1 = [] := by
  have k1 := receive_several (mysqlPush X m.sql m.fuel) { caps := [], commands := [], path := u, db := s.db } hc hl ha c2 cs []
  have k2 := receive_section (mysqlPush X m.sql m.fuel) u s.db hc hl ha []
  have d1 : gitReceiveDb (mysqlPush X m.sql m.fuel) { caps := [], commands := [], path := u, db := s.db } (Spec.pushBody c (c2 :: cs) caps []) = s.db := gitReceiveDb_ok k1
  have d2 : gitReceiveDb (mysqlPush X m.sql m.fuel) { caps := [], commands := [], path := u, db := s.db } (Spec.pushBody c [] caps []) = s.db := gitReceiveDb_ok k2
  have hne : Spec.behindFirst c2 cs [] ≠ [] := by simp [Spec.behindFirst, Spec.frame]
  unfold sshStep
  rw [hs]
  simp only [sshLinkStep, sshData, sshReceivePack, k1, k2, d1, d2, Res.unwrap_ok, Res.sent, Res.link, hne, if_false, if_true, List.nil_append, and_self]

/-- C24: two new branches in one push, over HTTP. -/
example (m : Moment) (s : ServerState) (pack : Bytes) :
    (serve demoServer m s (Spec.pushReq (ascii "/app" ++ []) (Spec.pushBody appCmd [devCmd] (ascii "report-status") pack))).2 = s :=
  (C24_several_server m s app_clean_url (.inl rfl) appCmd devCmd appCmd_ok devCmd_ok (ascii "report-status") (by decide) (by decide) [] pack).1

/-- C24: the same two over SSH, to `/b`: the second command comes back, the first one waits for its pack. -/
example : let s := sshStep polyExt demoMoment (sshRun polyExt (.start Db.empty) twoChannels) 0 (.data 2 (Spec.pushBody appCmd [devCmd] (ascii "report-status") []))
    s.1 = [(2, Spec.cmdLine devCmd ++ ascii "0000")] ∧ ∃ p, s.2.link 0 = .ready (some p) ∧ p.path = ascii "/b" ∧ p.commands = [RefCommand.new appCmd.old appCmd.new (appCmd.name ++ [0])] := by
  intro s
  obtain ⟨k1, k2, _⟩ := C24_ssh_first_only (m := demoMoment) (ch := 2) twoChannels_after.2 appCmd devCmd appCmd_ok (ascii "report-status") (by decide) (by decide) []
  refine ⟨k1.trans (by decide +kernel), ?_⟩
  have k2 : s.2 = _ := k2
  rw [k2, sshStep_self, twoChannels_after.2]
  have := receive_section (mysqlPush polyExt demoMoment.sql demoMoment.fuel) (ascii "/b") (sshRun polyExt (.start Db.empty) twoChannels).db appCmd_ok (caps := ascii "report-status")
    (by decide) (by decide) []
  simp only [sshLinkStep, sshData, sshReceivePack, this, Res.unwrap_ok, Res.link]
  exact ⟨_, rfl, rfl, rfl⟩

end Gust

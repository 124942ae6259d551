import Verif.Lemmas.Ssh
import Verif.Spec.Ssh
import Verif.Props.Server

/-! # C85 – C87: the SSH server -/

namespace Gust

/-! ## C85: sessions do not disturb each other -/

/-- **C85** (partial). However many connections there are and however their messages are interleaved: as long as the messages of the others leave the
repositories alone, a connection is sent exactly what it would be sent if it were the only one, and it is in the same state. -/
theorem C85_connections_partial (X : Ext) (i : Nat) : ∀ (h : SshHist) (s : SshState),
    (∀ h1 p h2, h = h1 ++ p :: h2 → p.2.1 ≠ i → (sshStep X p.1 (sshRun X s h1) p.2.1 p.2.2).2.db = (sshRun X s h1).db) →
    sshSent X i s h = sshSent X i s (Spec.ofConn i h) ∧ (sshRun X s h).link i = (sshRun X s (Spec.ofConn i h)).link i ∧
      (sshRun X s h).db = (sshRun X s (Spec.ofConn i h)).db := by
  -- the states differ only in the other connections
  have cong : ∀ (h : SshHist) (s t : SshState), s.db = t.db → s.link i = t.link i → (∀ p ∈ h, p.2.1 = i) →
      sshSent X i s h = sshSent X i t h ∧ (sshRun X s h).link i = (sshRun X t h).link i ∧ (sshRun X s h).db = (sshRun X t h).db := by
    intro h
    induction h with
    | nil => intro s t e1 e2 _; exact ⟨rfl, e2, e1⟩
    | cons p h ih =>
      intro s t e1 e2 hp
      have hi := hp p (.head _)
      have := ih (sshStep X p.1 s p.2.1 p.2.2).2 (sshStep X p.1 t p.2.1 p.2.2).2
        (by rw [sshStep_db, sshStep_db, hi, e1, e2]) (by rw [hi, sshStep_self, sshStep_self, e1, e2]) (fun q hq => hp q (.tail _ hq))
      refine ⟨?_, this.2⟩
      rw [sshSent_cons, sshSent_cons, if_pos hi, if_pos hi, this.1]
      exact congrArg (· ++ _) (by rw [sshStep_out, sshStep_out, hi, e1, e2])
  intro h
  induction h with
  | nil => intro s _; exact ⟨rfl, rfl, rfl⟩
  | cons p h ih =>
    intro s hq
    have ih := ih (sshStep X p.1 s p.2.1 p.2.2).2 (fun h1 q h2 e hn => hq (p :: h1) q h2 (by rw [e]; rfl) hn)
    by_cases hi : p.2.1 = i
    · have e : Spec.ofConn i (p :: h) = p :: Spec.ofConn i h := List.filter_cons_of_pos (by simpa using hi)
      rw [e]
      refine ⟨?_, ih.2⟩
      rw [sshSent_cons, sshSent_cons, ih.1]
    · have e : Spec.ofConn i (p :: h) = Spec.ofConn i h := List.filter_cons_of_neg (by simpa using hi)
      rw [e]
      have hdb := hq [] p h rfl hi
      have hc := cong (Spec.ofConn i h) (sshStep X p.1 s p.2.1 p.2.2).2 s hdb (sshStep_other (fun e => hi e.symm))
        (fun q hq => by simpa using (List.mem_filter.1 hq).2)
      refine ⟨?_, ih.2.1.trans hc.2.1, ih.2.2.trans hc.2.2⟩
      rw [sshSent_cons, if_neg hi, List.nil_append, ih.1, hc.1]

/-- **C85** (partial). A handler that crashes or never ends changes no other connection; whatever the others do, a connection can only be ended by
a message of its own. -/
theorem C85_crash_partial (X : Ext) (i : Nat) (h : SshHist) (s : SshState) (hn : ∀ p ∈ h, p.2.1 ≠ i) : (sshRun X s h).link i = s.link i :=
  sshRun_other h hn

/-- A second exec request replaces the session of the first one, whatever its channel. -/
theorem last_exec_wins {X : Ext} {m0 m1 : Moment} {s : SshState} {i ch0 ch1 : Nat} {c0 c1 path : Bytes} {t : ServiceType} {p : Option SshProto}
    (hr : (sshStep X m0 s i (.exec ch0 c0)).2.link i = .ready p) (hc : sshCommand c1 = .ok (path, t)) {q : Option SshProto}
    (ha : (sshStep X m1 (sshStep X m0 s i (.exec ch0 c0)).2 i (.exec ch1 c1)).2.link i = .ready q) :
    q = some { service := t, path := path, caps := [], commands := [] } := by
  rw [sshStep_self, hr] at ha
  exact sshExec_ready hc ha

/-! ## C86: SSH and HTTP -/

/-- The first call for a push takes the command section and leaves the rest. -/
theorem receive_section {σ P : Type} (E : PushEnv σ P) (u : Bytes) (db : σ) {c : Spec.PushCmd} (hc : c.Ok) {caps : Bytes} (hl : caps.length ≤ 4000)
    (ha : ∀ x ∈ caps, x.toNat < 128) (pack : Bytes) :
    gitReceivePack E { caps := [], commands := [], path := u, db := db } (Spec.pushBody c [] caps pack) =
      .ok (pack, { caps := parseCapabilities caps, commands := [RefCommand.new c.old c.new (c.name ++ [0])], path := u, db := db }) := by
  have e : Spec.pushBody c [] caps pack = Spec.frame (.line (Spec.firstCmdLine c caps)) ++ (Spec.frame .flush ++ pack) := by
    simp [Spec.pushBody, Spec.stream]
  rw [e, gitReceivePack, frame_not_pack]
  simp only [Bool.false_eq_true, if_false]
  rw [receiveCommand_first _ c hc caps hl ha (Spec.frame .flush) pack rfl]
  rfl

/-- Nothing is stored by it. -/
theorem receive_section_db {σ P : Type} (E : PushEnv σ P) (st : PushState σ) (c : Spec.PushCmd) (caps pack : Bytes) :
    gitReceiveDb E st (Spec.pushBody c [] caps pack) = st.db := by
  have e : Spec.pushBody c [] caps pack = Spec.frame (.line (Spec.firstCmdLine c caps)) ++ (Spec.frame .flush ++ pack) := by
    simp [Spec.pushBody, Spec.stream]
  rw [gitReceiveDb, e, frame_not_pack]
  simp only [Bool.false_eq_true, if_false]

/-- A push session: the state in which the server waits for the pack. -/
theorem push_session {X : Ext} {u : Bytes} {i : Nat} {m1 : Moment} {s : SshState} {ch1 : Nat} {h1 h2 : SshHist} (hn1 : ∀ p ∈ h1, p.2.1 ≠ i)
    (hn2 : ∀ p ∈ h2, p.2.1 ≠ i) {c : Spec.PushCmd} (hc : c.Ok) {caps : Bytes} (hl : caps.length ≤ 4000) (ha : ∀ x ∈ caps, x.toNat < 128)
    (hs : s.link i = .ready (some { service := .receivePack, path := u, caps := [], commands := [] })) :
    (sshStep X m1 (sshRun X s h1) i (.data ch1 (Spec.pushBody c [] caps []))).1 = [] ∧
    (sshRun X s (h1 ++ (m1, i, .data ch1 (Spec.pushBody c [] caps [])) :: h2)).link i =
      .ready (some { service := .receivePack, path := u, caps := parseCapabilities caps, commands := [RefCommand.new c.old c.new (c.name ++ [0])] }) := by
  have hl1 : (sshRun X s h1).link i = _ := (sshRun_other h1 hn1).trans hs
  have key : ∀ db : Db, gitReceivePack (mysqlPush X m1.sql m1.fuel) { caps := [], commands := [], path := u, db := db } (Spec.pushBody c [] caps []) =
      .ok ([], { caps := parseCapabilities caps, commands := [RefCommand.new c.old c.new (c.name ++ [0])], path := u, db := db }) := fun db => receive_section _ u db hc hl ha []
  have step : sshLinkStep X m1 (sshRun X s h1).db ((sshRun X s h1).link i) (.data ch1 (Spec.pushBody c [] caps [])) =
      ([], .ready (some { service := .receivePack, path := u, caps := parseCapabilities caps, commands := [RefCommand.new c.old c.new (c.name ++ [0])] }),
        gitReceiveDb (mysqlPush X m1.sql m1.fuel) { caps := [], commands := [], path := u, db := (sshRun X s h1).db } (Spec.pushBody c [] caps [])) := by
    rw [hl1]
    simp only [sshLinkStep, sshData, sshReceivePack, key, Res.unwrap_ok, Res.sent, Res.link, if_true]
  refine ⟨by rw [sshStep_out, step], ?_⟩
  rw [sshRun_append]
  show (sshRun X (sshStep X m1 (sshRun X s h1) i (.data ch1 (Spec.pushBody c [] caps []))).2 h2).link i = _
  rw [sshRun_other h2 hn2, sshStep_self, step]

/-- **C86** (partial). A push over SSH: in any state, on any connection (used before or not) the server is asked for the repository, gets the command section
and the pack as one message each, with any messages of other connections in between. Then the command section is not answered, and the pack is answered
exactly as the push would be over HTTP at that moment, with the same effect on the repositories. -/
theorem C86_push_partial {P : ServerExt} {u g : Bytes} (hu : Spec.CleanUrl u) (hg : g = [] ∨ g = ascii ".git") (hsp : (0x20 : UInt8) ∉ u)
    (hb : isBoundary u 0 = true) {i : Nat} {m0 m1 m : Moment} {s : SshState} {p0 p1 : Option SshProto} (h0 : s.link i = .ready p0) {ch0 ch1 ch : Nat}
    {h1 h2 : SshHist} (hn1 : ∀ p ∈ h1, p.2.1 ≠ i) (hn2 : ∀ p ∈ h2, p.2.1 ≠ i) {c : Spec.PushCmd} (hc : c.Ok) {caps : Bytes} (hl : caps.length ≤ 4000)
    (ha : ∀ x ∈ caps, x.toNat < 128) (pack : Bytes) (locks : LockTable) (lfs : LfsState)
    (hans : (sshStep P.X m0 s i (.exec ch0 (Spec.sshLine .receivePack (0x2f :: (u ++ ascii ".git"))))).2.link i = .ready p1) :
    let s1 := (sshStep P.X m0 s i (.exec ch0 (Spec.sshLine .receivePack (0x2f :: (u ++ ascii ".git"))))).2
    let t := sshRun P.X s1 (h1 ++ (m1, i, .data ch1 (Spec.pushBody c [] caps [])) :: h2)
    let http := serve P m { db := t.db, locks := locks, lfs := lfs } (Spec.pushReq (u ++ g) (Spec.pushBody c [] caps pack))
    let ssh := sshStep P.X m t i (.data ch pack)
    (sshStep P.X m1 (sshRun P.X s1 h1) i (.data ch1 (Spec.pushBody c [] caps []))).1 = [] ∧
      Spec.SameAnswer ch http.1 ssh.1 (ssh.2.link i) ∧ ssh.2.db = http.2.db := by
  intro s1 t http ssh
  have hs1 : s1.link i = .ready (some { service := .receivePack, path := u, caps := [], commands := [] }) := by
    show (sshStep P.X m0 s i _).2.link i = _
    rw [hans]
    rw [sshStep_self, h0] at hans
    exact congrArg _ (sshExec_ready (C56_ssh_partial .receivePack u hsp hb) hans)
  obtain ⟨q1, q2⟩ := push_session (m1 := m1) (ch1 := ch1) (X := P.X) hn1 hn2 hc hl ha hs1
  have q2 : t.link i = _ := q2
  refine ⟨q1, ?_⟩
  have key : gitReceivePack (mysqlPush P.X m.sql m.fuel) { caps := [], commands := [], path := u, db := t.db } (Spec.pushBody c [] caps pack) =
      .ok (pack, { caps := parseCapabilities caps, commands := [RefCommand.new c.old c.new (c.name ++ [0])], path := u, db := t.db }) := receive_section _ u _ hc hl ha pack
  have hr : route .post (u ++ g ++ ascii "/git-receive-pack") none = .receivePack u := route_push hu hg
  have h1 : http.1 = (gitReceivePack (mysqlPush P.X m.sql m.fuel)
      { caps := parseCapabilities caps, commands := [RefCommand.new c.old c.new (c.name ++ [0])], path := u, db := t.db } pack).unwrap.outcome
        (fun p => .bytes p.1) := by
    simp only [http, serve, Spec.pushReq, hr, httpReceivePack, key, Res.unwrap_ok, Res.bind_ok]
  have h2 : http.2.db = gitReceiveDb (mysqlPush P.X m.sql m.fuel)
      { caps := parseCapabilities caps, commands := [RefCommand.new c.old c.new (c.name ++ [0])], path := u, db := t.db } pack := by
    simp only [http, serve, Spec.pushReq, hr, httpReceiveDb, key]
  let q : SshProto := { service := .receivePack, path := u, caps := parseCapabilities caps, commands := [RefCommand.new c.old c.new (c.name ++ [0])] }
  have step : sshLinkStep P.X m t.db (t.link i) (.data ch pack) = sshData P.X m t.db (some q) ch pack := by
    rw [q2]
    rfl
  have e1 : ssh.1 = (sshData P.X m t.db (some q) ch pack).1 := by rw [← step]; rfl
  have e2 : ssh.2.link i = (sshData P.X m t.db (some q) ch pack).2.1 := by rw [← step]; exact sshStep_self
  have e3 : ssh.2.db = (sshData P.X m t.db (some q) ch pack).2.2 := by rw [← step]; rfl
  rw [h1, h2, e1, e2, e3]
  simp only [q, sshData, sshReceivePack]
  refine ⟨?_, trivial⟩
  generalize gitReceivePack (mysqlPush P.X m.sql m.fuel) _ pack = r
  cases r with
  | ok a => exact ⟨rfl, _, rfl⟩
  | err _ => exact ⟨rfl, rfl⟩
  | panic => exact ⟨rfl, rfl⟩
  | spin => exact ⟨rfl, rfl⟩

/-- **C86 is false**: the same bytes that push over HTTP in one request, sent over SSH in one message (as a client may), store nothing, and the server sends the pack
back to the client. -/
theorem C86_one_message_false {X : Ext} {u : Bytes} {i : Nat} {m : Moment} {s : SshState} {ch : Nat} {c : Spec.PushCmd} (hc : c.Ok) {caps : Bytes}
    (hl : caps.length ≤ 4000) (ha : ∀ x ∈ caps, x.toNat < 128) {pack : Bytes} (hne : pack ≠ [])
    (hs : s.link i = .ready (some { service := .receivePack, path := u, caps := [], commands := [] })) :
    (sshStep X m s i (.data ch (Spec.pushBody c [] caps pack))).1 = [(ch, pack)] ∧
      (sshStep X m s i (.data ch (Spec.pushBody c [] caps pack))).2.db = s.db := by
  have key : gitReceivePack (mysqlPush X m.sql m.fuel) { caps := [], commands := [], path := u, db := s.db } (Spec.pushBody c [] caps pack) =
      .ok (pack, { caps := parseCapabilities caps, commands := [RefCommand.new c.old c.new (c.name ++ [0])], path := u, db := s.db }) := receive_section _ u _ hc hl ha pack
  constructor
  · rw [sshStep_out, hs]
    simp only [sshLinkStep, sshData, sshReceivePack, key, Res.unwrap_ok, Res.sent]
    exact if_neg hne
  · rw [sshStep_db, hs]
    exact receive_section_db _ _ c caps pack

/-- **C86** (partial). A fetch over SSH: the first message on a session for a repository is answered exactly as the same request over HTTP at that moment, whatever
it contains; the repositories stay as they are. -/
theorem C86_fetch_partial {P : ServerExt} {u g : Bytes} (hu : Spec.CleanUrl u) (hg : g = [] ∨ g = ascii ".git") (hsp : (0x20 : UInt8) ∉ u)
    (hb : isBoundary u 0 = true) {i : Nat} {m0 m : Moment} {s : SshState} {p0 p1 : Option SshProto} (h0 : s.link i = .ready p0) {ch0 ch : Nat}
    {h1 : SshHist} (hn1 : ∀ p ∈ h1, p.2.1 ≠ i) (hord : ∀ l x, x ∈ m.ord l → x ∈ l) (body : Bytes) (locks : LockTable) (lfs : LfsState)
    (hans : (sshStep P.X m0 s i (.exec ch0 (Spec.sshLine .uploadPack (0x2f :: (u ++ ascii ".git"))))).2.link i = .ready p1) :
    let t := sshRun P.X (sshStep P.X m0 s i (.exec ch0 (Spec.sshLine .uploadPack (0x2f :: (u ++ ascii ".git"))))).2 h1
    let http := serve P m { db := t.db, locks := locks, lfs := lfs } (Spec.fetchReq (u ++ g) body)
    let ssh := sshStep P.X m t i (.data ch body)
    Spec.SameAnswer ch http.1 ssh.1 (ssh.2.link i) ∧ ssh.2.db = t.db := by
  intro t http ssh
  have hs1 : (sshStep P.X m0 s i (.exec ch0 (Spec.sshLine .uploadPack (0x2f :: (u ++ ascii ".git"))))).2.link i =
      .ready (some { service := .uploadPack, path := u, caps := [], commands := [] }) := by
    rw [hans]
    rw [sshStep_self, h0] at hans
    exact congrArg _ (sshExec_ready (C56_ssh_partial .uploadPack u hsp hb) hans)
  have q2 : t.link i = .ready (some { service := .uploadPack, path := u, caps := [], commands := [] }) := (sshRun_other h1 hn1).trans hs1
  have hr : route .post (u ++ g ++ ascii "/git-upload-pack") none = .uploadPack u := route_fetch hu hg
  have h1 : http.1 = (httpUploadPack (mysqlFetch P.X m.sql m.fuel t.db u) m.ord m.cut body).outcome .bytes := by
    simp only [http, serve, Spec.fetchReq, hr]
  let q : SshProto := { service := .uploadPack, path := u, caps := [], commands := [] }
  have step : sshLinkStep P.X m t.db (t.link i) (.data ch body) = sshData P.X m t.db (some q) ch body := by
    rw [q2]
    rfl
  have e1 : ssh.1 = (sshData P.X m t.db (some q) ch body).1 := by rw [← step]; rfl
  have e2 : ssh.2.link i = (sshData P.X m t.db (some q) ch body).2.1 := by rw [← step]; exact sshStep_self
  have e3 : ssh.2.db = (sshData P.X m t.db (some q) ch body).2.2 := by rw [← step]; rfl
  rw [h1, e1, e2, e3, ← sshUploadPack_http _ _ hord]
  simp only [q, sshData]
  refine ⟨?_, trivial⟩
  generalize sshUploadPack (mysqlFetch P.X m.sql m.fuel t.db u) m.ord m.cut [] body = r
  cases r with
  | ok a => exact ⟨rfl, _, rfl⟩
  | err _ => exact ⟨rfl, rfl⟩
  | panic => exact ⟨rfl, rfl⟩
  | spin => exact ⟨rfl, rfl⟩

theorem route_discover {u g : Bytes} (hu : Spec.CleanUrl u) (hg : g = [] ∨ g = ascii ".git") (t : ServiceType) :
    route .get (u ++ g ++ ascii "/info/refs") (some t.display) = .infoRefs u t := by
  have h := C57_routed_partial (.infoRefs (u ++ g) t) (fun _ hx => by
    obtain ⟨pre, e⟩ := hx
    have := congrArg (fun l : Bytes => l.reverse.take 2) e
    simp [ascii] at this)
  have h2 := C56_http_partial hu hg (.discover t)
  obtain ⟨repo, h⟩ := h
  rw [h] at h2 ⊢
  exact congrArg (Route.infoRefs · t) (Option.some.inj h2)

theorem gitInfoRefs_http (t : ServiceType) (headId : Bytes) (refs : List (Bytes × Bytes)) :
    gitInfoRefs .http t headId refs = Spec.stream [.line (ascii "# service=" ++ t.display ++ ascii "\n"), .flush] ++ gitInfoRefs .ssh t headId refs := by
  have key : ∀ (l : List Bytes) (a : Bytes), l.foldl addPktLine a = a ++ l.foldl addPktLine [] := by
    intro l
    induction l with
    | nil => intro a; simp
    | cons x l ih =>
      intro a
      rw [List.foldl_cons, List.foldl_cons, ih, ih (addPktLine [] x)]
      simp only [addPktLine, List.nil_append, List.append_assoc]
  have e : addPktLine [] (ascii "# service=" ++ t.display ++ ascii "\n") ++ flushPkt =
      Spec.stream [.line (ascii "# service=" ++ t.display ++ ascii "\n"), .flush] := by cases t <;> decide +kernel
  rw [gitInfoRefs, gitInfoRefs, buildSmartReply, buildSmartReply]
  simp only [if_true, reduceCtorEq, if_false]
  rw [key, e, List.append_assoc]

theorem gitInfoRefs_ne_nil (p : Protocol) (t : ServiceType) (headId : Bytes) (refs : List (Bytes × Bytes)) : gitInfoRefs p t headId refs ≠ [] := by
  intro h
  have := congrArg List.length h
  simp [gitInfoRefs, buildSmartReply, flushPkt, ascii] at this

/-- **C86** (partial). Opening a session: if the repository is advertised over HTTP at that moment, the same is sent over SSH but for the header of HTTP (unless it
is not text, when the session ends), with the same effect on the repositories. -/
theorem C86_discover_partial {P : ServerExt} {u g : Bytes} (hu : Spec.CleanUrl u) (hg : g = [] ∨ g = ascii ".git") (hsp : (0x20 : UInt8) ∉ u)
    (hb : isBoundary u 0 = true) (t : ServiceType) {i : Nat} {m : Moment} {s : SshState} {p0 : Option SshProto} (h0 : s.link i = .ready p0) (ch : Nat)
    (locks : LockTable) (lfs : LfsState) :
    let http := serve P m { db := s.db, locks := locks, lfs := lfs } { method := .get, path := u ++ g ++ ascii "/info/refs", service := some t.display }
    let ssh := sshStep P.X m s i (.exec ch (Spec.sshLine t (0x2f :: (u ++ ascii ".git"))))
    ssh.2.db = http.2.db ∧ ∀ b, http.1 = .reply (.ok (.bytes b)) →
      ∃ b', b = Spec.stream [.line (ascii "# service=" ++ t.display ++ ascii "\n"), .flush] ++ b' ∧
        (utf8Valid b' = true → ssh.1 = [(ch, b')] ∧ ssh.2.link i = .ready (some { service := t, path := u, caps := [], commands := [] })) := by
  intro http ssh
  have hr : route .get (u ++ g ++ ascii "/info/refs") (some t.display) = .infoRefs u t := route_discover hu hg t
  have hc : sshCommand (Spec.sshLine t (0x2f :: (u ++ ascii ".git"))) = .ok (u, t) := C56_ssh_partial t u hsp hb
  have hdb : (advertise P.X m.sql .ssh t s.db u).2 = (advertise P.X m.sql .http t s.db u).2 := by
    unfold advertise
    rcases getHeadObjectId P.X m.sql s.db u with ⟨r, db⟩
    cases r <;> rfl
  have h1 : ssh.2.db = (advertise P.X m.sql .ssh t s.db u).2 := by
    show (sshLinkStep _ _ _ _ _).2.2 = _
    rw [h0]
    simp only [sshLinkStep, sshExec, hc]
  have h2 : http.2.db = (advertise P.X m.sql .http t s.db u).2 := by
    simp only [http, serve, hr]
  have h3 : http.1 = (advertise P.X m.sql .http t s.db u).1.outcome .bytes := by
    simp only [http, serve, hr]
  refine ⟨by rw [h1, h2, hdb], fun b hb' => ?_⟩
  have step : sshLinkStep P.X m s.db (s.link i) (.exec ch (Spec.sshLine t (0x2f :: (u ++ ascii ".git")))) =
      sshExec P.X m s.db ch (Spec.sshLine t (0x2f :: (u ++ ascii ".git"))) := by rw [h0]; rfl
  have e1 : ssh.1 = (sshExec P.X m s.db ch (Spec.sshLine t (0x2f :: (u ++ ascii ".git")))).1 := by rw [← step]; rfl
  have e2 : ssh.2.link i = (sshExec P.X m s.db ch (Spec.sshLine t (0x2f :: (u ++ ascii ".git")))).2.1 := by rw [← step]; exact sshStep_self
  rw [h3] at hb'
  rw [e1, e2]
  simp only [sshExec, hc]
  obtain ⟨a, ha, hab⟩ := Res.outcome_ok hb'
  cases hab
  unfold advertise at ha ⊢
  generalize getHeadObjectId P.X m.sql s.db u = r at ha ⊢
  rcases r with ⟨r, db⟩
  cases r with
  | ok headId =>
    simp only [Res.ok.injEq] at ha
    refine ⟨gitInfoRefs .ssh t headId (getRefObjectId m.sql db u), ?_, fun hv => ?_⟩
    · rw [← ha, gitInfoRefs_http]
    · dsimp only
      rw [Res.bind_ok, if_pos hv]
      exact ⟨if_neg (gitInfoRefs_ne_nil _ _ _ _), rfl⟩
  | _ => cases ha

/-! ## C87: credentials -/

/-- **C87 is false**: whatever user name and whatever password or key a client gives makes no difference at all. Two histories that differ only in
credentials lead to the same state and send the same bytes to everyone; a new connection is ready for requests after any credentials. -/
theorem C87_credentials_false (X : Ext) : (∀ (h h' : SshHist), Spec.SameHistory h h' → ∀ s, sshRun X s h = sshRun X s h' ∧ ∀ i, sshSent X i s h = sshSent X i s h') ∧
    ∀ (m : Moment) (s : SshState) (i : Nat) (user secret : Bytes), s.link i = .fresh → (sshStep X m s i (.auth user secret)).2.link i = .ready none := by
  have one : ∀ (m : Moment) (s : SshState) (i : Nat) (e e' : SshEvent), Spec.SameButSecrets e e' → sshStep X m s i e = sshStep X m s i e' := by
    intro m s i e e' h
    have : sshLinkStep X m s.db (s.link i) e = sshLinkStep X m s.db (s.link i) e' := by
      cases e <;> cases e' <;> simp only [Spec.SameButSecrets, reduceCtorEq] at h
      · cases s.link i <;> rfl
      · rw [h]
      · rw [h]
    simp only [sshStep, this]
  refine ⟨fun h h' hs => ?_, fun m s i user secret hf => ?_⟩
  · induction hs with
    | nil => intro s; exact ⟨rfl, fun _ => rfl⟩
    | @cons m j e e' h h' h3 _ ih =>
      intro s
      have e1 := one m s j e e' h3
      refine ⟨?_, fun i => ?_⟩
      · show sshRun X (sshStep X m s j e).2 h = sshRun X (sshStep X m s j e').2 h'
        rw [e1]; exact (ih _).1
      · show (if j = i then (sshStep X m s j e).1 else []) ++ sshSent X i (sshStep X m s j e).2 h =
          (if j = i then (sshStep X m s j e').1 else []) ++ sshSent X i (sshStep X m s j e').2 h'
        rw [e1, (ih _).2 i]
  · rw [sshStep_self, hf]
    rfl

/-- **C87** (partial). A client that has given no credentials at all is sent nothing and changes nothing, whatever it and the others send. -/
theorem C87_no_credentials_partial (X : Ext) (i : Nat) : ∀ (h : SshHist) (s : SshState), s.link i = .fresh ∨ s.link i = .closed →
    (∀ p ∈ h, p.2.1 = i → ∀ user secret, p.2.2 ≠ .auth user secret) →
    sshSent X i s h = [] ∧ (sshRun X s h).db = (sshRun X s (h.filter (fun p => decide (p.2.1 ≠ i)))).db := by
  -- only the connection itself may differ
  have cong : ∀ (h : SshHist) (s t : SshState), s.db = t.db → (∀ j, j ≠ i → s.link j = t.link j) → (∀ p ∈ h, p.2.1 ≠ i) → (sshRun X s h).db = (sshRun X t h).db := by
    intro h
    induction h with
    | nil => intro s t e _ _; exact e
    | cons p h ih =>
      intro s t e1 e2 hp
      have hi := e2 _ (hp p (.head _))
      refine ih (sshStep X p.1 s p.2.1 p.2.2).2 (sshStep X p.1 t p.2.1 p.2.2).2 (by rw [sshStep_db, sshStep_db, e1, hi]) (fun j hj => ?_) (fun q hq => hp q (.tail _ hq))
      by_cases hjp : j = p.2.1
      · rw [hjp, sshStep_self, sshStep_self, e1, hi]
      · rw [sshStep_other hjp, sshStep_other hjp, e2 j hj]
  intro h
  induction h with
  | nil => intro s _ _; exact ⟨rfl, rfl⟩
  | cons p h ih =>
    intro s hl hp
    obtain ⟨m, j, e⟩ := p
    have ih := ih (sshStep X m s j e).2
    by_cases hi : j = i
    · subst hi
      have step : sshLinkStep X m s.db (s.link j) e = ([], .closed, s.db) := by
        rcases hl with hl | hl <;> rw [hl]
        · cases e with
          | auth user secret => exact absurd rfl (hp _ (.head _) rfl user secret)
          | exec _ _ => rfl
          | data _ _ => rfl
        · rfl
      obtain ⟨a, b⟩ := ih (.inr (by rw [sshStep_self, step])) (fun q hq => hp q (.tail _ hq))
      refine ⟨?_, ?_⟩
      · rw [sshSent_cons, if_pos rfl, sshStep_out, step, List.nil_append]
        exact a
      · rw [List.filter_cons_of_neg (by simp)]
        refine b.trans (cong _ _ _ (by rw [sshStep_db, step]) (fun k hk => sshStep_other hk) (fun q hq => ?_))
        simpa using (List.mem_filter.1 hq).2
    · obtain ⟨a, b⟩ := ih (by rw [sshStep_other (fun e => hi e.symm)]; exact hl) (fun q hq => hp q (.tail _ hq))
      refine ⟨?_, ?_⟩
      · rw [sshSent_cons, if_neg hi, List.nil_append]
        exact a
      · rw [List.filter_cons_of_pos (by simpa using hi)]
        exact b

end Gust

import Verif.Props.SshExamples
import Verif.Props.NestingExamples

/-! # C85, C86: later messages of an SSH session -/

namespace Gust

/-- A fetch request with the capabilities `words` on its first line. -/
def Spec.fetchMsg (id words : Bytes) (ls : List Spec.ReqLine) (t rest : Bytes) : Bytes := doneBody (.want id (0x20 :: words) :: ls) t rest

/-- Texts, each after a space. -/
def Spec.spaced : List Bytes → Bytes
  | [] => []
  | w :: ws => 0x20 :: (w ++ Spec.spaced ws)

/-- `Spec.Fetches i h ws`: in the history `h`, connection `i` does nothing but log in and send fetch requests, with the capabilities `ws` in turn; the other connections
do anything. -/
inductive Spec.Fetches (i : Nat) : SshHist → List Bytes → Prop
  | nil : Fetches i [] []
  | other {m : Moment} {j : Nat} {e : SshEvent} {h : SshHist} {ws : List Bytes} (hj : j ≠ i) (hh : Fetches i h ws) : Fetches i ((m, j, e) :: h) ws
  | login {m : Moment} {user secret : Bytes} {h : SshHist} {ws : List Bytes} (hh : Fetches i h ws) : Fetches i ((m, i, .auth user secret) :: h) ws
  | fetch {m : Moment} {ch : Nat} {id w : Bytes} {ls : List Spec.ReqLine} {t rest : Bytes} {h : SshHist} {ws : List Bytes}
      (hok : ∀ l ∈ Spec.ReqLine.want id (0x20 :: w) :: ls, l.Ok) (ht : t.length ≤ 65000) (hh : Fetches i h ws) :
      Fetches i ((m, i, .data ch (Spec.fetchMsg id w ls t rest)) :: h) (w :: ws)

theorem parseCapabilities_glue (a b : Bytes) : parseCapabilities (a ++ 0x20 :: b) = parseCapabilities a ++ parseCapabilities b := by
  unfold parseCapabilities
  rw [splitOn_glue, List.filterMap_append]

theorem spaced_append (ws vs : List Bytes) : Spec.spaced (ws ++ vs) = Spec.spaced ws ++ Spec.spaced vs := by
  induction ws with
  | nil => rfl
  | cons w ws ih => simp only [List.cons_append, Spec.spaced, ih, List.append_assoc]

/-- The loop over a fetch request that starts with capabilities kept from before. -/
theorem fetchMsg_loop {id w : Bytes} {ls : List Spec.ReqLine} {t rest : Bytes} (hok : ∀ l ∈ Spec.ReqLine.want id (0x20 :: w) :: ls, l.Ok) (ht : t.length ≤ 65000)
    (caps : List Capability) :
    fetchLoop ((Spec.fetchMsg id w ls t rest).length + 1) { want := [], have_ := [], caps := caps, firstLine := true } (Spec.fetchMsg id w ls t rest) =
      .ok (ls.foldl reqStep { want := [id], have_ := [], caps := caps ++ parseCapabilities w, firstLine := false }, rest) := by
  have hlen := doneBody_length (.want id (0x20 :: w) :: ls) t rest
  obtain ⟨k, hk⟩ : ∃ k, (Spec.fetchMsg id w ls t rest).length + 1 = (Spec.ReqLine.want id (0x20 :: w) :: ls).length + (k + 1) :=
    ⟨(Spec.fetchMsg id w ls t rest).length - (Spec.ReqLine.want id (0x20 :: w) :: ls).length, by unfold Spec.fetchMsg; omega⟩
  rw [hk, Spec.fetchMsg, fetchLoop_done _ hok t rest ht]
  rfl

/-- The capabilities do not change after the first line. -/
theorem reqStep_caps (ls : List Spec.ReqLine) : ∀ s : FetchState, s.firstLine = false → (ls.foldl reqStep s).caps = s.caps := by
  induction ls with
  | nil => intro s _; rfl
  | cons l ls ih =>
    intro s hs
    have h : (reqStep s l).caps = s.caps ∧ (reqStep s l).firstLine = false := by
      cases l <;> simp [reqStep, capsAfter, hs]
    rw [List.foldl_cons, ih _ h.2, h.1]

/-- A request with capabilities kept from before is answered as a new one that has them on its first line. -/
theorem sshUploadPack_kept (St : FetchStore) (ord : List Bytes → List Bytes) (cut : Bytes → List Bytes) {id w v : Bytes} {ls : List Spec.ReqLine} {t rest : Bytes}
    (hok : ∀ l ∈ Spec.ReqLine.want id (0x20 :: w) :: ls, l.Ok) (hok' : ∀ l ∈ Spec.ReqLine.want id (0x20 :: v) :: ls, l.Ok) (ht : t.length ≤ 65000)
    (caps : List Capability) (hv : parseCapabilities v = caps ++ parseCapabilities w) :
    sshUploadPack St ord cut caps (Spec.fetchMsg id w ls t rest) = sshUploadPack St ord cut [] (Spec.fetchMsg id v ls t rest) := by
  unfold sshUploadPack
  rw [fetchMsg_loop hok ht, fetchMsg_loop hok' ht, List.nil_append, hv]

/-- The capabilities that are kept. -/
theorem sshUploadPack_caps {St : FetchStore} {ord : List Bytes → List Bytes} {cut : Bytes → List Bytes} {id w : Bytes} {ls : List Spec.ReqLine} {t rest : Bytes}
    (hok : ∀ l ∈ Spec.ReqLine.want id (0x20 :: w) :: ls, l.Ok) (ht : t.length ≤ 65000) {caps : List Capability} {out : Bytes} {caps' : List Capability}
    (h : sshUploadPack St ord cut caps (Spec.fetchMsg id w ls t rest) = .ok (out, caps')) : caps' = caps ++ parseCapabilities w := by
  unfold sshUploadPack at h
  rw [fetchMsg_loop hok ht, Res.bind_ok] at h
  simp only [Res.bind_eq_ok] at h
  obtain ⟨⟨pack, buf⟩, _, h⟩ := h
  dsimp only at h
  split at h
  · simp only [Res.pure_eq, Res.ok.injEq, Prod.mk.injEq] at h
    rw [← h.2, reqStep_caps _ _ rfl]
  · cases h

/-- A stuck or closed connection stays so. -/
theorem sshRun_dead (X : Ext) (i : Nat) (l : SshLink) (hl : l = .hung ∨ l = .closed) : ∀ (h : SshHist) (s : SshState), s.link i = l → (sshRun X s h).link i = l
  | [], _, e => e
  | p :: h, s, e => by
    refine sshRun_dead X i l hl h _ ?_
    by_cases hp : i = p.2.1
    · subst hp
      rw [sshStep_self, e]
      rcases hl with rfl | rfl <;> rfl
    · rw [sshStep_other hp, e]

/-- The session after fetch requests. -/
theorem fetches_session {X : Ext} {i : Nat} {u : Bytes} {cmds : List RefCommand} : ∀ {h : SshHist} {ws : List Bytes}, Spec.Fetches i h ws →
    ∀ {s : SshState} {caps : List Capability}, s.link i = .ready (some { service := .uploadPack, path := u, caps := caps, commands := cmds }) →
    ∀ {p}, (sshRun X s h).link i = .ready p →
      p = some { service := .uploadPack, path := u, caps := caps ++ ws.flatMap parseCapabilities, commands := cmds } := by
  intro h ws hf
  induction hf with
  | nil =>
    intro s caps hs p hp
    have : SshLink.ready p = .ready _ := hp.symm.trans hs
    cases this
    simp
  | @other m j e h ws hj _ ih =>
    intro s caps hs p hp
    exact ih (s := (sshStep X m s j e).2) (by rw [sshStep_other (Ne.symm hj), hs]) hp
  | @login m user secret h ws _ ih =>
    intro s caps hs p hp
    exact ih (s := (sshStep X m s i (.auth user secret)).2) (by rw [sshStep_self, hs]; rfl) hp
  | @fetch m ch id w ls t rest h ws hok ht _ ih =>
    intro s caps hs p hp
    have e : (sshStep X m s i (.data ch (Spec.fetchMsg id w ls t rest))).2.link i =
        (sshUploadPack (mysqlFetch X m.sql m.fuel s.db u) m.ord m.cut caps (Spec.fetchMsg id w ls t rest)).link
          (fun a => { service := .uploadPack, path := u, caps := a.2, commands := cmds }) := by
      rw [sshStep_self, hs]
      rfl
    have hp : (sshRun X (sshStep X m s i (.data ch (Spec.fetchMsg id w ls t rest))).2 h).link i = .ready p := hp
    cases hr : sshUploadPack (mysqlFetch X m.sql m.fuel s.db u) m.ord m.cut caps (Spec.fetchMsg id w ls t rest) with
    | ok a =>
      obtain ⟨out, caps'⟩ := a
      rw [hr] at e
      rw [sshUploadPack_caps hok ht hr] at e
      rw [ih e hp, List.flatMap_cons, List.append_assoc]
    | spin =>
      rw [hr] at e
      rw [sshRun_dead X i _ (.inl rfl) h _ e] at hp
      cases hp
    | err x =>
      rw [hr] at e
      rw [sshRun_dead X i _ (.inr rfl) h _ e] at hp
      cases hp
    | panic =>
      rw [hr] at e
      rw [sshRun_dead X i _ (.inr rfl) h _ e] at hp
      cases hp

theorem parseCapabilities_spaced (ws : List Bytes) : parseCapabilities ((Spec.spaced ws).drop 1) = ws.flatMap parseCapabilities := by
  have nil : parseCapabilities [] = [] := by decide +kernel
  induction ws with
  | nil => exact nil
  | cons w ws ih =>
    show parseCapabilities (w ++ Spec.spaced ws) = _
    rw [List.flatMap_cons, ← ih]
    cases ws with
    | nil => simp [Spec.spaced, nil]
    | cons v ws => exact parseCapabilities_glue _ _

/-- **C86** (partial). Later fetch requests of a session: after any number of fetch requests with the capabilities `ws`, with any messages of other connections in
between, a fetch request with the capabilities `w` is answered exactly as over HTTP the request that names `w` *and all of `ws`* — the capabilities of a session add up. -/
theorem C86_later_partial {P : ServerExt} {u g : Bytes} (hu : Spec.CleanUrl u) (hg : g = [] ∨ g = ascii ".git") (hsp : (0x20 : UInt8) ∉ u)
    (hb : isBoundary u 0 = true) {i : Nat} {m0 m : Moment} {s : SshState} {p0 p1 : Option SshProto} (h0 : s.link i = .ready p0) {ch0 ch : Nat}
    {h : SshHist} {ws : List Bytes} (hf : Spec.Fetches i h ws) (hord : ∀ l x, x ∈ m.ord l → x ∈ l) (locks : LockTable) (lfs : LfsState)
    {id w : Bytes} {ls : List Spec.ReqLine} {e rest : Bytes} (hok : ∀ l ∈ Spec.ReqLine.want id (Spec.spaced (ws ++ [w])) :: ls, l.Ok) (he : e.length ≤ 65000) :
    let t := sshRun P.X (sshStep P.X m0 s i (.exec ch0 (Spec.sshLine .uploadPack (0x2f :: (u ++ ascii ".git"))))).2 h
    let http := serve P m { db := t.db, locks := locks, lfs := lfs } (Spec.fetchReq (u ++ g) (Spec.fetchMsg id ((Spec.spaced (ws ++ [w])).drop 1) ls e rest))
    let ssh := sshStep P.X m t i (.data ch (Spec.fetchMsg id w ls e rest))
    t.link i = .ready p1 → Spec.SameAnswer ch http.1 ssh.1 (ssh.2.link i) ∧ ssh.2.db = t.db := by
  intro t http ssh hans
  let s1 := (sshStep P.X m0 s i (.exec ch0 (Spec.sshLine .uploadPack (0x2f :: (u ++ ascii ".git"))))).2
  have hs1 : s1.link i = .ready (some { service := .uploadPack, path := u, caps := [], commands := [] }) := by
    cases hl : s1.link i with
    | ready q =>
      have hl' := hl
      rw [show s1 = (sshStep P.X m0 s i (.exec ch0 (Spec.sshLine .uploadPack (0x2f :: (u ++ ascii ".git"))))).2 from rfl, sshStep_self, h0] at hl'
      exact congrArg _ (sshExec_ready (C56_ssh_partial .uploadPack u hsp hb) hl')
    | fresh =>
      exfalso
      rw [show s1 = (sshStep P.X m0 s i (.exec ch0 (Spec.sshLine .uploadPack (0x2f :: (u ++ ascii ".git"))))).2 from rfl, sshStep_self, h0] at hl
      simp only [sshLinkStep, sshExec, C56_ssh_partial .uploadPack u hsp hb] at hl
      generalize (advertise P.X m0.sql .ssh .uploadPack s.db u) = r at hl
      generalize (r.1 >>= fun b => if utf8Valid b then Res.ok b else .panic) = r' at hl
      cases r' <;> cases hl
    | hung =>
      rw [sshRun_dead P.X i _ (.inl rfl) h s1 hl] at hans
      cases hans
    | closed =>
      rw [sshRun_dead P.X i _ (.inr rfl) h s1 hl] at hans
      cases hans
  have ht : t.link i = .ready (some { service := .uploadPack, path := u, caps := ws.flatMap parseCapabilities, commands := [] }) := by
    rw [hans, fetches_session hf hs1 hans, List.nil_append]
  have hr : route .post (u ++ g ++ ascii "/git-upload-pack") none = .uploadPack u := route_fetch hu hg
  have h1 : http.1 = (httpUploadPack (mysqlFetch P.X m.sql m.fuel t.db u) m.ord m.cut (Spec.fetchMsg id ((Spec.spaced (ws ++ [w])).drop 1) ls e rest)).outcome .bytes := by
    simp only [http, serve, Spec.fetchReq, hr]
  obtain ⟨c0, rest0, hsp0⟩ : ∃ v, ∃ _ : Unit, Spec.spaced (ws ++ [w]) = 0x20 :: v := by
    cases ws with
    | nil => exact ⟨_, (), rfl⟩
    | cons a l => exact ⟨_, (), rfl⟩
  have hok2 : ∀ l ∈ Spec.ReqLine.want id (0x20 :: (Spec.spaced (ws ++ [w])).drop 1) :: ls, l.Ok := by
    rw [hsp0] at hok ⊢
    exact hok
  have hw : ∀ l ∈ Spec.ReqLine.want id (0x20 :: w) :: ls, l.Ok := by
    intro l hl
    rcases List.mem_cons.1 hl with rfl | hl
    · obtain ⟨q1, q2, ⟨c, v, q3, q4⟩, q5⟩ := hok _ (.head _)
      have hs : Spec.spaced (ws ++ [w]) = Spec.spaced ws ++ 0x20 :: w := by rw [spaced_append]; simp [Spec.spaced]
      refine ⟨q1, q2, ⟨0x20, w, rfl, fun x hx => ?_⟩, ?_⟩
      · rw [hs] at q3
        have : x ∈ v := by
          cases hws : Spec.spaced ws with
          | nil =>
            rw [hws] at q3
            simp only [List.nil_append, List.cons.injEq] at q3
            rw [← q3.2]
            exact hx
          | cons y ys =>
            rw [hws] at q3
            simp only [List.cons_append, List.cons.injEq] at q3
            rw [← q3.2]
            exact List.mem_append_right _ (.tail _ hx)
        exact q4 x this
      · rw [hs, List.length_append] at q5
        omega
    · exact hok _ (.tail _ hl)
  have key := sshUploadPack_kept (mysqlFetch P.X m.sql m.fuel t.db u) m.ord m.cut (rest := rest) hw hok2 he (ws.flatMap parseCapabilities) (by
    rw [parseCapabilities_spaced, List.flatMap_append]
    simp)
  let q : SshProto := { service := .uploadPack, path := u, caps := ws.flatMap parseCapabilities, commands := [] }
  have step : sshLinkStep P.X m t.db (t.link i) (.data ch (Spec.fetchMsg id w ls e rest)) = sshData P.X m t.db (some q) ch (Spec.fetchMsg id w ls e rest) := by
    rw [ht]
    rfl
  have e1 : ssh.1 = (sshData P.X m t.db (some q) ch (Spec.fetchMsg id w ls e rest)).1 := by rw [← step]; rfl
  have e2 : ssh.2.link i = (sshData P.X m t.db (some q) ch (Spec.fetchMsg id w ls e rest)).2.1 := by rw [← step]; exact sshStep_self
  have e3 : ssh.2.db = (sshData P.X m t.db (some q) ch (Spec.fetchMsg id w ls e rest)).2.2 := by rw [← step]; rfl
  rw [h1, e1, e2, e3, ← sshUploadPack_http _ _ hord, ← key]
  simp only [q, sshData]
  refine ⟨?_, trivial⟩
  generalize sshUploadPack (mysqlFetch P.X m.sql m.fuel t.db u) m.ord m.cut (ws.flatMap parseCapabilities) (Spec.fetchMsg id w ls e rest) = r
  cases r with
  | ok a => exact ⟨rfl, _, rfl⟩
  | err _ => exact ⟨rfl, rfl⟩
  | panic => exact ⟨rfl, rfl⟩
  | spin => exact ⟨rfl, rfl⟩

/-- **C85** (partial). Logging in again, with any credentials, on a connection that is in use changes nothing: neither the session nor the repositories nor anybody
else's connection; and nothing is sent. -/
theorem C85_login_partial (X : Ext) (m : Moment) (s : SshState) (i : Nat) (user secret : Bytes) (hr : s.link i ≠ .fresh) :
    (sshStep X m s i (.auth user secret)).1 = [] ∧ (sshStep X m s i (.auth user secret)).2.db = s.db ∧
      ∀ j, (sshStep X m s i (.auth user secret)).2.link j = s.link j := by
  have h : sshLinkStep X m s.db (s.link i) (.auth user secret) = ([], s.link i, s.db) := by
    cases hl : s.link i with
    | fresh => exact absurd hl hr
    | _ => rfl
  refine ⟨by rw [sshStep_out, h], by rw [sshStep_db, h], fun j => ?_⟩
  by_cases hj : j = i
  · subst hj
    rw [sshStep_self, h]
  · exact sshStep_other hj

/-- What a fetch request without `have` lines is answered, over SSH, with capabilities kept from before. -/
theorem sshUploadPack_full {St : FetchStore} {ord : List Bytes → List Bytes} (hord : ord [] = []) {cut : Bytes → List Bytes} {file : Bytes} (hfull : St.fullPack = .ok file)
    {id w : Bytes} (hok : ∀ l ∈ [Spec.ReqLine.want id (0x20 :: w)], l.Ok) {t rest : Bytes} (ht : t.length ≤ 65000) (caps : List Capability) :
    sshUploadPack St ord cut caps (Spec.fetchMsg id w [] t rest) =
      .ok (addPktLine [] (ascii "NAK\n") ++ sendPack (caps ++ parseCapabilities w) (cut file), caps ++ parseCapabilities w) := by
  unfold sshUploadPack
  rw [fetchMsg_loop hok ht, Res.bind_ok]
  simp only [List.foldl_nil, fetchAnswer, hord, if_true, hfull, Res.unwrap_ok, Res.bind_ok, Res.pure_eq]
  rw [if_pos (by decide +kernel)]

theorem nak_frame : addPktLine [] (ascii "NAK\n") = Spec.frame (.line (ascii "NAK\n")) := by decide +kernel

/-- **C86 is false** for a second request: take any repository that can be cloned, and a session for it. If the client's first request names `side-band-64k`, its second
request is answered with the pack in side-band packets although it does not name it; over HTTP the same request is answered with the pack as it is. -/
theorem C86_second_false {P : ServerExt} {u g : Bytes} (hu : Spec.CleanUrl u) (hg : g = [] ∨ g = ascii ".git") {i : Nat} {m : Moment} {s : SshState} {ch : Nat}
    (hs : s.link i = .ready (some { service := .uploadPack, path := u, caps := [], commands := [] })) {file : Bytes}
    (hfull : getFullPack P.X m.sql m.fuel s.db u = .ok file) (hne : file ≠ []) (hord : m.ord [] = []) (hcut : Spec.CutOk m.cut) {id : Bytes} (hid : id.length = 40)
    (hhex : ∀ c ∈ id, Spec.IsHexDigit c) (locks : LockTable) (lfs : LfsState) :
    let t := (sshStep P.X m s i (.data ch (Spec.fetchMsg id (ascii "side-band-64k\n") [] (ascii "\n") []))).2
    ∃ a b, (serve P m { db := t.db, locks := locks, lfs := lfs } (Spec.fetchReq (u ++ g) (Spec.fetchMsg id (ascii "\n") [] (ascii "\n") []))).1 = .reply (.ok (.bytes a)) ∧
      (sshStep P.X m t i (.data ch (Spec.fetchMsg id (ascii "\n") [] (ascii "\n") []))).1 = [(ch, b)] ∧
      a = Spec.frame (.line (ascii "NAK\n")) ++ file ++ ascii "0000" ∧ Spec.readClone b = some file ∧ a.length < b.length := by
  intro t
  have ok1 : ∀ l ∈ [Spec.ReqLine.want id (0x20 :: ascii "side-band-64k\n")], l.Ok := by
    intro l hl
    rw [List.mem_singleton.1 hl]
    exact ⟨hid, hhex, ⟨_, _, rfl, by decide⟩, by decide⟩
  have ok2 : ∀ l ∈ [Spec.ReqLine.want id (0x20 :: ascii "\n")], l.Ok := by
    intro l hl
    rw [List.mem_singleton.1 hl]
    exact ⟨hid, hhex, ⟨_, _, rfl, by decide⟩, by decide⟩
  have c1 : parseCapabilities (ascii "side-band-64k\n") = [.sideBand64k] := by decide +kernel
  have c2 : parseCapabilities (ascii "\n") = [] := by decide +kernel
  have hdb : t.db = s.db := by
    show (sshStep P.X m s i _).2.db = _
    rw [sshStep_db, hs]
    rfl
  have ht : t.link i = .ready (some { service := .uploadPack, path := u, caps := [.sideBand64k], commands := [] }) := by
    show (sshStep P.X m s i _).2.link i = _
    rw [sshStep_self, hs]
    simp only [sshLinkStep, sshData]
    rw [sshUploadPack_full (St := mysqlFetch P.X m.sql m.fuel s.db u) hord hfull ok1 (by decide), c1]
    rfl
  have hroute : route .post (u ++ g ++ ascii "/git-upload-pack") none = .uploadPack u := route_fetch hu hg
  have loop := fetchMsg_loop (rest := []) ok2 (t := ascii "\n") (by decide) []
  rw [c2] at loop
  have nosb : Capability.sideBand64k ∉ ([] : List Capability) ∧ Capability.sideBand ∉ ([] : List Capability) := ⟨by simp, by simp⟩
  have http : httpUploadPack (mysqlFetch P.X m.sql m.fuel s.db u) m.ord m.cut (Spec.fetchMsg id (ascii "\n") [] (ascii "\n") []) =
      .ok (addPktLine [] (ascii "NAK\n") ++ sendPack [] (m.cut file)) := by
    unfold httpUploadPack
    rw [loop, Res.bind_ok]
    simp only [List.foldl_nil, fetchAnswer, hord, if_true, List.append_nil]
    rw [show (mysqlFetch P.X m.sql m.fuel s.db u).fullPack = .ok file from hfull]
    simp only [Res.unwrap_ok, Res.bind_ok, Res.pure_eq]
  have raw := C62_raw_partial [] nosb.2 nosb.1 (m.cut file)
  rw [(hcut file).1] at raw
  have muxed := (C17_sideband [.sideBand64k] (.inr (.head _)) file (m.cut file) (hcut file).1 (hcut file).2).1
  refine ⟨addPktLine [] (ascii "NAK\n") ++ sendPack [] (m.cut file), addPktLine [] (ascii "NAK\n") ++ sendPack [.sideBand64k] (m.cut file), ?_, ?_, ?_, ?_, ?_⟩
  · simp only [serve, Spec.fetchReq, hroute, hdb]
    rw [http]
    rfl
  · rw [sshStep_out, ht, hdb]
    simp only [sshLinkStep, sshData]
    rw [sshUploadPack_full (St := mysqlFetch P.X m.sql m.fuel s.db u) hord hfull ok2 (by decide), c2, List.append_nil]
    simp only [Res.sent]
    rw [if_neg]
    rw [nak_frame]
    simp [Spec.frame, Spec.len4]
  · rw [raw, nak_frame, List.append_assoc]
    rfl
  · obtain ⟨f1, f2⟩ := C15_pkt_format [] (ascii "NAK\n") (sendPack [.sideBand64k] (m.cut file)) (by decide)
    rw [f1, List.nil_append, Spec.readClone, f2]
    simp only [if_true, muxed]
  · rw [List.length_append, List.length_append, raw]
    have hp : m.cut file ≠ [] := by
      intro e
      have := (hcut file).1
      rw [e] at this
      exact hne this.symm
    have key : ∀ ps : List Bytes, ps.flatten.length + 5 * ps.length + 4 ≤ (sendPack [.sideBand64k] ps).length := by
      intro ps
      unfold sendPack
      rw [List.length_append]
      have e4 : flushPkt.length = 4 := by decide
      have : ps.flatten.length + 5 * ps.length ≤ (ps.flatMap (fun p => buildSideBand [.sideBand64k] p p.length)).length := by
        induction ps with
        | nil => exact Nat.le_refl _
        | cons p ps ih =>
          rw [List.flatMap_cons, List.length_append, List.flatten_cons, List.length_append, List.length_cons]
          have : p.length + 5 ≤ (buildSideBand [.sideBand64k] p p.length).length := by
            have h4 : 4 ≤ (hex4 (p.length + 5)).length := by
              by_cases h : p.length + 5 < 65536
              · exact Nat.le_of_eq (hex4_length _ h).symm
              · exact Nat.le_of_lt (hex4_length_gt _ (Nat.le_of_not_lt h))
            rw [buildSideBand, if_pos (.inr (.head _)), List.length_append, List.length_append, List.length_singleton]
            omega
          omega
      omega
    have key := key (m.cut file)
    rw [(hcut file).1] at key
    have : 0 < (m.cut file).length := List.length_pos_iff.2 hp
    simp only [List.length_append, List.length_cons, List.length_nil]
    omega

/-- C86 at work: after a push, a session that asks twice, the first time with `side-band-64k`. -/
example : ∃ (s : SshState) (m : Moment) (file a b : Bytes), let t := (sshStep polyExt m s 0 (.data 1 (Spec.fetchMsg appCmd.new (ascii "side-band-64k\n") [] (ascii "\n") []))).2
    (serve demoServer m { db := t.db, locks := noLocks, lfs := ServerState.empty.lfs } (Spec.fetchReq (ascii "/app" ++ []) (Spec.fetchMsg appCmd.new (ascii "\n") [] (ascii "\n") []))).1 =
      .reply (.ok (.bytes a)) ∧ (sshStep polyExt m t 0 (.data 1 (Spec.fetchMsg appCmd.new (ascii "\n") [] (ascii "\n") []))).1 = [(1, b)] ∧
      Spec.readClone b = some file ∧ a ≠ b := by
  obtain ⟨pack, h1, h2, h3, h4, r, hr, ed⟩ := app_pushed_server
  obtain ⟨k, hk⟩ : ∃ k, k = (runServer demoServer .empty [(demoMoment, appPush pack)]).db.nodes.length := ⟨_, rfl⟩
  obtain ⟨out, file, ms, c1, c2, c3, c4⟩ := C78_clone_stack_partial demoServer demoFold_hash (ascii "/app") [] app_clean_url (.inl rfl) [(demoMoment, appPush pack)]
    { demoMoment with fuel := k } h1 rfl h2 h3 h4 (Nat.le_of_eq hk.symm)
    (List.ne_nil_of_mem hr) (fun _ _ => .rfl) demoCut_ok cloneLines (ascii "\n") [] cloneLines_ok
  have hroute : route .post (ascii "/app" ++ [] ++ ascii "/git-upload-pack") none = .uploadPack (ascii "/app") := route_fetch app_clean_url (.inl rfl)
  simp only [serve, Spec.fetchReq, hroute] at c1
  obtain ⟨db, hdb⟩ : ∃ db, db = (runServer demoServer .empty [(demoMoment, appPush pack)]).db := ⟨_, rfl⟩
  rw [← hdb] at c1
  generalize hx : httpUploadPack _ _ _ _ = x at c1
  cases x with
  | ok y =>
    obtain ⟨file', f1, f2⟩ := httpUploadPack_clone (fun _ _ => .rfl) demoCut_ok cloneLines_ok hx
    have hne : file' ≠ [] := by
      rintro rfl
      cases c1
      rw [f2, Option.some.injEq] at c2
      subst c2
      obtain ⟨p, hp, _⟩ := c3.2 (fun _ => none) 0
      rw [decodePack, Res.bind_eq_ok] at hp
      obtain ⟨x, hx, _⟩ := hp
      have e : checkHeader [] = .panic := rfl
      rw [e] at hx
      cases hx
    obtain ⟨a, b, q1, q2, _, q4, q5⟩ := C86_second_false (P := demoServer) (g := []) app_clean_url (.inl rfl) (i := 0) (ch := 1)
      (s := { db := db, link := fun _ => .ready (some { service := .uploadPack, path := ascii "/app", caps := [], commands := [] }) })
      (m := { demoMoment with fuel := k }) rfl f1 hne rfl demoCut_ok appCmd_ok.2.2.1 appCmd_ok.2.2.2.1 noLocks ServerState.empty.lfs
    exact ⟨_, _, file', a, b, q1, q2, q4, fun e => by rw [e] at q5; omega⟩
  | err _ => cases c1
  | panic => cases c1
  | spin => cases c1

/-- C86: a session with two requests, a login in between, and somebody else opening a session. -/
example : Spec.Fetches 0 [(demoMoment, 0, .data 1 (Spec.fetchMsg appCmd.new (ascii "side-band-64k\n") [] (ascii "\n") [])), (demoMoment, 0, logIn),
    (demoMoment, 7, askFor .receivePack 3 (ascii "/b")), (demoMoment, 0, .data 1 (Spec.fetchMsg appCmd.new (ascii "no-done\n") [.flush] (ascii "\n") []))]
    [ascii "side-band-64k\n", ascii "no-done\n"] := by
  refine .fetch ?_ (by decide) (.login (.other (by decide) (.fetch ?_ (by decide) .nil)))
  · intro l hl
    rw [List.mem_singleton.1 hl]
    exact ⟨appCmd_ok.2.2.1, appCmd_ok.2.2.2.1, ⟨_, _, rfl, by decide⟩, by decide⟩
  · intro l hl
    simp only [List.mem_cons, List.not_mem_nil, or_false] at hl
    rcases hl with rfl | rfl
    · exact ⟨appCmd_ok.2.2.1, appCmd_ok.2.2.2.1, ⟨_, _, rfl, by decide⟩, by decide⟩
    · trivial

/-- C85: logging in again in the middle of a push leaves the session as it is. -/
example : (sshStep polyExt demoMoment (sshRun polyExt (.start Db.empty) twoChannels) 0 logIn).2.link 0 =
    .ready (some { service := .receivePack, path := ascii "/b", caps := [], commands := [] }) := by
  exact ((C85_login_partial polyExt demoMoment _ 0 _ _ (by rw [twoChannels_after.2]; exact fun e => nomatch e)).2.2 0).trans twoChannels_after.2

end Gust

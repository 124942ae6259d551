import Verif.Lemmas.Both
import Verif.Props.Checkout
import Verif.Props.Nesting

/-! # C115: what is pushed over HTTP or SSH is what is cloned over HTTP or SSH -/

namespace Gust

open Spec (nodeObj StoreReach commitsAt InRepo)

/-! ## Sessions -/

/-- The connection after a client has named a repository. -/
theorem ask_link {X : Ext} {m : Moment} {db : Db} {l : SshLink} {ch : Nat} {t : ServiceType} {u : Bytes} (hs : (0x20 : UInt8) ∉ u) (hb : isBoundary u 0 = true) :
    (sshLinkStep X m db l (.exec ch (Spec.sshAsk t u))).2.1 = .ready (some { service := t, path := u, caps := [], commands := [] }) ∨
    (sshLinkStep X m db l (.exec ch (Spec.sshAsk t u))).2.1 = .hung ∨ (sshLinkStep X m db l (.exec ch (Spec.sshAsk t u))).2.1 = .closed := by
  have hc : sshCommand (Spec.sshAsk t u) = .ok (u, t) := C56_ssh_partial t u hs hb
  cases l with
  | fresh => exact .inr (.inr rfl)
  | hung => exact .inr (.inl rfl)
  | closed => exact .inr (.inr rfl)
  | ready p =>
    show (sshExec X m db ch (Spec.sshAsk t u)).2.1 = _ ∨ (sshExec X m db ch (Spec.sshAsk t u)).2.1 = _ ∨ (sshExec X m db ch (Spec.sshAsk t u)).2.1 = _
    simp only [sshExec, hc]
    generalize ((advertise X m.sql Protocol.ssh t db u).1 >>= fun b => if utf8Valid b then Res.ok b else .panic) = r
    cases r with
    | ok b => exact .inl rfl
    | err e => exact .inr (.inr rfl)
    | panic => exact .inr (.inr rfl)
    | spin => exact .inr (.inl rfl)

/-- A connection that is stuck or gone stays so and is sent nothing. -/
theorem dead_link {X : Ext} {m : Moment} {db : Db} {l : SshLink} (h : l = .hung ∨ l = .closed) (e : SshEvent) : sshLinkStep X m db l e = ([], l, db) := by
  rcases h with rfl | rfl <;> rfl

/-- The connection after the command section of a push. -/
theorem section_link {X : Ext} {m : Moment} {db : Db} {u : Bytes} {ch : Nat} {c : Spec.PushCmd} (hc : c.Ok) {caps : Bytes} (hl : caps.length ≤ 4000)
    (ha : ∀ x ∈ caps, x.toNat < 128) :
    (sshLinkStep X m db (.ready (some { service := .receivePack, path := u, caps := [], commands := [] })) (.data ch (Spec.pushBody c [] caps []))).2.1 =
      .ready (some { service := .receivePack, path := u, caps := parseCapabilities caps, commands := [RefCommand.new c.old c.new (c.name ++ [0])] }) := by
  have key := receive_section (mysqlPush X m.sql m.fuel) u db hc hl ha []
  simp only [sshLinkStep, sshData, sshReceivePack, key, Res.unwrap_ok, Res.link]

theorem bothStep_link (P : ServerExt) (m : Moment) (s : Both) (i : Nat) (e : SshEvent) :
    (bothStep P m s (.ssh i e)).link i = (sshLinkStep P.X m s.web.db (s.link i) e).2.1 := sshStep_self

/-- A push that is answered, over HTTP or SSH, is a push as over HTTP. -/
theorem pushedAny_http {P : ServerExt} {u : Bytes} {c : Spec.PushCmd} (hc : c.Ok) {caps : Bytes} (hl : caps.length ≤ 4000) (hx : ∀ x ∈ caps, x.toNat < 128)
    {pack rep : Bytes} {m : Moment} {h h' : BothHist} (hp : Spec.PushedAny P u c caps pack rep m h h') :
    ∃ st', httpReceivePack (mysqlPush P.X m.sql m.fuel) { caps := [], commands := [], path := u, db := (runBoth P .empty h).web.db } (Spec.pushBody c [] caps pack) = .ok (rep, st') ∧
      (runBoth P .empty h').web.db = st'.db ∧ ∃ v, h' = h ++ [(m, v)] := by
  cases hp with
  | http _ g hu hg ha =>
    have hroute := route_push hu hg
    rw [runBoth_concat]
    simp only [bothStep, serve_db]
    simp only [serve, Spec.pushReq, hroute] at ha ⊢
    obtain ⟨⟨out, st'⟩, e1, e2⟩ := Res.outcome_ok ha
    cases e2
    exact ⟨st', e1, httpReceiveDb_ok _ _ _ _ _ e1, _, rfl⟩
  | ssh h0 h1 h2 _ m0 m1 i ch0 ch1 ch hs hb hn1 hn2 hh ha =>
    rw [runBoth_concat]
    show ∃ st', _ ∧ (sshLinkStep P.X m (runBoth P .empty h).web.db ((runBoth P .empty h).link i) (.data ch pack)).2.2 = _ ∧ _
    have ha : (sshLinkStep P.X m (runBoth P .empty h).web.db ((runBoth P .empty h).link i) (.data ch pack)).1 = [(ch, rep)] := ha
    have hlink : (runBoth P .empty h).link i =
        .ready (some { service := .receivePack, path := u, caps := parseCapabilities caps, commands := [RefCommand.new c.old c.new (c.name ++ [0])] }) := by
      have e : (runBoth P .empty h).link i = (sshLinkStep P.X m1 (runBoth P (bothStep P m0 (runBoth P .empty h0) (.ssh i (.exec ch0 (Spec.sshAsk .receivePack u)))) h1).web.db
          (sshLinkStep P.X m0 (runBoth P .empty h0).web.db ((runBoth P .empty h0).link i) (.exec ch0 (Spec.sshAsk .receivePack u))).2.1
          (.data ch1 (Spec.pushBody c [] caps []))).2.1 := by
        rw [hh, runBoth_append, runBoth_cons, runBoth_append, runBoth_cons, runBoth_elsewhere P h2 _ hn2, bothStep_link, runBoth_elsewhere P h1 _ hn1, bothStep_link]
      have dead : ∀ l, (runBoth P .empty h).link i = l → l = .hung ∨ l = .closed → False := by
        intro l e' hd
        rw [e', dead_link hd] at ha
        cases ha
      rw [e]
      rcases ask_link (X := P.X) (m := m0) (db := (runBoth P .empty h0).web.db) (l := (runBoth P .empty h0).link i) (ch := ch0) (t := .receivePack) hs hb with q | q
      · rw [q]
        exact section_link hc hl hx
      · rw [dead_link q] at e
        exact (dead _ e q).elim
    rw [hlink] at ha ⊢
    have key := receive_section (mysqlPush P.X m.sql m.fuel) u (runBoth P .empty h).web.db hc hl hx pack
    simp only [sshLinkStep, sshData, sshReceivePack] at ha ⊢
    unfold httpReceivePack
    rw [key, Res.unwrap_ok, Res.bind_ok]
    cases hr : (gitReceivePack (mysqlPush P.X m.sql m.fuel)
        { caps := parseCapabilities caps, commands := [RefCommand.new c.old c.new (c.name ++ [0])], path := u, db := (runBoth P .empty h).web.db } pack).unwrap with
    | ok a =>
      obtain ⟨out, st'⟩ := a
      rw [hr] at ha
      simp only [Res.sent] at ha
      split at ha
      · cases ha
      · cases ha
        simp only [hr]
        exact ⟨st', rfl, gitReceiveDb_ok (Res.unwrap_eq_ok.1 hr), _, rfl⟩
    | _ => rw [hr] at ha; cases ha

/-- The connection of a client that has named a repository to fetch from. -/
theorem opened_link {P : ServerExt} {u : Bytes} {i : Nat} {h : BothHist} (ho : Spec.Opened P u i h) :
    (runBoth P .empty h).link i = .ready (some { service := .uploadPack, path := u, caps := [], commands := [] }) := by
  obtain ⟨h0, h1, m0, ch0, hn, hs, hb, hh, p, hp⟩ := ho
  have e : (runBoth P .empty h).link i = (sshLinkStep P.X m0 (runBoth P .empty h0).web.db ((runBoth P .empty h0).link i) (.exec ch0 (Spec.sshAsk .uploadPack u))).2.1 := by
    rw [hh, runBoth_append, runBoth_cons, runBoth_elsewhere P h1 _ hn, bothStep_link]
  rcases ask_link (X := P.X) (m := m0) (db := (runBoth P .empty h0).web.db) (l := (runBoth P .empty h0).link i) (ch := ch0) (t := .uploadPack) hs hb with q | q | q
  · rw [e, q]
  · rw [e, q] at hp; cases hp
  · rw [e, q] at hp; cases hp

/-- What a client that has opened a session is sent. -/
theorem opened_sent {P : ServerExt} {u : Bytes} {i : Nat} {h : BothHist} (ho : Spec.Opened P u i h) {m : Moment} (hord : ∀ l x, x ∈ m.ord l → x ∈ l) (ch : Nat) (body : Bytes) :
    (sshStep P.X m (runBoth P .empty h).ssh i (.data ch body)).1 =
      (httpUploadPack (mysqlFetch P.X m.sql m.fuel (runBoth P .empty h).web.db u) m.ord m.cut body).sent ch id := by
  show (sshLinkStep P.X m (runBoth P .empty h).web.db ((runBoth P .empty h).link i) (.data ch body)).1 = _
  rw [opened_link ho, ← sshUploadPack_http _ _ hord]
  simp only [sshLinkStep, sshData]
  generalize sshUploadPack (mysqlFetch P.X m.sql m.fuel (runBoth P .empty h).web.db u) m.ord m.cut [] body = r
  cases r <;> rfl

/-- A fetch that is answered, over HTTP or SSH, is a fetch as over HTTP. -/
theorem fetchedAny_http {P : ServerExt} {u body out : Bytes} {m : Moment} (hord : ∀ l x, x ∈ m.ord l → x ∈ l) {h : BothHist} (hf : Spec.FetchedAny P u body out m h) :
    httpUploadPack (mysqlFetch P.X m.sql m.fuel (runBoth P .empty h).web.db u) m.ord m.cut body = .ok out := by
  cases hf with
  | http g hu hg ha =>
    have hroute := route_fetch hu hg
    simp only [serve, Spec.fetchReq, hroute] at ha
    obtain ⟨o', e1, e2⟩ := Res.outcome_ok ha
    cases e2
    exact e1
  | ssh i ch ho ha =>
    rw [opened_sent ho hord] at ha
    generalize httpUploadPack _ _ _ _ = r at ha ⊢
    cases r with
    | ok b =>
      simp only [Res.sent] at ha
      split at ha
      · cases ha
      · cases ha; rfl
    | _ => cases ha

/-! ## C115 -/

/-- **C115 (partial)** Both servers run on one database that was empty at the start; anybody has done anything over HTTP and SSH; a push of one ref is answered over HTTP or
over SSH; anybody does anything again, including pushes to the same repository; a clone request for the repository is answered over HTTP or over SSH. Then the client that checks out
a pushed commit has at every path the file that the pushing client had there, with its mode and content, and no other files. (Missing from the full claim: pushes of several
refs, see C24; packs and command sections that share a message or are divided over several, see C63 and `C86_one_message_false`; failing inserts of commits, see C26; other repositories above
the path, see C55; requests that overlap in time, see C109.) -/
theorem C115_checkout_partial (P : ServerExt) (hfold : ∀ a b : Hash, P.D.fold (Hash.toPlainStr a) = P.D.fold (Hash.toPlainStr b) → a = b) (u : Bytes)
    (c : Spec.PushCmd) (hc : c.Ok) (caps : Bytes) (hcaps : caps.length ≤ 4000) (hascii : ∀ x ∈ caps, x.toNat < 128)
    (pack : Bytes) (hpack : (ascii "PACK").isPrefixOf pack = true) (rep : Bytes) (m1 m2 : Moment) (h h' h2 : BothHist)
    (hpush : Spec.PushedAny P u c caps pack rep m1 h h') (hac : ∀ n rows, m1.sql.acceptCommits n rows = true)
    (hfl : Spec.SameFoldAny P.D.fold (h' ++ h2)) (hm2 : m2.sql.fold = P.D.fold) (hab : Spec.NoneAboveAny P.D.fold u (h' ++ h2))
    (hun : UniqueIds P.X (runBoth P .empty (h' ++ h2)).web.db) (hfit : FitsPack P.X (runBoth P .empty (h' ++ h2)).web.db)
    (hord : ∀ l x, x ∈ m2.ord l ↔ x ∈ l) (hcut : Spec.CutOk m2.cut) (ls : List Spec.ReqLine) (t rest : Bytes) (hr : Spec.CloneReq ls t)
    (out : Bytes) (hclone : Spec.FetchedAny P u (doneBody ls t rest) out m2 (h' ++ h2)) :
    ∃ p file, decodePack P.X (getHashObject P.X m1.sql (runBoth P .empty h).web.db) m1.fuel pack = .ok p ∧ Spec.readClone out = some file ∧
      ∀ St fuel, ∃ q, decodePack P.X St (fuel + 1) file = .ok q ∧ ∀ o, p.result.hashObject o.id = some o → o.t = .commit →
        ∀ path mode data, Spec.CheckedOut p.result.hashObject o.id path mode data ↔ Spec.CheckedOut q.result.hashObject o.id path mode data := by
  obtain ⟨st', e1, e2, v, e3⟩ := pushedAny_http hc hcaps hascii hpush
  have hsub : ∀ x ∈ h, x ∈ h' ++ h2 := fun x hx => by rw [e3]; simp [hx]
  have hrun := (runBoth_inv P u h (fun p hp => hfl p (hsub p hp)) (fun p hp q hq => hab p (hsub p hp) q (hsub q hq))).2.2
  have hend := (runBoth_inv P u _ hfl hab).2.2
  have ext := runBoth_extends P h2 (runBoth P .empty h')
  rw [← runBoth_append, e2] at ext
  obtain ⟨p, d1, d2, d3⟩ := pushed_inRepo hc hcaps hascii hpack hrun (hfl (m1, v) (by rw [e3]; simp)) hac e1 ext hun
  obtain ⟨file, hfull, hread⟩ := httpUploadPack_clone hord hcut hr (fetchedAny_http (fun l x => (hord l x).1) hclone)
  obtain ⟨ms, k1, k2⟩ := clone_has hend hun hfold hfit hm2 hfull
  refine ⟨p, file, d1, hread, fun St fuel => ?_⟩
  obtain ⟨q, q1, _, q2⟩ := k1.2 St fuel
  refine ⟨q, q1, fun o ho ht path mode data => ?_⟩
  exact CheckedOut.same (fun x hx hf => (q2 _ _).2 ⟨(k2 x).2 (d2 x hf hx), rfl⟩) d3 ho ht path mode data

/-- **C115 (partial)** If the pushed pack has a commit, every later clone request is answered, over HTTP and on every SSH session that is open for the repository, provided that the stack has
room for as many calls as there are rows. -/
theorem C115_answered_partial (P : ServerExt) (hfold : ∀ a b : Hash, P.D.fold (Hash.toPlainStr a) = P.D.fold (Hash.toPlainStr b) → a = b) (u : Bytes)
    (c : Spec.PushCmd) (hc : c.Ok) (caps : Bytes) (hcaps : caps.length ≤ 4000) (hascii : ∀ x ∈ caps, x.toNat < 128)
    (pack : Bytes) (hpack : (ascii "PACK").isPrefixOf pack = true) (rep : Bytes) (m1 m2 : Moment) (h h' h2 : BothHist)
    (hpush : Spec.PushedAny P u c caps pack rep m1 h h') (hac : ∀ n rows, m1.sql.acceptCommits n rows = true)
    (p : Pack) (hdec : decodePack P.X (getHashObject P.X m1.sql (runBoth P .empty h).web.db) m1.fuel pack = .ok p)
    (hcommit : ∃ o, p.result.hashObject o.id = some o ∧ o.t = .commit)
    (hfl : Spec.SameFoldAny P.D.fold (h' ++ h2)) (hm2 : m2.sql.fold = P.D.fold) (hab : Spec.NoneAboveAny P.D.fold u (h' ++ h2))
    (hun : UniqueIds P.X (runBoth P .empty (h' ++ h2)).web.db) (hfit : FitsPack P.X (runBoth P .empty (h' ++ h2)).web.db)
    (hfuel : (runBoth P .empty (h' ++ h2)).web.db.nodes.length ≤ m2.fuel)
    (hord : ∀ l x, x ∈ m2.ord l ↔ x ∈ l) (hcut : Spec.CutOk m2.cut) (ls : List Spec.ReqLine) (t rest : Bytes) (hr : Spec.CloneReq ls t) :
    ∃ out, (∀ g, Spec.CleanUrl u → (g = [] ∨ g = ascii ".git") →
        (serve P m2 (runBoth P .empty (h' ++ h2)).web (Spec.fetchReq (u ++ g) (doneBody ls t rest))).1 = .reply (.ok (.bytes out))) ∧
      ∀ i ch, Spec.Opened P u i (h' ++ h2) → (sshStep P.X m2 (runBoth P .empty (h' ++ h2)).ssh i (.data ch (doneBody ls t rest))).1 = [(ch, out)] := by
  obtain ⟨st', e1, e2, v, e3⟩ := pushedAny_http hc hcaps hascii hpush
  have hsub : ∀ x ∈ h, x ∈ h' ++ h2 := fun x hx => by rw [e3]; simp [hx]
  have hrun := (runBoth_inv P u h (fun p hp => hfl p (hsub p hp)) (fun p hp q hq => hab p (hsub p hp) q (hsub q hq))).2.2
  have hend := (runBoth_inv P u _ hfl hab).2.2
  have ext := runBoth_extends P h2 (runBoth P .empty h')
  rw [← runBoth_append, e2] at ext
  obtain ⟨p', d1, d2, _⟩ := pushed_inRepo hc hcaps hascii hpack hrun (hfl (m1, v) (by rw [e3]; simp)) hac e1 ext hun
  rw [hdec] at d1
  cases d1
  have hne : commitsAt P.D.fold (runBoth P .empty (h' ++ h2)).web.db.commits u ≠ [] := by
    obtain ⟨o, o1, o2⟩ := hcommit
    obtain ⟨x, hx, _⟩ := d2 o o1 (.inl o2)
    intro e
    cases hx with
    | commit r hr => rw [e] at hr; cases hr
    | node r _ _ _ hr => rw [e] at hr; cases hr
  have inv := storeRun_inv hend hun
  have hdeep : ∀ r ∈ commitsAt P.D.fold (runBoth P .empty (h' ++ h2)).web.db.commits u, ∀ c, Commit.decode r.data = .ok c →
      Spec.NestedWithin (runBoth P .empty (h' ++ h2)).web.db.nodes m2.fuel c.treeId := fun _ hr' _ hc => inv.nested hr' hc hfuel
  rw [← hm2] at hend hfold hdeep hne
  obtain ⟨file, ms, c1, _⟩ := C49_clone_partial P.X m2.sql u _ hend hun hfold hfit m2.fuel hdeep hne
  obtain ⟨out, ho⟩ := httpUploadPack_ok (St := mysqlFetch P.X m2.sql m2.fuel (runBoth P .empty (h' ++ h2)).web.db u) (cut := m2.cut) (rest := rest) hord hr c1
  obtain ⟨file', f1, f2⟩ := httpUploadPack_clone hord hcut hr ho
  refine ⟨out, fun g hu hg => ?_, fun i ch hop => ?_⟩
  · simp only [serve, Spec.fetchReq, route_fetch hu hg, ho, Res.outcome]
  · rw [opened_sent hop (fun l x => (hord l x).1), ho]
    refine if_neg ?_
    intro e
    have e : out = [] := e
    rw [e] at f2
    cases f2

end Gust

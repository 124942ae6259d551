import Verif.Props.Schema
import Verif.Props.Branching

/-! # C111, C119, C126 on both servers

`C111_accepted_partial`, `C119_accepted_partial`, `C126_started_partial` and `C126_moved_partial` are about pushes over HTTP. Here: the same pushes over HTTP or SSH, after anything
anybody has done over HTTP and SSH. -/

namespace Gust

/-! ## Spec -/

/-- After the history `h`, at the moment `m`, a client sends the push of `pack` with the command `c` to the repository `u`; then the history is `h'`. As `Spec.PushedAny`, without
the assumption that there is an answer: over SSH the connection is alive when the pack is sent. -/
inductive Spec.SentAny (P : ServerExt) (u : Bytes) (c : Spec.PushCmd) (caps pack : Bytes) (m : Moment) : BothHist → BothHist → Prop
  | http (h : BothHist) (g : Bytes) (hu : Spec.CleanUrl u) (hg : g = [] ∨ g = ascii ".git") :
      SentAny P u c caps pack m h (h ++ [(m, .http (Spec.pushReq (u ++ g) (Spec.pushBody c [] caps pack)))])
  | ssh (h0 h1 h2 h : BothHist) (m0 m1 : Moment) (i ch0 ch1 ch : Nat) (hs : (0x20 : UInt8) ∉ u) (hb : isBoundary u 0 = true)
      (hn1 : Spec.NotOn i h1) (hn2 : Spec.NotOn i h2)
      (hh : h = h0 ++ (m0, .ssh i (.exec ch0 (Spec.sshAsk .receivePack u))) :: (h1 ++ (m1, .ssh i (.data ch1 (Spec.pushBody c [] caps []))) :: h2))
      (p : Option SshProto) (hl : (runBoth P .empty h).link i = .ready p) :
      SentAny P u c caps pack m h (h ++ [(m, .ssh i (.data ch pack))])

/-- A push that gets no answer: over HTTP the connection is dropped or the request never ends, over SSH nothing is sent and the connection is closed or silent from then on. -/
inductive Spec.LostAny (P : ServerExt) (u : Bytes) (c : Spec.PushCmd) (caps pack : Bytes) (m : Moment) : BothHist → BothHist → Prop
  | http (h : BothHist) (g : Bytes) (ha : (serve P m (runBoth P .empty h).web (Spec.pushReq (u ++ g) (Spec.pushBody c [] caps pack))).1 = .reply .panic ∨
      (serve P m (runBoth P .empty h).web (Spec.pushReq (u ++ g) (Spec.pushBody c [] caps pack))).1 = .hang) :
      LostAny P u c caps pack m h (h ++ [(m, .http (Spec.pushReq (u ++ g) (Spec.pushBody c [] caps pack)))])
  | ssh (h : BothHist) (i ch : Nat) (ha : (sshStep P.X m (runBoth P .empty h).ssh i (.data ch pack)).1 = [])
      (hl : (sshStep P.X m (runBoth P .empty h).ssh i (.data ch pack)).2.link i = .closed ∨ (sshStep P.X m (runBoth P .empty h).ssh i (.data ch pack)).2.link i = .hung) :
      LostAny P u c caps pack m h (h ++ [(m, .ssh i (.data ch pack))])

/-! ## What is sent is handled as over HTTP -/

/-- The connection of a client that has named a repository and sent the command section of a push. -/
theorem section_sent {P : ServerExt} {u : Bytes} {c : Spec.PushCmd} (hc : c.Ok) {caps : Bytes} (hl : caps.length ≤ 4000) (hx : ∀ x ∈ caps, x.toNat < 128)
    {h0 h1 h2 h : BothHist} {m0 m1 : Moment} {i ch0 ch1 : Nat} (hs : (0x20 : UInt8) ∉ u) (hb : isBoundary u 0 = true) (hn1 : Spec.NotOn i h1) (hn2 : Spec.NotOn i h2)
    (hh : h = h0 ++ (m0, .ssh i (.exec ch0 (Spec.sshAsk .receivePack u))) :: (h1 ++ (m1, .ssh i (.data ch1 (Spec.pushBody c [] caps []))) :: h2))
    {p : Option SshProto} (hp : (runBoth P .empty h).link i = .ready p) :
    (runBoth P .empty h).link i =
      .ready (some { service := .receivePack, path := u, caps := parseCapabilities caps, commands := [RefCommand.new c.old c.new (c.name ++ [0])] }) := by
  have e : (runBoth P .empty h).link i = (sshLinkStep P.X m1 (runBoth P (bothStep P m0 (runBoth P .empty h0) (.ssh i (.exec ch0 (Spec.sshAsk .receivePack u)))) h1).web.db
      (sshLinkStep P.X m0 (runBoth P .empty h0).web.db ((runBoth P .empty h0).link i) (.exec ch0 (Spec.sshAsk .receivePack u))).2.1
      (.data ch1 (Spec.pushBody c [] caps []))).2.1 := by
    rw [hh, runBoth_append, runBoth_cons, runBoth_append, runBoth_cons, runBoth_elsewhere P h2 _ hn2, bothStep_link, runBoth_elsewhere P h1 _ hn1, bothStep_link]
  rcases ask_link (X := P.X) (m := m0) (db := (runBoth P .empty h0).web.db) (l := (runBoth P .empty h0).link i) (ch := ch0) (t := .receivePack) hs hb with q | q
  · rw [e, q]
    exact section_link hc hl hx
  · rw [dead_link q, hp] at e
    rcases q with q | q <;> rw [q] at e <;> cases e

/-- A push that would be answered over HTTP is answered. -/
theorem sent_pushed {P : ServerExt} {u : Bytes} {c : Spec.PushCmd} (hc : c.Ok) {caps : Bytes} (hl : caps.length ≤ 4000) (hx : ∀ x ∈ caps, x.toNat < 128)
    {pack rep : Bytes} {m : Moment} {h h' : BothHist} (hsent : Spec.SentAny P u c caps pack m h h') {st' : PushState Db}
    (hok : httpReceivePack (mysqlPush P.X m.sql m.fuel) { caps := [], commands := [], path := u, db := (runBoth P .empty h).web.db } (Spec.pushBody c [] caps pack) = .ok (rep, st'))
    (hne : rep ≠ []) : Spec.PushedAny P u c caps pack rep m h h' := by
  cases hsent with
  | http _ g hu hg =>
    refine .http h g hu hg ?_
    have hroute := route_push hu hg
    simp only [serve, Spec.pushReq, hroute, hok]
    rfl
  | ssh h0 h1 h2 _ m0 m1 i ch0 ch1 ch hs hb hn1 hn2 hh p hlink =>
    refine .ssh h0 h1 h2 h m0 m1 i ch0 ch1 ch hs hb hn1 hn2 hh ?_
    show (sshLinkStep P.X m (runBoth P .empty h).web.db ((runBoth P .empty h).link i) (.data ch pack)).1 = [(ch, rep)]
    rw [section_sent hc hl hx hs hb hn1 hn2 hh hlink]
    have key := receive_section (mysqlPush P.X m.sql m.fuel) u (runBoth P .empty h).web.db hc hl hx pack
    unfold httpReceivePack at hok
    rw [key, Res.unwrap_ok, Res.bind_ok] at hok
    simp only [sshLinkStep, sshData, sshReceivePack, hok, Res.sent, if_neg hne]

/-- A push that would not be answered over HTTP is not answered. -/
theorem sent_lost {P : ServerExt} {u : Bytes} {c : Spec.PushCmd} (hc : c.Ok) {caps : Bytes} (hl : caps.length ≤ 4000) (hx : ∀ x ∈ caps, x.toNat < 128)
    {pack : Bytes} {m : Moment} {h h' : BothHist} (hsent : Spec.SentAny P u c caps pack m h h')
    (hbad : httpReceivePack (mysqlPush P.X m.sql m.fuel) { caps := [], commands := [], path := u, db := (runBoth P .empty h).web.db } (Spec.pushBody c [] caps pack) = .panic ∨
      httpReceivePack (mysqlPush P.X m.sql m.fuel) { caps := [], commands := [], path := u, db := (runBoth P .empty h).web.db } (Spec.pushBody c [] caps pack) = .spin) :
    Spec.LostAny P u c caps pack m h h' := by
  cases hsent with
  | http _ g hu hg =>
    refine .http h g ?_
    have hroute := route_push hu hg
    simp only [serve, Spec.pushReq, hroute]
    rcases hbad with hbad | hbad <;> rw [hbad]
    · exact .inl rfl
    · exact .inr rfl
  | ssh h0 h1 h2 _ m0 m1 i ch0 ch1 ch hs hb hn1 hn2 hh p hlink =>
    have e1 : (sshStep P.X m (runBoth P .empty h).ssh i (.data ch pack)).1 =
      (sshLinkStep P.X m (runBoth P .empty h).web.db ((runBoth P .empty h).link i) (.data ch pack)).1 := rfl
    have e2 : (sshStep P.X m (runBoth P .empty h).ssh i (.data ch pack)).2.link i =
      (sshLinkStep P.X m (runBoth P .empty h).web.db ((runBoth P .empty h).link i) (.data ch pack)).2.1 := sshStep_self
    have key := receive_section (mysqlPush P.X m.sql m.fuel) u (runBoth P .empty h).web.db hc hl hx pack
    unfold httpReceivePack at hbad
    rw [key, Res.unwrap_ok, Res.bind_ok] at hbad
    simp only at hbad
    rw [section_sent hc hl hx hs hb hn1 hn2 hh hlink] at e1 e2
    refine .ssh h i ch ?_ ?_
    · rw [e1]
      simp only [sshLinkStep, sshData, sshReceivePack]
      rcases hbad with hbad | hbad <;> rw [hbad] <;> rfl
    · rw [e2]
      simp only [sshLinkStep, sshData, sshReceivePack]
      rcases hbad with hbad | hbad <;> rw [hbad]
      · exact .inl rfl
      · exact .inr rfl

/-- Every row has the id of its object, whatever is done on both servers. -/
theorem both_nodes (P : ServerExt) (h : BothHist) : NodesOk P.X (runBoth P .empty h).web.db := by
  have step : ∀ (h : BothHist) (s : Both), NodesOk P.X s.web.db → NodesOk P.X (runBoth P s h).web.db := by
    intro h
    induction h with
    | nil => exact fun _ hs => hs
    | cons q h ih =>
      intro s hs
      refine ih _ ?_
      rcases both_effect P q.1 s q.2 with e | ⟨a, _, he⟩
      · show NodesOk P.X (bothStep P q.1 s q.2).web.db
        rw [e]
        exact hs
      · generalize (bothStep P q.1 s q.2).web.db = db' at he ⊢
        cases he with
        | same => exact hs
        | head => exact hs.same (getHead_only _ _ _ _).1
        | push file p _ hd => exact hs.push hd _ _ _
        | pushRef file p cmd _ hd => exact (hs.push hd _ _ _).same (handleRefs_only _ _ _ _).1
  exact step h _ (nodesOk_empty _)

theorem report_ne {b : Bool} {rep : Bytes} {x : Bytes} {l : List Bytes} (h : Spec.reportLines b rep = some (x :: l)) : rep ≠ [] := by
  rintro rfl
  have : ∀ b, Spec.reportLines b [] = none ∨ Spec.reportLines b [] = some [] := by decide +kernel
  rcases this b with e | e <;> rw [e] at h <;> cases h

/-! ## C111, C119 -/

/-- **C111 (partial)** On servers that started with an empty database, after anything anybody has done over HTTP and SSH: every push of a complete project over HTTP or SSH, in a well-formed pack, to create a
ref or to update one from a value some ref of the repository has, is answered, and the report says `unpack ok` and `ok` for the ref. (Missing from the full claim: as for
`C111_accepted_partial`; over SSH packs that come in several messages, see C63.) -/
theorem C111_both_partial (P : ServerExt) (hfold : ∀ a b : Hash, P.D.fold (Hash.toPlainStr a) = P.D.fold (Hash.toPlainStr b) → a = b)
    (u : Bytes) (h h' : BothHist) (m : Moment)
    (hun : UniqueIds P.X (runBoth P .empty h).web.db) (hm : m.sql.fold = P.D.fold) (hacc : Spec.Accepts m.sql)
    (c : Spec.PushCmd) (hc : c.Ok) (caps : Bytes) (hcaps : caps.length ≤ 4000) (hascii : ∀ x ∈ caps, x.toNat < 128)
    (happ : Spec.Applies P.D.fold (runBoth P .empty h).web.db u c)
    (os : List (Nat × Spec.Obj)) (pack : Bytes) (hpack : Spec.PackOf P.X P.D.fold (runBoth P .empty h).web.db pack os) (hproj : Spec.Project P.X os)
    (hfuel : os.length < m.fuel) (hsent : Spec.SentAny P u c caps pack m h h') :
    ∃ rep, Spec.PushedAny P u c caps pack rep m h h' ∧
      Spec.reportLines (decide (.sideBand ∈ parseCapabilities caps ∨ .sideBand64k ∈ parseCapabilities caps)) rep =
        some [ascii "unpack ok\n", Spec.statusLine (c.name ++ [0]) none] := by
  obtain ⟨rep, st', r1, r2⟩ := project_answered hfold (both_nodes P h) hun hm hacc hc hcaps hascii happ hpack hproj hfuel
  exact ⟨rep, sent_pushed hc hcaps hascii hsent r1 (report_ne r2), r2⟩

/-- **C111 (partial)** Publishing works over HTTP and SSH: after anything anybody has done, push a complete project with at least one commit over either; the push is answered with `ok`. Let anybody do anything over both,
pushes to the same repository included. Then every clone request, over HTTP and on every SSH session that is open for the repository, is answered with the same bytes; they can be read, and whoever checks out one of the commits finds exactly
the files of the project. (Missing from the full claim: as above; paths above or below other repositories, see C55 and `C77_below_false`.) -/
theorem C111_both_published_partial (P : ServerExt) (hfold : ∀ a b : Hash, P.D.fold (Hash.toPlainStr a) = P.D.fold (Hash.toPlainStr b) → a = b)
    (u : Bytes) (h h' h2 : BothHist) (m1 m2 : Moment)
    (c : Spec.PushCmd) (hc : c.Ok) (caps : Bytes) (hcaps : caps.length ≤ 4000) (hascii : ∀ x ∈ caps, x.toNat < 128)
    (happ : Spec.Applies P.D.fold (runBoth P .empty h).web.db u c)
    (os : List (Nat × Spec.Obj)) (pack : Bytes) (hpack : Spec.PackOf P.X P.D.fold (runBoth P .empty h).web.db pack os) (hproj : Spec.Project P.X os)
    (hcommit : ∃ p ∈ os, p.2.1 = .commit) (hsent : Spec.SentAny P u c caps pack m1 h h')
    (hacc : Spec.Accepts m1.sql) (hfuel1 : os.length < m1.fuel)
    (hfl : Spec.SameFoldAny P.D.fold (h' ++ h2)) (hm2 : m2.sql.fold = P.D.fold) (hab : Spec.NoneAboveAny P.D.fold u (h' ++ h2))
    (hun : UniqueIds P.X (runBoth P .empty (h' ++ h2)).web.db) (hfit : FitsPack P.X (runBoth P .empty (h' ++ h2)).web.db)
    (hfuel2 : (runBoth P .empty (h' ++ h2)).web.db.nodes.length ≤ m2.fuel)
    (hord : ∀ l x, x ∈ m2.ord l ↔ x ∈ l) (hcut : Spec.CutOk m2.cut) (ls : List Spec.ReqLine) (t rest : Bytes) (hr : Spec.CloneReq ls t) :
    ∃ rep out, Spec.PushedAny P u c caps pack rep m1 h h' ∧
      Spec.reportLines (decide (.sideBand ∈ parseCapabilities caps ∨ .sideBand64k ∈ parseCapabilities caps)) rep =
        some [ascii "unpack ok\n", Spec.statusLine (c.name ++ [0]) none] ∧
      (∀ g, Spec.CleanUrl u → (g = [] ∨ g = ascii ".git") →
        (serve P m2 (runBoth P .empty (h' ++ h2)).web (Spec.fetchReq (u ++ g) (doneBody ls t rest))).1 = .reply (.ok (.bytes out))) ∧
      (∀ i ch, Spec.Opened P u i (h' ++ h2) → (sshStep P.X m2 (runBoth P .empty (h' ++ h2)).ssh i (.data ch (doneBody ls t rest))).1 = [(ch, out)]) ∧
      ((∃ g, Spec.CleanUrl u ∧ (g = [] ∨ g = ascii ".git")) ∨ (∃ i, Spec.Opened P u i (h' ++ h2)) → ∃ file, Spec.readClone out = some file ∧
        ∀ St fuel, ∃ q, decodePack P.X St (fuel + 1) file = .ok q ∧ ∀ p ∈ os, p.2.1 = .commit →
          ∀ path mode data, Spec.CheckedOut (Spec.found P.X os) (idOf P.X p.2) path mode data ↔ Spec.CheckedOut q.result.hashObject (idOf P.X p.2) path mode data) := by
  obtain ⟨v, rfl⟩ : ∃ v, h' = h ++ [(m1, v)] := by
    cases hsent <;> exact ⟨_, rfl⟩
  have ext : Extends (runBoth P .empty h).web.db (runBoth P .empty (h ++ [(m1, v)] ++ h2)).web.db := by
    rw [List.append_assoc, runBoth_append]
    exact runBoth_extends P _ _
  have hm1 : m1.sql.fold = P.D.fold := hfl (m1, v) (by simp)
  obtain ⟨rep, r1, r2⟩ := C111_both_partial P hfold u h _ m1 (ext.unique hun) hm1 hacc c hc caps hcaps hascii happ os pack hpack hproj hfuel1 hsent
  obtain ⟨p, d1, d2⟩ := packOf_read hfold (both_nodes P h) (ext.unique hun) hm1 hpack (fuel := m1.fuel) (by omega)
  have hmem : ∀ o ∈ os, p.result.hashObject (metaOf P.X o.2).id = some (metaOf P.X o.2) := fun o ho => by
    rw [d2]
    exact (found_iff hpack.ids _ _).2 ⟨o, ho, rfl, rfl⟩
  obtain ⟨o, ho, et⟩ := hcommit
  obtain ⟨out, a1, a2⟩ := C115_answered_partial P hfold u c hc caps hcaps hascii pack (decodePack_magic d1) rep m1 m2 h _ h2 r1 hacc.commits p d1 ⟨_, hmem o ho, et⟩ hfl hm2 hab hun
    hfit hfuel2 hord hcut ls t rest hr
  refine ⟨rep, out, r1, r2, a1, a2, fun hhow => ?_⟩
  have hfetch : Spec.FetchedAny P u (doneBody ls t rest) out m2 (h ++ [(m1, v)] ++ h2) := by
    rcases hhow with ⟨g, hu, hg⟩ | ⟨i, hi⟩
    · exact .http g hu hg (a1 g hu hg)
    · exact .ssh i 0 hi (a2 i 0 hi)
  obtain ⟨p', file, d1', k1, k2⟩ := C115_checkout_partial P hfold u c hc caps hcaps hascii pack (decodePack_magic d1) rep m1 m2 h _ h2 r1 hacc.commits hfl hm2 hab hun hfit hord hcut
    ls t rest hr out hfetch
  rw [d1] at d1'
  cases d1'
  refine ⟨file, k1, fun St fuel => ?_⟩
  obtain ⟨q, q1, q2⟩ := k2 St fuel
  refine ⟨q, q1, fun o ho et path mode data => ?_⟩
  have := q2 _ (hmem o ho) et path mode data
  rw [d2] at this
  exact this

/-- **C111 is false** over HTTP and SSH for pushes as git clients usually make them after the first: a well-formed pack without an object that is reachable from one of its commits is not answered, whatever the servers have stored. -/
theorem C111_both_update_false (P : ServerExt) (hfold : ∀ a b : Hash, P.D.fold (Hash.toPlainStr a) = P.D.fold (Hash.toPlainStr b) → a = b)
    (u : Bytes) (h h' : BothHist) (m : Moment) (hun : UniqueIds P.X (runBoth P .empty h).web.db) (hm : m.sql.fold = P.D.fold)
    (c : Spec.PushCmd) (hc : c.Ok) (caps : Bytes) (hcaps : caps.length ≤ 4000) (hascii : ∀ x ∈ caps, x.toNat < 128)
    (os : List (Nat × Spec.Obj)) (pack : Bytes) (hpack : Spec.PackOf P.X P.D.fold (runBoth P .empty h).web.db pack os) (h0 : 0 < m.fuel)
    (x : Hash) (hx : Spec.PackReach (Spec.found P.X os) x) (hmiss : Spec.found P.X os x = none) (hsent : Spec.SentAny P u c caps pack m h h') :
    Spec.LostAny P u c caps pack m h h' := by
  obtain ⟨p, d1, d2⟩ := packOf_read hfold (both_nodes P h) hun hm hpack h0
  obtain ⟨hist, e, _⟩ := decodePack_hist d1
  have hs := C48_missing_object_fails (p := p) (by rw [e]; exact PackCache.keyed_run hist) x (by rw [d2]; exact hx) (by rw [d2]; exact hmiss) m.sql m.fuel u (runBoth P .empty h).web.db
  refine sent_lost hc hcaps hascii hsent ?_
  rw [push_answer _ u _ c hc caps hcaps hascii pack (decodePack_magic d1)]
  unfold receiveData
  simp only [List.getLast?_singleton, mysqlPush, d1]
  rcases hr : savePackfile m.sql m.fuel p u (runBoth P .empty h).web.db with ⟨r, db1⟩
  rw [hr] at hs
  rcases hs with hs | hs <;> simp only at hs <;> subst hs <;> simp only
  · exact .inl rfl
  · exact .inr rfl

/-- **C119 (partial)** With the tables of the dump, after anything anybody has done over HTTP and SSH: every push of a complete project over HTTP or SSH, in a well-formed pack, to create a ref or to update one from
a value some ref of the repository has, is answered with `ok` if its files are smaller than 16 MiB, its directory listings smaller than 10 MiB, and the names of files and directories have at most 128
characters. (Missing from the full claim: see `C119_big_false` and `C119_name_false`; otherwise as for `C111_both_partial`.) -/
theorem C119_both_partial (P : ServerExt) (hfold : ∀ a b : Hash, P.D.fold (Hash.toPlainStr a) = P.D.fold (Hash.toPlainStr b) → a = b)
    (u : Bytes) (h h' : BothHist) (m : Moment)
    (hun : UniqueIds P.X (runBoth P .empty h).web.db) (hm : m.sql.fold = P.D.fold) (hE : Spec.SchemaOnly m.sql)
    (c : Spec.PushCmd) (hc : c.Ok) (caps : Bytes) (hcaps : caps.length ≤ 4000) (hascii : ∀ x ∈ caps, x.toNat < 128)
    (happ : Spec.Applies P.D.fold (runBoth P .empty h).web.db u c)
    (os : List (Nat × Spec.Obj)) (pack : Bytes) (hpack : Spec.PackOf P.X P.D.fold (runBoth P .empty h).web.db pack os) (hproj : Spec.Project P.X os)
    (hroom : Spec.Roomy (Spec.found P.X os)) (hfuel : os.length < m.fuel) (hsent : Spec.SentAny P u c caps pack m h h') :
    ∃ rep, Spec.PushedAny P u c caps pack rep m h h' ∧
      Spec.reportLines (decide (.sideBand ∈ parseCapabilities caps ∨ .sideBand64k ∈ parseCapabilities caps)) rep =
        some [ascii "unpack ok\n", Spec.statusLine (c.name ++ [0]) none] := by
  obtain ⟨rep, st', r1, r2⟩ := roomy_answered hfold (both_nodes P h) hun hm hE hc hcaps hascii happ hpack hproj hroom hfuel
  exact ⟨rep, sent_pushed hc hcaps hascii hsent r1 (report_ne r2), r2⟩

/-! ## C126 -/

/-- **C126 (partial)** After anything anybody has done over HTTP and SSH: the push over HTTP or SSH of a branch that is to start at any commit, with a pack without objects, is answered with `ok`;
the branch is added, and nothing else changes in the database, which accepts the row. (Missing from the full claim: see `C126_hidden_false` and `C126_wrong_branch_false`.) -/
theorem C126_both_started_partial (P : ServerExt) (u : Bytes) (h h' : BothHist) (m : Moment)
    (c : Spec.PushCmd) (hc : c.Ok) (hcreate : c.old = zeroId) (caps : Bytes) (hcaps : caps.length ≤ 4000) (hascii : ∀ x ∈ caps, x.toNat < 128)
    (pack : Bytes) (trailer : Hash) (hp : Spec.PackFile P.X.inflate pack [] trailer)
    (hacc : m.sql.acceptRefs (runBoth P .empty h).web.db.inserts [{ repoPath := u, refName := c.name ++ [0], refGitId := c.new }] = true)
    (hsent : Spec.SentAny P u c caps pack m h h') :
    ∃ rep, Spec.PushedAny P u c caps pack rep m h h' ∧
      (runBoth P .empty h').web.db = { (runBoth P .empty h).web.db with
        refs := (runBoth P .empty h).web.db.refs ++ [{ repoPath := u, refName := c.name ++ [0], refGitId := c.new }], inserts := (runBoth P .empty h).web.db.inserts + 1 } ∧
      Spec.reportLines (decide (.sideBand ∈ parseCapabilities caps ∨ .sideBand64k ∈ parseCapabilities caps)) rep =
        some [ascii "unpack ok\n", Spec.statusLine (c.name ++ [0]) none] := by
  obtain ⟨rep, st', r1, r2, r3⟩ := nothing_answered (X := P.X) (E := m.sql) (fuel := m.fuel) (u := u) (db := (runBoth P .empty h).web.db) hc hcaps hascii hp
    (db2 := { (runBoth P .empty h).web.db with
        refs := (runBoth P .empty h).web.db.refs ++ [{ repoPath := u, refName := c.name ++ [0], refGitId := c.new }], inserts := (runBoth P .empty h).web.db.inserts + 1 }) (by
      simp only [handleRefs, RefCommand.new, hcreate, if_true, saveRefs, chunks_one, insertRefs]
      rw [if_pos hacc])
  have hpush := sent_pushed hc hcaps hascii hsent r1 (report_ne r3)
  obtain ⟨st2, k1, k2, _⟩ := pushedAny_http hc hcaps hascii hpush
  rw [r1] at k1
  cases k1
  exact ⟨rep, hpush, by rw [k2, r2], r3⟩

/-- **C126 (partial)** The same for the push that moves a branch to any commit: the branch has the new value, and nothing else changes. No other branch of the repository has the old value, and the
database takes the statement. (Missing from the full claim: branches with the same value, see `C126_wrong_branch_false`.) -/
theorem C126_both_moved_partial (P : ServerExt) (u : Bytes) (h h' : BothHist) (m : Moment)
    (c : Spec.PushCmd) (hc : c.Ok) (hold : c.old ≠ zeroId) (hnew : c.new ≠ zeroId) (caps : Bytes) (hcaps : caps.length ≤ 4000) (hascii : ∀ x ∈ caps, x.toNat < 128)
    (pack : Bytes) (trailer : Hash) (hp : Spec.PackFile P.X.inflate pack [] trailer)
    (pre post : List RefRow) (hdb : (runBoth P .empty h).web.db.refs = pre ++ { repoPath := u, refName := c.name ++ [0], refGitId := c.old } :: post)
    (huniq : ∀ x ∈ pre ++ post, m.sql.fold x.repoPath = m.sql.fold u → m.sql.fold x.refGitId ≠ m.sql.fold c.old)
    (hacc : m.sql.acceptUpdate (runBoth P .empty h).web.db.inserts c.new = true) (hsent : Spec.SentAny P u c caps pack m h h') :
    ∃ rep, Spec.PushedAny P u c caps pack rep m h h' ∧
      (runBoth P .empty h').web.db = { (runBoth P .empty h).web.db with refs := pre ++ { repoPath := u, refName := c.name ++ [0], refGitId := c.new } :: post } ∧
      Spec.reportLines (decide (.sideBand ∈ parseCapabilities caps ∨ .sideBand64k ∈ parseCapabilities caps)) rep =
        some [ascii "unpack ok\n", Spec.statusLine (c.name ++ [0]) none] := by
  obtain ⟨rep, st', r1, r2, r3⟩ := nothing_answered (X := P.X) (E := m.sql) (fuel := m.fuel) (u := u) (db := (runBoth P .empty h).web.db) hc hcaps hascii hp
    (C53_update_partial m.sql (RefCommand.new c.old c.new (c.name ++ [0])) u (runBoth P .empty h).web.db
    (by simp only [RefCommand.new, if_neg (Ne.symm hold), if_neg (Ne.symm hnew)]) pre post _ hdb rfl rfl huniq hacc)
  have hpush := sent_pushed hc hcaps hascii hsent r1 (report_ne r3)
  obtain ⟨st2, k1, k2, _⟩ := pushedAny_http hc hcaps hascii hpush
  rw [r1] at k1
  cases k1
  exact ⟨rep, hpush, by rw [k2, r2]; rfl, r3⟩

end Gust

import Verif.Props.PublishTables

/-! # C119: a push that fits the columns is handled as if there were no limits

Theorems about pushes to a database that accepts every row (`Spec.Accepts`) say with `C119_same_partial` what pushes that fit do to a database with the tables of the dump. -/

namespace Gust

/-- The same database, accepting every row. -/
def SqlExt.unlimited (E : SqlExt) : SqlExt := { E with acceptNodes := fun _ _ => true, acceptCommits := fun _ _ => true, acceptRefs := fun _ _ => true, acceptUpdate := fun _ _ => true }

/-- The same moment, with that database. -/
def Moment.unlimited (m : Moment) : Moment := { m with sql := m.sql.unlimited }

theorem unlimited_accepts (E : SqlExt) : Spec.Accepts E.unlimited := ⟨fun _ _ => rfl, fun _ _ => rfl, fun _ _ => rfl, fun _ _ => rfl⟩

theorem insertNodes_unlimited {E : SqlExt} : ∀ (bs : List (List NodeRow)) (db db' : Db), insertNodes E bs db = (.ok (), db') → insertNodes E.unlimited bs db = (.ok (), db')
  | [], _, _, h => h
  | b :: bs, db, db', h => by
    rw [insertNodes] at h ⊢
    split at h
    · rw [if_pos (show E.unlimited.acceptNodes db.inserts b = true from rfl)]
      exact insertNodes_unlimited bs _ _ h
    · cases (Prod.mk.inj h).1

theorem insertCommits_unlimited {E : SqlExt} : ∀ (bs : List (List CommitRow)) (db : Db), (∀ b ∈ bs, ∀ n, E.acceptCommits n b = true) →
    insertCommits E.unlimited bs db = insertCommits E bs db
  | [], _, _ => rfl
  | b :: bs, db, h => by
    have hb := h b (by simp) db.inserts
    simp only [insertCommits, hb]
    exact insertCommits_unlimited bs _ (fun b' hb' => h b' (by simp [hb']))

theorem savePackfile_unlimited {E : SqlExt} (hE : Spec.SchemaOnly E) {X : Ext} {St : ObjectSource} {file : Bytes} {fuel0 : Nat} {p : Pack} (hdec : decodePack X St fuel0 file = .ok p)
    {u : Bytes} (hpath : chars u ≤ 128) (hsmall : ∀ o, p.result.hashObject o.id = some o → o.t = .commit → o.data.length ≤ 65535) {fuel : Nat} {db db' : Db}
    (hs : savePackfile E fuel p u db = (.ok (), db')) : savePackfile E.unlimited fuel p u db = (.ok (), db') := by
  obtain ⟨D, rows, db0, p1, p2, p3, rfl⟩ := savePackfile_ok hs
  have hH : D.Holds p.result := C36_each_object_once hdec (by have := E.pool_outcome p.result; rwa [p1] at this)
  have commits : saveCommits E.unlimited D.commits u db0 = saveCommits E D.commits u db0 := by
    rw [saveCommits, saveCommits, insertCommits_unlimited]
    intro b hb n
    have hsub := chunks_sub _ _ b hb
    refine hE.commits_ok n b (chunks_nonempty (by simp) _ _ b hb) ?_
    intro r hr
    obtain ⟨co, hm, rfl⟩ := List.mem_map.1 (hsub r hr)
    obtain ⟨k1, k2⟩ := (hH.commits _).1 (List.mem_map_of_mem hm)
    have := hsmall _ k2 k1
    have a1 := hexId_chars (Hash.toPlainStr_length co.base.id)
    have a2 := hexId_chars (Hash.toPlainStr_length co.commit.treeId)
    simp only [CommitRow.fits, CommitObj.row, Bool.and_eq_true, decide_eq_true_eq]
    exact ⟨⟨⟨decide_eq_true a1, decide_eq_true a2⟩, decide_eq_true this⟩, decide_eq_true hpath⟩
  unfold savePackfile
  rw [show E.unlimited.pool p.result = .ok D from p1]
  simp only [p2, show saveNodes E.unlimited rows db = (.ok (), db0) from insertNodes_unlimited _ _ _ p3, commits]

/-- A command that fits is carried out in the same way. -/
theorem handleRefs_unlimited {E : SqlExt} (hE : Spec.SchemaOnly E) {u : Bytes} (hpath : chars u ≤ 64) {c : Spec.PushCmd} (hc : c.Ok) (hname : c.name.length ≤ 31) (db1 : Db) :
    handleRefs E.unlimited { RefCommand.new c.old c.new (c.name ++ [0]) with ok := true } u db1 =
      handleRefs E { RefCommand.new c.old c.new (c.name ++ [0]) with ok := true } u db1 := by
  have hacc : ∀ n, E.acceptRefs n [{ repoPath := u, refName := c.name ++ [0], refGitId := c.new }] = true := by
    intro n
    refine hE.refs_ok n _ (by simp) fun r hr => ?_
    rw [List.mem_singleton.1 hr]
    have h1 := refName_length hc
    have h2 := hexId_chars hc.2.2.1
    simp only [RefRow.fits, Bool.and_eq_true, decide_eq_true_eq]
    omega
  unfold handleRefs
  split
  · simp only [saveRefs, chunks_one, insertRefs]
    rw [show (RefCommand.new c.old c.new (c.name ++ [0])).refName = c.name ++ [0] from rfl, show (RefCommand.new c.old c.new (c.name ++ [0])).newId = c.new from rfl, hacc]
    rfl
  · rfl
  · simp only [updateRefs, show ∀ n, E.acceptUpdate n c.new = true from fun n => hE.updates_ok n _ (hexId_chars hc.2.2.1), show (RefCommand.new c.old c.new (c.name ++ [0])).newId = c.new from rfl]
    rfl

/-- What is answered and stored is answered and stored in the same way. -/
theorem receiveData_unlimited {E : SqlExt} (hE : Spec.SchemaOnly E) {X : Ext} {u : Bytes} (hpath : chars u ≤ 64) {c : Spec.PushCmd} (hc : c.Ok) (hname : c.name.length ≤ 31)
    {caps : List Capability} {fuel : Nat} {db : Db} {pack rep : Bytes} {p : Pack} (hdec : decodePack X (getHashObject X E db) fuel pack = .ok p)
    (hsmall : ∀ o, p.result.hashObject o.id = some o → o.t = .commit → o.data.length ≤ 65535) {st' : PushState Db}
    (h : receiveData (mysqlPush X E fuel) { caps := caps, commands := [RefCommand.new c.old c.new (c.name ++ [0])], path := u, db := db } pack = .ok (rep, st')) :
    receiveData (mysqlPush X E.unlimited fuel) { caps := caps, commands := [RefCommand.new c.old c.new (c.name ++ [0])], path := u, db := db } pack = .ok (rep, st') := by
  obtain ⟨p', db1, d1, d2, d3, _⟩ := receiveData_ok rfl h
  rw [show decodePack X (getHashObject X E db) fuel pack = .ok p from hdec] at d1
  cases d1
  have d2' := savePackfile_unlimited hE hdec (show chars u ≤ 128 by omega) hsmall d2
  have refs := handleRefs_unlimited hE hpath hc hname db1
  rw [← h]
  unfold receiveData
  simp only [List.getLast?_singleton, mysqlPush]
  rw [show decodePack X (getHashObject X E.unlimited db) fuel pack = .ok p from hdec, hdec]
  simp only [d2', show savePackfile E fuel p u db = (.ok (), db1) from d2, refs]

/-- A push that is handled in the same way leaves both servers in the same state. -/
theorem sent_unlimited {P : ServerExt} {u : Bytes} {c : Spec.PushCmd} (hc : c.Ok) {caps : Bytes} (hcaps : caps.length ≤ 4000) (hascii : ∀ x ∈ caps, x.toNat < 128) {pack : Bytes}
    (hpack : (ascii "PACK").isPrefixOf pack = true) {m : Moment} {h : BothHist} {v : Visit} (hsent : Spec.SentAny P u c caps pack m h (h ++ [(m, v)]))
    (e1 : receiveData (mysqlPush P.X m.sql.unlimited m.fuel) { caps := parseCapabilities caps, commands := [RefCommand.new c.old c.new (c.name ++ [0])], path := u, db := (runBoth P .empty h).web.db } pack =
      receiveData (mysqlPush P.X m.sql m.fuel) { caps := parseCapabilities caps, commands := [RefCommand.new c.old c.new (c.name ++ [0])], path := u, db := (runBoth P .empty h).web.db } pack)
    (e2 : receiveDataDb (mysqlPush P.X m.sql.unlimited m.fuel) { caps := parseCapabilities caps, commands := [RefCommand.new c.old c.new (c.name ++ [0])], path := u, db := (runBoth P .empty h).web.db } pack =
      receiveDataDb (mysqlPush P.X m.sql m.fuel) { caps := parseCapabilities caps, commands := [RefCommand.new c.old c.new (c.name ++ [0])], path := u, db := (runBoth P .empty h).web.db } pack) :
    runBoth P .empty (h ++ [(m.unlimited, v)]) = runBoth P .empty (h ++ [(m, v)]) := by
  generalize hh : h ++ [(m, v)] = h' at hsent
  rw [← hh]
  cases hsent with
  | http _ g hu hg =>
    have := List.append_cancel_left hh
    simp only [List.cons.injEq, Prod.mk.injEq, true_and, and_true] at this
    subst this
    have hroute := route_push hu hg
    rw [runBoth_concat, runBoth_concat]
    simp only [bothStep, serve, Spec.pushReq, hroute, Moment.unlimited, httpReceiveDb, receive_section _ u _ hc hcaps hascii pack, gitReceiveDb, if_pos hpack, e2]
  | ssh h0 h1 h2 _ m0 m1 i ch0 ch1 ch hs hb hn1 hn2 hh2 p hl =>
    have := List.append_cancel_left hh
    simp only [List.cons.injEq, Prod.mk.injEq, true_and, and_true] at this
    subst this
    have hlink := section_sent hc hcaps hascii hs hb hn1 hn2 hh2 hl
    have link : sshLinkStep P.X m.unlimited (runBoth P .empty h).web.db ((runBoth P .empty h).link i) (.data ch pack) =
        sshLinkStep P.X m (runBoth P .empty h).web.db ((runBoth P .empty h).link i) (.data ch pack) := by
      rw [hlink]
      simp only [sshLinkStep, sshData, sshReceivePack, Moment.unlimited, gitReceivePack, gitReceiveDb, if_pos hpack, e1, e2]
    have step : sshStep P.X m.unlimited (runBoth P .empty h).ssh i (.data ch pack) = sshStep P.X m (runBoth P .empty h).ssh i (.data ch pack) := by
      show (let (out, l, db) := sshLinkStep P.X m.unlimited (runBoth P .empty h).web.db ((runBoth P .empty h).link i) (.data ch pack); (out, ({ db := db, link := fun j => if j = i then l else (runBoth P .empty h).link j } : SshState))) = _
      rw [link]
      rfl
    rw [runBoth_concat, runBoth_concat]
    simp only [bothStep, step]

/-- **C119 (partial)** With the tables of the dump, a push over HTTP or SSH that is answered and fits (a ref name of at most 31 characters, a path of at most 64, commits of at most 65535 bytes) is handled as by a database without
limits on its rows: that gives the same answer, and leaves both servers in the same state. -/
theorem C119_same_partial (P : ServerExt) (u : Bytes) (c : Spec.PushCmd) (hc : c.Ok) (caps : Bytes) (hcaps : caps.length ≤ 4000) (hascii : ∀ x ∈ caps, x.toNat < 128) (pack rep : Bytes)
    (hpack : (ascii "PACK").isPrefixOf pack = true) (m : Moment) (hE : Spec.SchemaOnly m.sql) (h : BothHist) (v : Visit) (hpush : Spec.PushedAny P u c caps pack rep m h (h ++ [(m, v)]))
    (hname : c.name.length ≤ 31) (hpath : chars u ≤ 64) (p : Pack) (hdec : decodePack P.X (getHashObject P.X m.sql (runBoth P .empty h).web.db) m.fuel pack = .ok p)
    (hsmall : ∀ o, p.result.hashObject o.id = some o → o.t = .commit → o.data.length ≤ 65535) :
    Spec.PushedAny P u c caps pack rep m.unlimited h (h ++ [(m.unlimited, v)]) ∧
      runBoth P .empty (h ++ [(m.unlimited, v)]) = runBoth P .empty (h ++ [(m, v)]) := by
  obtain ⟨st', e1, e2, _⟩ := pushedAny_http hc hcaps hascii hpush
  rw [push_answer _ u _ c hc caps hcaps hascii pack hpack] at e1
  have k1 := Res.unwrap_eq_ok.1 e1
  have k2 := receiveData_unlimited hE hpath hc hname hdec hsmall k1
  have key : ∀ E : PushEnv Db Pack, receiveData E { caps := parseCapabilities caps, commands := [RefCommand.new c.old c.new (c.name ++ [0])], path := u, db := (runBoth P .empty h).web.db } pack =
      .ok (rep, st') → httpReceivePack E { caps := [], commands := [], path := u, db := (runBoth P .empty h).web.db } (Spec.pushBody c [] caps pack) = .ok (rep, st') := by
    intro E hE
    rw [push_answer _ u _ c hc caps hcaps hascii pack hpack, hE, Res.unwrap_ok]
  have a1 := key _ k1
  have a2 := key _ k2
  generalize hh : h ++ [(m, v)] = h' at hpush
  cases hpush with
  | http _ g hu hg ha =>
    have := List.append_cancel_left hh
    simp only [List.cons.injEq, Prod.mk.injEq, true_and, and_true] at this
    subst this
    have hroute := route_push hu hg
    refine ⟨.http h g hu hg ?_, ?_⟩
    · simp only [serve, Spec.pushReq, hroute, Moment.unlimited, a2]
      rfl
    · rw [runBoth_concat, runBoth_concat]
      simp only [bothStep, serve, Spec.pushReq, hroute, Moment.unlimited, httpReceiveDb_ok _ _ _ _ _ a1, httpReceiveDb_ok _ _ _ _ _ a2]
  | ssh h0 h1 h2 _ m0 m1 i ch0 ch1 ch hs hb hn1 hn2 hh2 ha =>
    have := List.append_cancel_left hh
    simp only [List.cons.injEq, Prod.mk.injEq, true_and, and_true] at this
    subst this
    have step : sshStep P.X m.unlimited (runBoth P .empty h).ssh i (.data ch pack) = sshStep P.X m (runBoth P .empty h).ssh i (.data ch pack) := by
      have ha : (sshLinkStep P.X m (runBoth P .empty h).web.db ((runBoth P .empty h).link i) (.data ch pack)).1 = [(ch, rep)] := ha
      have hlink : (runBoth P .empty h).link i =
          .ready (some { service := .receivePack, path := u, caps := parseCapabilities caps, commands := [RefCommand.new c.old c.new (c.name ++ [0])] }) := by
        cases hl : (runBoth P .empty h).link i with
        | ready q =>
          rw [← hl]
          exact section_sent hc hcaps hascii hs hb hn1 hn2 hh2 hl
        | fresh => rw [hl] at ha; cases ha
        | hung => rw [hl] at ha; cases ha
        | closed => rw [hl] at ha; cases ha
      have g : ∀ E : PushEnv Db Pack, receiveData E { caps := parseCapabilities caps, commands := [RefCommand.new c.old c.new (c.name ++ [0])], path := u, db := (runBoth P .empty h).web.db } pack =
          .ok (rep, st') → gitReceivePack E { caps := parseCapabilities caps, commands := [RefCommand.new c.old c.new (c.name ++ [0])], path := u, db := (runBoth P .empty h).web.db } pack =
          .ok (rep, st') := by
        intro E hE
        rw [gitReceivePack, if_pos hpack, hE]
      have link : sshLinkStep P.X m.unlimited (runBoth P .empty h).web.db ((runBoth P .empty h).link i) (.data ch pack) =
          sshLinkStep P.X m (runBoth P .empty h).web.db ((runBoth P .empty h).link i) (.data ch pack) := by
        rw [hlink]
        simp only [sshLinkStep, sshData, sshReceivePack, Moment.unlimited, g _ k1, g _ k2, gitReceiveDb_ok (g _ k1), gitReceiveDb_ok (g _ k2)]
      show (let (out, l, db) := sshLinkStep P.X m.unlimited (runBoth P .empty h).web.db ((runBoth P .empty h).link i) (.data ch pack); (out, ({ db := db, link := fun j => if j = i then l else (runBoth P .empty h).link j } : SshState))) = _
      rw [link]
      rfl
    refine ⟨.ssh h0 h1 h2 h m0 m1 i ch0 ch1 ch hs hb hn1 hn2 hh2 (by rw [step]; exact ha), ?_⟩
    rw [runBoth_concat, runBoth_concat]
    simp only [bothStep, step]

/-- With the tables of the dump, connection 0 publishes the five objects to `/app` over SSH: the push is answered, a database without limits answers it the same, and the servers end in the same state. -/
example : ∃ pack rep : Bytes, Spec.PushedAny demoServer (ascii "/app") appCmd (ascii "report-status") pack rep dumpMoment bothBefore (bothBefore ++ [(dumpMoment, .ssh 0 (.data 0 pack))]) ∧
    Spec.PushedAny demoServer (ascii "/app") appCmd (ascii "report-status") pack rep dumpMoment.unlimited bothBefore (bothBefore ++ [(dumpMoment.unlimited, .ssh 0 (.data 0 pack))]) ∧
    runBoth demoServer .empty (bothBefore ++ [(dumpMoment.unlimited, .ssh 0 (.data 0 pack))]) = runBoth demoServer .empty (bothBefore ++ [(dumpMoment, .ssh 0 (.data 0 pack))]) := by
  obtain ⟨pack, hpack⟩ := app_packOf demoServer.D.fold (runBoth demoServer .empty bothBefore).web.db
  have hlen : appEntries.length = 5 := objectsAt_length polyExt 12 appObjects
  obtain ⟨rep, hpush, _⟩ := C119_both_partial demoServer demoFold_hash (ascii "/app") bothBefore _ dumpMoment bothBefore_unique rfl dumpSql_schema appCmd appCmd_ok (ascii "report-status") (by decide)
    (by decide) (.inl rfl) appEntries pack hpack app_project app_roomy (by rw [hlen]; decide) (bothBefore_sent _ _)
  obtain ⟨p, d1, d2⟩ := packOf_read demoFold_hash (both_nodes demoServer bothBefore) bothBefore_unique (E := dumpSql) rfl hpack (fuel := dumpMoment.fuel) (by decide)
  have small : ∀ o ∈ appObjects, o.data.length ≤ 65535 := by decide +kernel
  refine ⟨pack, rep, hpush, C119_same_partial demoServer (ascii "/app") appCmd appCmd_ok (ascii "report-status") (by decide) (by decide) pack rep (decodePack_magic d1) dumpMoment dumpSql_schema bothBefore _
    hpush (by decide) (by decide) p d1 fun o ho _ => ?_⟩
  rw [d2] at ho
  exact small o ((app_found _ _).1 ho).1

end Gust

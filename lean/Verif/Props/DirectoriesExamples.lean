import Verif.Props.Directories
import Verif.Props.SubCloneExamples

/-! # C123 on a concrete run -/

namespace Gust

/-- On the server of the examples, in any state, a branch can be moved: the row `i` that is found gets the new id. -/
theorem demo_move {u g : Bytes} (hu : Spec.CleanUrl u) (hg : g = [] ∨ g = ascii ".git") (s : ServerState) (c : Spec.PushCmd) (hc : c.Ok) (hold : zeroId ≠ c.old) (hnew : zeroId ≠ c.new) (i : Nat)
    (hi : (demoSql.order ((List.range s.db.refs.length).filter (fun i => (s.db.refs[i]?).any (updateMatches demoSql (RefCommand.new c.old c.new (c.name ++ [0])) u)))).head? = some i) :
    ∃ pack rep s', (ascii "PACK").isPrefixOf pack = true ∧
      serve demoServer demoMoment s (Spec.pushReq (u ++ g) (Spec.pushBody c [] (ascii "report-status") pack)) = (.reply (.ok (.bytes rep)), s') ∧
      s'.db.refs = s.db.refs.modify i (fun r => { r with refGitId := c.new }) := by
  obtain ⟨file, p, h1, _, h2, h3⟩ := app_pack (getHashObject polyExt demoSql s.db) appObjects (fun _ h => h) (by decide) (by decide) (by decide +kernel) 1
  obtain ⟨hist, e, _⟩ := decodePack_hist h2
  obtain ⟨db1, h4⟩ := app_stored (by rw [e]; exact PackCache.keyed_run hist) h3 demoSql (fun _ _ => rfl) 0 u s.db
  have hrefs : db1.refs = s.db.refs := by
    have := savePackfile_refs demoSql 2 p u s.db
    rw [show savePackfile demoSql 2 p u s.db = (.ok (), db1) from h4] at this
    exact this
  have hk : handleRefs demoSql (RefCommand.new c.old c.new (c.name ++ [0])) u db1 = (.ok (), { db1 with refs := db1.refs.modify i (fun r => { r with refGitId := c.new }) }) := by
    have ht : (RefCommand.new c.old c.new (c.name ++ [0])).commandType = .update := by simp only [RefCommand.new, if_neg hold, if_neg hnew]
    unfold handleRefs
    rw [ht]
    simp only
    unfold updateRefs
    rw [hrefs, hi]
    rfl
  obtain ⟨out, st', r1, r2, _⟩ := (C70_report_partial (mysqlPush polyExt demoSql 2) u s.db db1 c hc (ascii "report-status") (by decide) (by decide) file h1
    p h2).1 _ h4 hk
  have hroute : route .post (u ++ g ++ ascii "/git-receive-pack") none = .receivePack u := route_push hu hg
  refine ⟨file, out, { s with db := st'.db }, h1, ?_, by rw [← hrefs]; exact congrArg Db.refs r2⟩
  have e1 : httpReceivePack (mysqlPush demoServer.X demoMoment.sql demoMoment.fuel) { caps := [], commands := [], path := u, db := s.db }
    (Spec.pushBody c [] (ascii "report-status") file) = .ok (out, st') := r1
  have e2 := httpReceiveDb_ok _ _ _ _ _ e1
  unfold serve
  simp only [Spec.pushReq, hroute, e1, e2]
  rfl

/-- Master of the example repository is moved. -/
def shiftCmd : Spec.PushCmd := { old := appCmd.new, new := List.replicate 40 0x62, name := ascii "refs/heads/master" }

theorem shiftCmd_ok : shiftCmd.Ok := by
  refine ⟨by decide +kernel, by decide +kernel, by decide +kernel, by decide +kernel, by decide +kernel, by decide +kernel, by decide +kernel⟩

/-- The example repository is pushed to `/app`; somebody asks for the refs of `/app/src`; master of `/app` is moved. All is answered with success. Whoever asks for the refs of `/app` is told
the new HEAD; whoever asks for those of `/app/src` the old one. -/
theorem C123_run_false : ∃ (P : ServerExt) (m : Moment) (s1 s2 s3 : ServerState) (c1 c2 : Spec.PushCmd) (pack1 rep1 out pack2 rep2 out1 out2 head : Bytes) (refs refs1 refs2 : List (Bytes × Bytes)),
    serve P m .empty (Spec.pushReq (ascii "/app.git") (Spec.pushBody c1 [] (ascii "report-status") pack1)) = (.reply (.ok (.bytes rep1)), s1) ∧
    serve P m s1 (Spec.refsReq (ascii "/app/src") .uploadPack) = (.reply (.ok (.bytes out)), s2) ∧
    Spec.clientHttp .uploadPack out = some ((head, ascii "HEAD") :: refs) ∧
    serve P m s2 (Spec.pushReq (ascii "/app") (Spec.pushBody c2 [] (ascii "report-status") pack2)) = (.reply (.ok (.bytes rep2)), s3) ∧
    c1.name = c2.name ∧ c1.new ≠ c2.new ∧
    serve P m s3 (Spec.refsReq (ascii "/app") .uploadPack) = (.reply (.ok (.bytes out1)), s3) ∧
    Spec.clientHttp .uploadPack out1 = some ((c2.new, ascii "HEAD") :: refs1) ∧
    serve P m s3 (Spec.refsReq (ascii "/app/src") .uploadPack) = (.reply (.ok (.bytes out2)), s3) ∧
    Spec.clientHttp .uploadPack out2 = some ((head, ascii "HEAD") :: refs2) := by
  obtain ⟨pack, p, rep, st', refs, k, h1, h2, h3, hpush, e0, _, _, _, _, hrefs, _, hg⟩ :=
    app_below (ascii "/app/src") (by decide) (by decide) (by decide) (by decide +kernel)
  have hsubc : Spec.CleanUrl (ascii "/app/src") := ⟨by decide, by decide, by decide, by decide⟩
  obtain ⟨s1, hs1⟩ : ∃ s1, s1 = (serve demoServer demoMoment .empty (appPush pack)).2 := ⟨_, rfl⟩
  have hdb1 : s1.db = st'.db := by rw [hs1]; exact e0
  have hz : Hash.toPlainStr (idOf polyExt (.commit, srcCommit.encode)) ≠ zeroId := by decide +kernel
  -- the row of the directory
  obtain ⟨D, hD⟩ : ∃ D : Db, D = { st'.db with commits := st'.db.commits ++ [srcChild.row (ascii "/app/src")], refs := refs, inserts := k } := ⟨_, rfl⟩
  rw [← hD] at hg
  have hrow : D.refs = [{ repoPath := ascii "/app", refName := ascii "refs/heads/master" ++ [0], refGitId := appCmd.new },
      { repoPath := ascii "/app/src", refName := ascii "refs/heads/master" ++ [0], refGitId := Hash.toPlainStr (idOf polyExt (.commit, srcCommit.encode)) }] := by
    rcases getHead_ok hg with ⟨r, hmr, hp, _, _⟩ | ⟨_, ⟨r, hmr, _, hgen⟩ | ⟨_, e, _⟩⟩
    · have := (mem_searchRefs.1 hmr).1
      rw [hrefs, List.mem_singleton] at this
      rw [this] at hp
      exact absurd hp (by decide)
    · have hm := (mem_searchRefs.1 hmr).1
      rw [hrefs, List.mem_singleton] at hm
      rcases generateChild_ok hgen with ⟨⟨gen⟩⟩ | ⟨_, e, _⟩
      · have := congrArg Db.refs gen.db_eq
        simp only [hrefs, hm] at this
        rw [this]
        rfl
      · exact absurd e hz
    · exact absurd e hz
  have hroute : route .get (ascii "/app/src" ++ [] ++ ascii "/info/refs") (some ServiceType.uploadPack.display) = .infoRefs (ascii "/app/src") .uploadPack :=
    route_discover hsubc (.inl rfl) .uploadPack
  obtain ⟨s2, hs2⟩ : ∃ s2, s2 = (serve demoServer demoMoment s1 (Spec.refsReq (ascii "/app/src" ++ []) .uploadPack)).2 := ⟨_, rfl⟩
  have hdb2 : s2.db = D := by
    rw [hs2, serve_db]
    simp only [Spec.refsReq, hroute]
    rw [hdb1]
    exact congrArg Prod.snd hg
  have hdisc : (serve demoServer demoMoment s1 (Spec.refsReq (ascii "/app/src" ++ []) .uploadPack)).1 =
      .reply (.ok (.bytes (gitInfoRefs .http .uploadPack (Hash.toPlainStr (idOf polyExt (.commit, srcCommit.encode))) (getRefObjectId demoSql D (ascii "/app/src"))))) := by
    unfold serve
    simp only [Spec.refsReq, hroute]
    rw [hdb1]
    unfold advertise
    rw [show getHeadObjectId demoServer.X demoMoment.sql st'.db (ascii "/app/src") = _ from hg]
    rfl
  have text : ∀ r ∈ Spec.refsAt demoSql.fold D.refs (ascii "/app/src"), Spec.RefText r := by
    rw [hrow]
    intro r hr
    have := (refsAt_mem.1 hr).1
    simp only [List.mem_cons, List.not_mem_nil, or_false] at this
    rcases this with rfl | rfl <;> exact ⟨by decide +kernel, by decide +kernel, by decide +kernel, by decide +kernel⟩
  have hclient := client_http (t := .uploadPack) hg text
  rw [if_neg hz] at hclient
  -- the second push
  obtain ⟨pack2, rep2, s3, _, hp2, hr3⟩ := demo_move app_url (g := []) (.inl rfl) s2 shiftCmd shiftCmd_ok (by decide +kernel) (by decide +kernel) 0 (by rw [hdb2, hrow]; decide +kernel)
  rw [hdb2, hrow] at hr3
  have hr3 : s3.db.refs = [{ repoPath := ascii "/app", refName := ascii "refs/heads/master" ++ [0], refGitId := shiftCmd.new },
      { repoPath := ascii "/app/src", refName := ascii "refs/heads/master" ++ [0], refGitId := Hash.toPlainStr (idOf polyExt (.commit, srcCommit.encode)) }] := hr3
  have text3 : ∀ u, ∀ r ∈ Spec.refsAt demoServer.D.fold s3.db.refs u, Spec.RefText r := by
    intro u r hr
    have := (refsAt_mem.1 hr).1
    rw [hr3] at this
    simp only [List.mem_cons, List.not_mem_nil, or_false] at this
    rcases this with rfl | rfl <;> exact ⟨by decide +kernel, by decide +kernel, by decide +kernel, by decide +kernel⟩
  -- the repository
  obtain ⟨out1, r1, refs1, a1, a2, a3, a4, _⟩ := client_master (P := demoServer) app_url (g := []) (by decide) (.inl rfl) .uploadPack demoMoment rfl s3
    ⟨_, by rw [hr3]; exact .head _, rfl, by unfold Spec.isMaster; decide +kernel⟩ (text3 _) (by
      intro r hr _
      rw [hr3] at hr
      simp only [List.mem_cons, List.not_mem_nil, or_false] at hr
      rcases hr with rfl | rfl <;> decide +kernel)
  have e1 : r1.refGitId = shiftCmd.new := by
    rw [hr3] at a3
    simp only [List.mem_cons, List.not_mem_nil, or_false] at a3
    rcases a3 with rfl | rfl
    · rfl
    · exact absurd a4 (by decide)
  -- the directory
  obtain ⟨b, hb⟩ : ∃ b : Both, b = { web := s1, link := fun _ => .fresh } := ⟨_, rfl⟩
  have hbw : b.web = s1 := by rw [hb]
  have hstep : (bothStep demoServer demoMoment b (.http (Spec.refsReq (ascii "/app/src" ++ []) .uploadPack))).web = s2 := by
    rw [hs2, ← hbw]
    rfl
  have hrun : (runBoth demoServer (bothStep demoServer demoMoment b (.http (Spec.refsReq (ascii "/app/src" ++ []) .uploadPack)))
      [(demoMoment, .http (Spec.pushReq (ascii "/app" ++ []) (Spec.pushBody shiftCmd [] (ascii "report-status") pack2)))]).web = s3 := by
    show (serve demoServer demoMoment (bothStep demoServer demoMoment b (.http (Spec.refsReq (ascii "/app/src" ++ []) .uploadPack))).web _).2 = s3
    rw [hstep, hp2]
  have key := C123_down_false demoServer (ascii "/app/src") [] [] hsubc (by decide) (.inl rfl) (.inl rfl) b (by
      rw [hbw, hdb1, hrefs]
      intro r hr
      rw [List.mem_singleton.1 hr]
      decide) demoMoment rfl (fun _ _ => rfl) .uploadPack _ _ _ (by rw [hbw]; exact hdisc) hclient
    [(demoMoment, .http (Spec.pushReq (ascii "/app" ++ []) (Spec.pushBody shiftCmd [] (ascii "report-status") pack2)))]
    ⟨rfl, (by
      intro a ha
      have ha' : Route.receivePack (ascii "/app") = .receivePack a := (route_push app_url (.inl rfl)).symm.trans ha
      cases ha'
      decide +kernel), trivial⟩ demoMoment rfl .uploadPack (by rw [hbw, ← hs2, hdb2]; exact text) (by rw [hrun]; exact text3 _)
  rw [hrun] at key
  obtain ⟨out2, refs2, c1, c2⟩ := key
  rw [List.append_nil] at hp2 a1 c1 hs2 hdisc
  refine ⟨demoServer, demoMoment, s1, s2, s3, appCmd, shiftCmd, pack, rep, _, pack2, rep2, out1, out2, _, _, refs1, refs2, ?_, Prod.ext hdisc hs2.symm, hclient, hp2, rfl, by decide +kernel, a1, by rw [← e1]; exact a2, c1, c2⟩
  exact Prod.ext hpush hs1.symm

end Gust

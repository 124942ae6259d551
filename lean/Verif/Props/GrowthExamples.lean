import Verif.Props.Growth
import Verif.Props.SubCloneExamples
import Verif.Props.Stops

/-! # C145 on concrete runs -/

namespace Gust

/-- `/app/xxx…/src`, with 70 letters. -/
def deepPath : Bytes := ascii "/app/" ++ List.replicate 70 0x78 ++ ascii "/src"

theorem deepPath_clean : Spec.CleanUrl deepPath :=
  ⟨infix_mem (x := 0x2e) (by decide) (by decide +kernel), infix_mem (x := 0x6f) (by decide) (by decide +kernel), infix_mem (x := 0x2d) (by decide) (by decide +kernel),
    infix_mem (x := 0x2d) (by decide) (by decide +kernel)⟩

/-- The HEAD that is found does not depend on what the database accepts. -/
theorem head_accept (X : Ext) {E E' : SqlExt} (h1 : E'.fold = E.fold) (h2 : E'.like = E.like) (h3 : @SqlExt.order E' = @SqlExt.order E) (db : Db) (path : Bytes) :
    (getHeadObjectId X E' db path).1 = (getHeadObjectId X E db path).1 := by
  unfold getHeadObjectId generateChild searchRootNode searchRefs
  rw [h1, h2, h3]
  split
  · rfl
  · split
    · split
      · rfl
      · simp only
        split
        · split <;> rfl
        · rfl
        · rfl
        · rfl
    · rfl

/-- No ref is stored for a path that does not fit. -/
theorem deep_refs {X : Ext} {E : SqlExt} (hE : Spec.Schema E) {u : Bytes} (hu : overlong 64 u = true) (db : Db) : (getHeadObjectId X E db u).2.refs = db.refs := by
  unfold getHeadObjectId
  split
  · rfl
  · split
    · unfold generateChild
      split
      · rfl
      · split
        · split
          · simp only [saveChild_eq]
            refine if_neg ?_
            rw [hE.refs _ _ ⟨_, List.mem_singleton.2 rfl, by simp [RefRow.refused, hu]⟩]
            exact Bool.false_ne_true
          · rfl
          · rfl
        · rfl
        · rfl
        · rfl
    · rfl

/-- C145: after the example repository was pushed to `/app`, a client asks for the refs of a path of more than 64 characters below it, on a server with the tables of the dump: it is told a HEAD,
and there is one more commit, and no ref. -/
example : ∃ (pack rep out head : Bytes) (refs : List (Bytes × Bytes)) (s s' : ServerState),
    serve demoServer demoMoment .empty (appPush pack) = (.reply (.ok (.bytes rep)), s) ∧
    serve demoServer dumpMoment s (Spec.refsReq (deepPath ++ []) .uploadPack) = (.reply (.ok (.bytes out)), s') ∧ Spec.clientHttp .uploadPack out = some ((head, ascii "HEAD") :: refs) ∧
    s'.db.commits.length = s.db.commits.length + 1 ∧ s'.db.refs = s.db.refs := by
  obtain ⟨pack, p, rep, st', refs, ins, h1, h2, h3, hpush, e0, hruns, objs, ⟨r, hr, er, ep⟩, reach, hrefs, hold, hg⟩ :=
    app_below deepPath (by decide +kernel) (by decide +kernel) (by decide +kernel) (by decide +kernel)
  obtain ⟨s, hs⟩ : ∃ s, s = (serve demoServer demoMoment .empty (appPush pack)).2 := ⟨_, rfl⟩
  have edb : s.db = st'.db := by rw [hs]; exact e0
  obtain ⟨m, hm⟩ : ∃ m, m = dumpMoment := ⟨_, rfl⟩
  have hsql : m.sql = dumpSql := by rw [hm]; rfl
  have hat : Spec.refsAt m.sql.fold s.db.refs deepPath = [] := by
    rw [edb, hrefs, hsql]
    decide +kernel
  have hh : (getHeadObjectId polyExt m.sql s.db deepPath).1 = .ok (Hash.toPlainStr (idOf polyExt (.commit, srcCommit.encode))) := by
    rw [hsql, edb, head_accept polyExt (E := demoSql) (E' := dumpSql) rfl rfl rfl, hg]
  have hroute : route .get (deepPath ++ [] ++ ascii "/info/refs") (some ServiceType.uploadPack.display) = .infoRefs deepPath .uploadPack := route_discover deepPath_clean (.inl rfl) _
  have hgh : getHeadObjectId polyExt m.sql s.db deepPath = (.ok (Hash.toPlainStr (idOf polyExt (.commit, srcCommit.encode))), (getHeadObjectId polyExt m.sql s.db deepPath).2) :=
    Prod.ext hh rfl
  have hE : Spec.SchemaOnly m.sql := by rw [hsql]; exact dumpSql_schema
  have hlong : overlong 64 deepPath = true := by decide +kernel
  have ha : (serve demoServer m s (Spec.refsReq (deepPath ++ []) .uploadPack)).1 = .reply (.ok (.bytes (gitInfoRefs .http .uploadPack
      (Hash.toPlainStr (idOf polyExt (.commit, srcCommit.encode))) (getRefObjectId m.sql (getHeadObjectId polyExt m.sql s.db deepPath).2 deepPath)))) := by
    simp only [serve, Spec.refsReq, hroute, advertise]
    rw [show demoServer.X = polyExt from rfl, hgh]
    rfl
  have hcl := client_http (t := .uploadPack) hgh (by rw [deep_refs hE.toSchema hlong, hat]; intro r hr; cases hr)
  rw [if_neg (by decide +kernel)] at hcl
  obtain ⟨row, k1, k2, k3, k4, k5⟩ := C145_deep_false demoServer deepPath [] deepPath_clean (.inl rfl) hlong (by decide +kernel) s
    (by rw [edb, hrefs]; decide +kernel) (by
      intro c hc
      rw [edb] at hc
      have hm := objs _ (.inr ⟨c, hc, rfl⟩)
      have : ∀ o ∈ appObjects, o.data.length ≤ 65531 := by decide +kernel
      exact this _ hm) m hE .uploadPack (by rw [hat]; intro r hr; cases hr) _ _ _ (serve demoServer m s (Spec.refsReq (deepPath ++ []) .uploadPack)).2 (Prod.ext ha rfl) hcl
  refine ⟨pack, rep, _, _, _, s, _, Prod.ext hpush hs.symm, by rw [← hm]; exact Prod.ext ha rfl, hcl, ?_, k4⟩
  rw [k3]
  simp

/-- C145: the example repository is pushed to `/app`; then somebody asks for the refs of `/app/src`, any number of times: there is at most one more branch and one more commit. -/
example : ∃ (pack : Bytes) (h : BothHist), h = [(dumpMoment, .http (Spec.pushReq (ascii "/app" ++ ascii ".git") (Spec.pushBody appCmd [] (ascii "report-status") pack)))] ∧
    ∀ n, (runBoth demoServer .empty (h ++ List.replicate n (dumpMoment, .http (Spec.refsReq (ascii "/app/src" ++ []) .uploadPack)))).web.db.nodes = (runBoth demoServer .empty h).web.db.nodes ∧
      (runBoth demoServer .empty (h ++ List.replicate n (dumpMoment, .http (Spec.refsReq (ascii "/app/src" ++ []) .uploadPack)))).web.db.refs.length ≤ 2 ∧
      (runBoth demoServer .empty (h ++ List.replicate n (dumpMoment, .http (Spec.refsReq (ascii "/app/src" ++ []) .uploadPack)))).web.db.commits.length ≤
        (runBoth demoServer .empty h).web.db.commits.length + 1 := by
  obtain ⟨pack, rep, p, hp, _, _, _, hpush⟩ := app_pushed app_clean_url appCmd_ok rfl
  obtain ⟨m, hm⟩ : ∃ m, m = dumpMoment := ⟨_, rfl⟩
  have hsql : m.sql = dumpSql := by rw [hm]; rfl
  rw [← hm] at hpush
  refine ⟨pack, _, rfl, fun n => ?_⟩
  rw [← hm]
  have hrefs := C117_created_partial demoServer (ascii "/app") appCmd appCmd_ok rfl (ascii "report-status") (by decide) (by decide) pack rep hp m (by rw [hsql]; exact dumpSql_schema) [] _ hpush
    (by decide) (by decide)
  have hroute : route .get (ascii "/app/src" ++ [] ++ ascii "/info/refs") (some ServiceType.uploadPack.display) = .infoRefs (ascii "/app/src") .uploadPack :=
    route_discover ⟨by decide +kernel, by decide +kernel, by decide +kernel, by decide +kernel⟩ (.inl rfl) _
  obtain ⟨k1, k2, k3⟩ := C145_reads_partial demoServer _ (List.replicate n (m, .http (Spec.refsReq (ascii "/app/src" ++ []) .uploadPack))) (by
      intro h3 m' v h4 e a file hc
      have hv : (m', v) ∈ List.replicate n (m, Visit.http (Spec.refsReq (ascii "/app/src" ++ []) .uploadPack)) := by rw [e]; simp
      have hv := (List.mem_replicate.1 hv).2
      cases hv
      cases hc with
      | http r hr hf =>
        simp only [Spec.refsReq, hroute] at hr
        cases hr)
    (by
      intro q hq
      rw [(List.mem_replicate.1 hq).2]
      simp only [hsql]
      exact ⟨dumpSql_schema, rfl⟩) [ascii "/app/src"] (by
      intro q hq a ha
      rw [(List.mem_replicate.1 hq).2] at ha
      simp only [Visit.repo, HttpReq.repo, Spec.refsReq, hroute] at ha
      cases ha
      exact ⟨by simp, by decide, by decide⟩) (by rw [hrefs]; decide +kernel)
  refine ⟨k1, ?_, k3⟩
  rw [hrefs] at k2
  exact k2

/-- C145: the five objects are pushed to `/app` and then, unchanged, to `/copy`: the second push stores the four files and directories again. -/
example : ∃ (pack rep rep' : Bytes) (h h' : BothHist), Spec.PushedAny demoServer (ascii "/app") appCmd (ascii "report-status") pack rep dumpMoment [] h ∧
    Spec.PushedAny demoServer (ascii "/copy") appCmd (ascii "report-status") pack rep' dumpMoment h h' ∧
    (runBoth demoServer .empty h).web.db.nodes.length + 4 ≤ (runBoth demoServer .empty h').web.db.nodes.length := by
  obtain ⟨pack, hpack⟩ := app_packOf_any demoServer.D.fold
  obtain ⟨m, hm⟩ : ∃ m : Moment, m = dumpMoment := ⟨_, rfl⟩
  have hlen : appEntries.length = 5 := objectsAt_length polyExt 12 appObjects
  have hsql : m.sql = dumpSql := by rw [hm]; rfl
  have hfuel : m.fuel = 6 := by rw [hm]; rfl
  have hfo : m.sql.fold = demoServer.D.fold := by rw [hsql]; rfl
  have hE : Spec.SchemaOnly m.sql := by rw [hsql]; exact dumpSql_schema
  have hun0 : UniqueIds polyExt (runServer demoServer .empty []).db := by
    intro a b ha
    rcases ha with ⟨n, hn, _⟩ | ⟨n, hn, _⟩ <;> cases hn
  obtain ⟨rep, r1, _⟩ := C119_accepted_partial demoServer demoFold_hash (ascii "/app") (ascii ".git") app_clean_url (.inr rfl) [] m hun0 hfo hE appCmd appCmd_ok
    (ascii "report-status") (by decide) (by decide) (.inl rfl) appEntries pack (hpack _) app_project app_roomy (by rw [hlen, hfuel]; decide)
  obtain ⟨req, hreq⟩ : ∃ req, req = Spec.pushReq (ascii "/app" ++ ascii ".git") (Spec.pushBody appCmd [] (ascii "report-status") pack) := ⟨_, rfl⟩
  have p1 : Spec.PushedAny demoServer (ascii "/app") appCmd (ascii "report-status") pack rep m [] [(m, .http req)] := by
    rw [hreq]
    exact .http [] (ascii ".git") app_clean_url (.inr rfl) r1
  obtain ⟨q, d1, d2⟩ := packOf_decodes demoServer demoFold_hash hun0 (E := m.sql) hfo (hpack _) (fuel := m.fuel) (by rw [hfuel]; decide)
  have hst : (runBoth demoServer .empty [(m, .http req)]).web = runServer demoServer .empty [(m, req)] := rfl
  have objs : ∀ o, StoredObj (runServer demoServer .empty [(m, req)]).db o → metaOf polyExt o ∈ appObjects := by
    obtain ⟨st', e1, e2, _⟩ := pushedAny_http appCmd_ok (by decide) (by decide) p1
    rw [push_answer _ (ascii "/app") _ appCmd appCmd_ok (ascii "report-status") (by decide) (by decide) pack (decodePack_magic d1)] at e1
    obtain ⟨p', db1, g1, g2, g3, _⟩ := receiveData_ok rfl (Res.unwrap_eq_ok.1 e1)
    simp only at g1 g2 g3
    have e3 := handleRefs_only m.sql { RefCommand.new appCmd.old appCmd.new (appCmd.name ++ [0]) with ok := true } (ascii "/app") db1
    rw [g3] at e3
    rw [hst] at e2
    intro o ho
    have g1 := g1.symm.trans d1
    cases g1
    have key := app_save_objs (fuel0 := m.fuel) d1 (fun h o => by rw [d2]; exact app_found h o) m.sql m.fuel (ascii "/app") Db.empty (by
      rintro o (⟨n, hn, _⟩ | ⟨n, hn, _⟩) <;> cases hn)
    refine key o ?_
    rw [show (savePackfile m.sql m.fuel q (ascii "/app") Db.empty).2 = db1 from congrArg Prod.snd g2]
    rcases ho with ⟨n, hn, e⟩ | ⟨n, hn, e⟩
    · exact .inl ⟨n, by rw [← e3.1, ← e2]; exact hn, e⟩
    · exact .inr ⟨n, by rw [← e3.2, ← e2]; exact hn, e⟩
  have hcopy : Spec.CleanUrl (ascii "/copy") := ⟨by decide, by decide, by decide, by decide⟩
  obtain ⟨rep', r2, _⟩ := C119_accepted_partial demoServer demoFold_hash (ascii "/copy") (ascii ".git") hcopy (.inr rfl) [(m, req)] m (app_unique objs) hfo hE appCmd appCmd_ok
    (ascii "report-status") (by decide) (by decide) (.inl rfl) appEntries pack (hpack _) app_project app_roomy (by rw [hlen, hfuel]; decide)
  rw [← hst] at r2
  have p2 := Spec.PushedAny.http [(m, .http req)] (ascii ".git") hcopy (.inr rfl) r2
  obtain ⟨q2, d3, d4⟩ := packOf_decodes demoServer demoFold_hash (app_unique objs) (E := m.sql) hfo (hpack _) (fuel := m.fuel) (by rw [hfuel]; decide)
  refine ⟨pack, rep, rep', _, _, by rw [← hm]; exact p1, by rw [← hm]; exact p2, ?_⟩
  have := C145_push_false demoServer (ascii "/copy") appCmd appCmd_ok (ascii "report-status") (by decide) (by decide) pack rep' (decodePack_magic d3) m _ _ p2 q2 (by rw [hst]; exact d3)
    ((appObjects.drop 1).map MetaData.id) (by decide +kernel) (by
      intro x hx
      obtain ⟨o, ho, rfl⟩ := List.mem_map.1 hx
      rw [d4]
      rcases app_reached (find := Spec.found polyExt appEntries) (fun m hm => (app_found _ _).2 ⟨appThin_sub m hm, rfl⟩) (List.mem_of_mem_drop ho) with h | h
      · have : ∀ o ∈ appObjects.drop 1, o.t ≠ .commit := by decide +kernel
        exact absurd h (this o ho)
      · exact h)
  exact this

end Gust

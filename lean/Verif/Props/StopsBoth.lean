import Verif.Props.Stops
import Verif.Props.PublishBoth
import Verif.Props.BothExamples

/-! # C142 for both servers -/

namespace Gust

open Spec (nodeObj StoreReach commitsAt InRepo)

/-- With the database `db`, the fetch request `body` for `u` is answered with `out`: over HTTP, with or without `.git` in the URL, and over SSH on every connection that is open
for fetching from `u` and on which nothing has been sent since. -/
def Spec.FetchAnswered (P : ServerExt) (m : Moment) (db : Db) (u body out : Bytes) : Prop :=
  (∀ (st : ServerState) (g : Bytes), st.db = db → Spec.CleanUrl u → (g = [] ∨ g = ascii ".git") → (serve P m st (Spec.fetchReq (u ++ g) body)).1 = .reply (.ok (.bytes out))) ∧
  ∀ (z : SshState) (i ch : Nat), z.db = db → z.link i = .ready (some { service := .uploadPack, path := u, caps := [], commands := [] }) →
    (sshStep P.X m z i (.data ch body)).1 = [(ch, out)]

/-- With the database `db`, the push of `pack` with the command `c` to `u` is answered with `rep`, and then the database is `db'`: over HTTP, and over SSH on every connection on
which the command section has been sent. -/
def Spec.PushAnswered (P : ServerExt) (m : Moment) (db : Db) (u : Bytes) (c : Spec.PushCmd) (caps pack rep : Bytes) (db' : Db) : Prop :=
  (∀ (st : ServerState) (g : Bytes), st.db = db → Spec.CleanUrl u → (g = [] ∨ g = ascii ".git") →
    serve P m st (Spec.pushReq (u ++ g) (Spec.pushBody c [] caps pack)) = (.reply (.ok (.bytes rep)), { st with db := db' })) ∧
  ∀ (z : SshState) (i ch : Nat), z.db = db →
    z.link i = .ready (some { service := .receivePack, path := u, caps := parseCapabilities caps, commands := [RefCommand.new c.old c.new (c.name ++ [0])] }) →
    (sshStep P.X m z i (.data ch pack)).1 = [(ch, rep)] ∧ (sshStep P.X m z i (.data ch pack)).2.db = db'

/-! ## Lemmas -/

theorem fetch_answered {P : ServerExt} {m : Moment} (hord : ∀ l x, x ∈ m.ord l → x ∈ l) {db : Db} {u body out : Bytes}
    (h : httpUploadPack (mysqlFetch P.X m.sql m.fuel db u) m.ord m.cut body = .ok out) (hne : out ≠ []) : Spec.FetchAnswered P m db u body out := by
  refine ⟨fun st g hst hu hg => ?_, fun z i ch hz hl => ?_⟩
  · have hroute := route_fetch hu hg
    simp only [serve, Spec.fetchReq, hroute, hst, h]
    rfl
  · show (sshLinkStep P.X m z.db (z.link i) (.data ch body)).1 = _
    rw [hl, hz]
    simp only [sshLinkStep, sshData]
    rw [← sshUploadPack_http _ _ hord] at h
    obtain ⟨r, h1, h2⟩ := Res.bind_eq_ok.1 h
    have h2 : r.1 = out := Res.ok.inj h2
    rw [h1]
    simp only [Res.sent, h2, if_neg hne]

theorem push_answered {P : ServerExt} {m : Moment} {db : Db} {u : Bytes} {c : Spec.PushCmd} (hc : c.Ok) {caps : Bytes} (hl : caps.length ≤ 4000) (hx : ∀ x ∈ caps, x.toNat < 128)
    {pack rep : Bytes} {st' : PushState Db}
    (h : httpReceivePack (mysqlPush P.X m.sql m.fuel) { caps := [], commands := [], path := u, db := db } (Spec.pushBody c [] caps pack) = .ok (rep, st'))
    (hne : rep ≠ []) : Spec.PushAnswered P m db u c caps pack rep st'.db := by
  refine ⟨fun st g hst hu hg => ?_, fun z i ch hz hlink => ?_⟩
  · have hroute := route_push hu hg
    refine Prod.ext ?_ ?_
    · simp only [serve, Spec.pushReq, hroute, hst, h]
      rfl
    · have hdb := httpReceiveDb_ok _ _ _ _ _ h
      simp only [serve, Spec.pushReq, hroute, hst, h, hdb]
  · have key := receive_section (mysqlPush P.X m.sql m.fuel) u db hc hl hx pack
    have hdb := httpReceiveDb_ok _ _ _ _ _ h
    unfold httpReceivePack at h
    unfold httpReceiveDb at hdb
    rw [key, Res.unwrap_ok, Res.bind_ok] at h
    constructor
    · show (sshLinkStep P.X m z.db (z.link i) (.data ch pack)).1 = _
      rw [hlink, hz]
      simp only [sshLinkStep, sshData, sshReceivePack]
      rw [show (gitReceivePack (mysqlPush P.X m.sql m.fuel)
        { caps := parseCapabilities caps, commands := [RefCommand.new c.old c.new (c.name ++ [0])], path := u, db := db } pack).unwrap = .ok (rep, st') from h]
      simp only [Res.sent, if_neg hne]
    · show (sshLinkStep P.X m z.db (z.link i) (.data ch pack)).2.2 = _
      rw [hlink, hz]
      simp only [sshLinkStep, sshData]
      rw [key] at hdb
      exact hdb

/-! ## C142 -/

/-- **C142 (partial)** The same as `C142_clone_partial`, for both servers: wherever they were stopped while they handled overlapping requests, a client that clones a repository in
which a commit is stored, over HTTP or SSH, gets the same answer, which it can read, with exactly the objects of the commits stored; these commits are complete. (Missing from
the full claim: a failed insert of commits goes unnoticed, see C26; crashes of the database.) -/
theorem C142_both_clone_partial (P : ServerExt) (hfold : ∀ a b : Hash, P.D.fold (Hash.toPlainStr a) = P.D.fold (Hash.toPlainStr b) → a = b)
    (R : Bytes → Prop) (W : Pack → RefCommand → Prop) (u : Bytes)
    (hR : ∀ a q, R a → R q → P.D.fold q = P.D.fold u → pathStartsWith q a = true → a = q) (s : Sys) (h : Spec.Stopping P.X (fun E => E.fold = P.D.fold) R W Sys.empty s)
    (hun : UniqueIds P.X s.db) (hfit : FitsPack P.X s.db) (hne : commitsAt P.D.fold s.db.commits u ≠ [])
    (m : Moment) (hm : m.sql.fold = P.D.fold) (hfuel : s.db.nodes.length ≤ m.fuel) (hord : ∀ l x, x ∈ m.ord l ↔ x ∈ l) (hcut : Spec.CutOk m.cut)
    (ls : List Spec.ReqLine) (t rest : Bytes) (hr : Spec.CloneReq ls t) :
    ∃ out file ms, Spec.FetchAnswered P m s.db u (doneBody ls t rest) out ∧ Spec.readClone out = some file ∧ PackHas P.X file ms ∧
      (∀ x, x ∈ ms ↔ ∃ o, InRepo P.D.fold s.db u o ∧ x = metaOf P.X o) ∧
      ∀ r ∈ commitsAt P.D.fold s.db.commits u, ∃ c, Commit.decode r.data = .ok c ∧ r.gitId = Hash.toPlainStr (idOf P.X (.commit, r.data)) ∧
        (∃ n ∈ s.db.nodes, n.gitId = Hash.toPlainStr c.treeId ∧ n.nodeType = ascii "tree") ∧
        ∀ x, StoreReach s.db.nodes c.treeId x → ∃ n ∈ s.db.nodes, n.gitId = Hash.toPlainStr x ∧ idOf P.X (nodeObj n) = x := by
  obtain ⟨s', h1, h2, _⟩ := stopping_idle h (Idle.self _)
  have T : Spec.FetchDuring P.X P.D.fold R W s' ⟨fun _ => (m.sql, s'), fun _ => (m.sql, s'), fun _ => (m.sql, s')⟩ s' :=
    ⟨h1, fun _ => .refl _, fun _ => .refl _, fun _ => .refl _, fun _ _ => .refl _, fun _ => .refl _, fun _ => hm, fun _ => hm, fun _ => hm⟩
  obtain ⟨out, file, ms, c1, c2, c3, c4⟩ := C108_clone_partial P.X P.D.fold hfold R W u hR s' s' _ T (by rw [h2]; exact hun) (by rw [h2]; exact hfit) m.fuel (by rw [h2]; exact hfuel)
    (by rw [h2]; exact hne) m.ord hord m.cut hcut ls t rest hr
  have c1' : httpUploadPack (mysqlFetch P.X m.sql m.fuel s.db u) m.ord m.cut (doneBody ls t rest) = .ok out := by
    rw [← h2, ← httpUploadPackL_same]
    exact c1
  refine ⟨out, file, ms, fetch_answered (fun l x => (hord l x).1) c1' ?_, c2, c3, ?_, ?_⟩
  · rintro rfl
    rw [show Spec.readClone [] = none by decide] at c2
    cases c2
  · rw [h2] at c4
    exact c4
  · have := (C82_overlapping_pushes_partial P.X P.D.fold R W u hR s' h1 (by rw [h2]; exact hun)).1
    rw [h2] at this
    exact this

/-- **C142 (partial)** The same as `C142_again_partial`, for both servers: wherever they were stopped, the push of a complete project, whether parts of it are stored already or not,
is answered with success, over HTTP or SSH. From then on, whatever requests follow or are still being worked on, and wherever the servers are stopped, who clones the
repository over HTTP or SSH and checks out one of its commits finds exactly the files of the project. (Missing from the full claim: as in C111.) -/
theorem C142_both_again_partial (P : ServerExt) (hfold : ∀ a b : Hash, P.D.fold (Hash.toPlainStr a) = P.D.fold (Hash.toPlainStr b) → a = b)
    (R : Bytes → Prop) (u : Bytes) (hRu : R u) (hR : ∀ a q, R a → R q → P.D.fold q = P.D.fold u → pathStartsWith q a = true → a = q)
    (s1 : Sys) (h1 : Spec.Stopping P.X (fun E => E.fold = P.D.fold) R (fun _ _ => True) Sys.empty s1) (hun1 : UniqueIds P.X s1.db)
    (m1 : Moment) (hm1 : m1.sql.fold = P.D.fold) (hacc : Spec.Accepts m1.sql)
    (c : Spec.PushCmd) (hc : c.Ok) (caps : Bytes) (hcaps : caps.length ≤ 4000) (hascii : ∀ x ∈ caps, x.toNat < 128) (happ : Spec.Applies P.D.fold s1.db u c)
    (os : List (Nat × Spec.Obj)) (pack : Bytes) (hpack : Spec.PackOf P.X P.D.fold s1.db pack os) (hproj : Spec.Project P.X os) (hcommit : ∃ p ∈ os, p.2.1 = .commit) (hfuel1 : os.length < m1.fuel) :
    ∃ rep db', Spec.PushAnswered P m1 s1.db u c caps pack rep db' ∧
      Spec.reportLines (decide (.sideBand ∈ parseCapabilities caps ∨ .sideBand64k ∈ parseCapabilities caps)) rep =
        some [ascii "unpack ok\n", Spec.statusLine (c.name ++ [0]) none] ∧
      ∀ s2, Spec.Stopping P.X (fun E => E.fold = P.D.fold) R (fun _ _ => True) { s1 with db := db' } s2 → UniqueIds P.X s2.db → FitsPack P.X s2.db →
        ∀ m2 : Moment, m2.sql.fold = P.D.fold → s2.db.nodes.length ≤ m2.fuel → (∀ l x, x ∈ m2.ord l ↔ x ∈ l) → Spec.CutOk m2.cut → ∀ ls t rest, Spec.CloneReq ls t →
          ∃ out file, Spec.FetchAnswered P m2 s2.db u (doneBody ls t rest) out ∧ Spec.readClone out = some file ∧
            ∀ St fuel, ∃ q, decodePack P.X St (fuel + 1) file = .ok q ∧ ∀ p ∈ os, p.2.1 = .commit →
              ∀ path mode data, Spec.CheckedOut (Spec.found P.X os) (idOf P.X p.2) path mode data ↔ Spec.CheckedOut q.result.hashObject (idOf P.X p.2) path mode data := by
  obtain ⟨s1', a1, a2, xs, a3⟩ := stopping_idle h1 (Idle.self _)
  have hnodes : NodesOk P.X s1.db := by
    rw [← a2]
    exact (sysRun_nodes (sysNodes_empty _) a1).db
  obtain ⟨p, db1, rep, st', d1, d2, v1, v2, r1, r2⟩ := project_stored hfold hnodes hun1 hm1 hacc hc hcaps hascii happ hpack hproj hfuel1
  refine ⟨rep, st'.db, push_answered hc hcaps hascii r1 (report_ne r2), r2, fun s2 h2 hun hfit m2 hm2 hfuel2 hord hcut ls t rest hr => ?_⟩
  have b1 := stored_run (Q := fun E => E.fold = P.D.fold) (R := R) (W := fun _ _ => True) hm1 d1 hRu (cmd := RefCommand.new c.old c.new (c.name ++ [0])) trivial (s := s1') (by rw [a2]; exact v1) v2
  obtain ⟨s2', b2, b3, ys, b4⟩ := stopping_idle h2 (s' := { db := st'.db, tasks := s1'.tasks ++ [some []], pushed := (s1'.tasks.length, u, p) :: s1'.pushed }) ⟨rfl, some [] :: xs, by
    refine List.perm_append_comm.trans ?_
    exact a3.cons _⟩
  have run := (a1.trans b1).trans b2
  have hcov : Covers P.X s2'.db [] u p := by
    refine (stored_covers hacc.commits d1 v1 v2).mono (fun b hb => nomatch hb) (fun b hb => nomatch hb) (sysRun_extends b2)
  obtain ⟨o0, ho0, et0⟩ := hcommit
  have hin : ∀ m, p.result.hashObject m.id = some m → m.t = .commit ∨ Spec.PackReach p.result.hashObject m.id → ∃ o, InRepo P.D.fold s2'.db u o ∧ m = metaOf P.X o := fun m hm hr =>
    finished_inRepo (fold := P.D.fold) hcov hm hr
  have hat : ∀ o ∈ os, p.result.hashObject (metaOf P.X o.2).id = some (metaOf P.X o.2) := fun o ho => by
    rw [d2]
    exact (found_iff hpack.ids _ _).2 ⟨o, ho, rfl, rfl⟩
  have hne : commitsAt P.D.fold s2'.db.commits u ≠ [] := by
    obtain ⟨x, hx, _⟩ := hin _ (hat o0 ho0) (.inl et0)
    cases hx with
    | commit r hr => exact List.ne_nil_of_mem hr
    | node r c y n hr => exact List.ne_nil_of_mem hr
  obtain ⟨out, file, ms, c1, c2, c3, c4, _⟩ := C142_both_clone_partial P hfold R (fun _ _ => True) u hR s2' (stopping_of_run run) (by rw [b3]; exact hun) (by rw [b3]; exact hfit) hne m2 hm2
    (by rw [b3]; exact hfuel2) hord hcut ls t rest hr
  rw [b3] at c1
  refine ⟨out, file, c1, c2, fun St fuel => ?_⟩
  obtain ⟨q, q1, _, q2⟩ := c3.2 St fuel
  refine ⟨q, q1, fun o ho et path mode data => ?_⟩
  have := CheckedOut.same (find' := q.result.hashObject) (fun x hx hf => ?_) (fun h hh => ?_) (hat o ho) et path mode data
  · rw [d2] at this
    exact this
  · obtain ⟨y, y1, y2⟩ := hin x hf hx
    exact (q2 _ _).2 ⟨(c4 x).2 ⟨y, y1, y2⟩, rfl⟩
  · obtain ⟨n, o, o1, o2, _⟩ := hcov.1 h hh
    exact ⟨o, o1, o2⟩

/-! ## An example -/

/-- The servers after a restart: connection 0 is open for pushing to `/app`, and the command section has been sent; connection 1 is open for fetching from it. -/
def restarted (db : Db) : SshState :=
  { db := db
    link := fun j => if j = 0 then .ready (some { service := .receivePack, path := ascii "/app", caps := parseCapabilities (ascii "report-status"),
                                                  commands := [RefCommand.new appCmd.old appCmd.new (appCmd.name ++ [0])] })
      else .ready (some { service := .uploadPack, path := ascii "/app", caps := [], commands := [] }) }

/-- C142 for SSH: the five objects are pushed to `/app`, and the server is stopped when it has stored them but not made the branch. The same push is made again over SSH and answered;
a client that then clones `/app` over SSH, on another connection, finds the file `src/a`. -/
example : ∃ (s0 : Sys) (pack rep out file : Bytes) (m1 m2 : Moment) (q : Pack),
    Spec.Stopping polyExt (fun E => E.fold = demoFold) (fun a => a = ascii "/app") (fun _ _ => True) Sys.empty s0 ∧
    s0.tasks = [some (refActs (RefCommand.new appCmd.old appCmd.new (appCmd.name ++ [0])) (ascii "/app"))] ∧
    (sshStep polyExt m1 (restarted s0.db) 0 (.data 0 pack)).1 = [(0, rep)] ∧
    Spec.reportLines false rep = some [ascii "unpack ok\n", ascii "ok refs/heads/master" ++ [0]] ∧
    (sshStep polyExt m2 (sshStep polyExt m1 (restarted s0.db) 0 (.data 0 pack)).2 1 (.data 0 (doneBody cloneLines (ascii "\n") []))).1 = [(0, out)] ∧
    Spec.readClone out = some file ∧ decodePack polyExt (fun _ => none) 1 file = .ok q ∧
    Spec.CheckedOut q.result.hashObject (idOf polyExt (.commit, appCommit.encode)) [ascii "src", ascii "a"] (ascii "100644") (ascii "one") := by
  obtain ⟨pack, hpack⟩ := app_packOf_any demoServer.D.fold
  obtain ⟨m1, hm1⟩ : ∃ m1 : Moment, m1 = { demoMoment with fuel := 6 } := ⟨_, rfl⟩
  have hlen : appEntries.length = 5 := objectsAt_length polyExt 12 appObjects
  have hsql : m1.sql = demoSql := by rw [hm1]; rfl
  have hfo : m1.sql.fold = demoServer.D.fold := by rw [hsql]; rfl
  have hacc : Spec.Accepts m1.sql := by rw [hsql]; exact ⟨fun _ _ => rfl, fun _ _ => rfl, fun _ _ => rfl, fun _ _ => rfl⟩
  have hfu : appEntries.length < m1.fuel := by rw [hlen, hm1]; decide
  have hun0 : UniqueIds polyExt Db.empty := by
    intro a b ha
    rcases ha with ⟨n, hn, _⟩ | ⟨n, hn, _⟩ <;> cases hn
  obtain ⟨p, db1, _, _, d1, d2, v1, _⟩ := project_stored (u := ascii "/app") demoFold_hash (nodesOk_empty polyExt) hun0 hfo hacc appCmd_ok (caps := ascii "report-status") (by decide) (by decide) (.inl rfl)
    (hpack Db.empty) app_project hfu
  have hfind : ∀ h m, p.result.hashObject h = some m ↔ m ∈ appObjects ∧ m.id = h := fun h m => by rw [d2]; exact app_found h m
  have objs1 : ∀ o, StoredObj db1 o → metaOf polyExt o ∈ appObjects := by
    have := app_save_objs d1 hfind m1.sql m1.fuel (ascii "/app") Db.empty (by rintro o (⟨n, hn, _⟩ | ⟨n, hn, _⟩) <;> cases hn)
    rwa [v1] at this
  -- stored, but without the branch
  have run1 : SysRun polyExt (fun E => E.fold = demoFold) (fun a => a = ascii "/app") (fun _ _ => True) Sys.empty
      { db := db1, tasks := [some (refActs (RefCommand.new appCmd.old appCmd.new (appCmd.name ++ [0])) (ascii "/app"))], pushed := [(0, ascii "/app", p)] } := by
    have a := SysStep.push (X := polyExt) (Q := fun E => E.fold = demoFold) (R := fun a => a = ascii "/app") (W := fun _ _ => True) Sys.empty _ _ _ p m1.sql m1.fuel (ascii "/app")
      (RefCommand.new appCmd.old appCmd.new (appCmd.name ++ [0])) d1 rfl trivial
    have b := solo_save polyExt m1.sql m1.fuel p (ascii "/app") (RefCommand.new appCmd.old appCmd.new (appCmd.name ++ [0])) Db.empty
    rw [v1] at b
    exact SysRun.trans (.step _ _ _ (.refl _) a) (solo_run (by rw [hsql]; rfl) b _ 0 rfl rfl)
  obtain ⟨s0, hs0⟩ : ∃ s0 : Sys, s0 = { db := db1, tasks := [some (refActs (RefCommand.new appCmd.old appCmd.new (appCmd.name ++ [0])) (ascii "/app"))], pushed := [(0, ascii "/app", p)] } := ⟨_, rfl⟩
  have stop0 : Spec.Stopping polyExt (fun E => E.fold = demoFold) (fun a => a = ascii "/app") (fun _ _ => True) Sys.empty s0 := by
    rw [hs0]
    exact stopping_of_run run1
  obtain ⟨push, hpush⟩ : ∃ push, push = Spec.pushReq (ascii "/app" ++ ascii ".git") (Spec.pushBody appCmd [] (ascii "report-status") pack) := ⟨_, rfl⟩
  have hroute : route push.method push.path push.service = .receivePack (ascii "/app") := by rw [hpush]; exact route_push app_clean_url (.inr rfl)
  obtain ⟨st1, hst1⟩ : ∃ st1 : ServerState, st1 = { ServerState.empty with db := db1 } := ⟨_, rfl⟩
  have nodes1 : NodesOk polyExt db1 := by
    have := (sysRun_nodes (sysNodes_empty polyExt) run1).db
    exact this
  -- what is stored in the end
  have objs2 : ∀ o, StoredObj (serve demoServer m1 st1 push).2.db o → metaOf polyExt o ∈ appObjects := by
    obtain ⟨p', db1', rep', st', g1, g2, g3, g4, g5, _⟩ := project_stored (u := ascii "/app") demoFold_hash nodes1 (app_unique objs1) hfo hacc appCmd_ok (caps := ascii "report-status") (by decide) (by decide)
      (.inl rfl) (hpack db1) app_project hfu
    have edb : (serve demoServer m1 st1 push).2.db = st'.db := by
      rw [serve_db, hroute, hst1, hpush]
      exact httpReceiveDb_ok _ _ _ _ _ g5
    rw [edb]
    have e1 := app_save_objs g1 (fun h m => by rw [g2]; exact app_found h m) m1.sql m1.fuel (ascii "/app") db1 objs1
    rw [g3] at e1
    have e2 := handleRefs_only m1.sql (RefCommand.new appCmd.old appCmd.new (appCmd.name ++ [0])) (ascii "/app") db1'
    rw [g4] at e2
    intro o ho
    refine e1 o ?_
    rcases ho with ⟨n, hn, e⟩ | ⟨n, hn, e⟩
    · exact .inl ⟨n, by rw [← e2.1]; exact hn, e⟩
    · exact .inr ⟨n, by rw [← e2.2]; exact hn, e⟩
  obtain ⟨rep, db', r1, r2, r5⟩ := C142_both_again_partial demoServer demoFold_hash (fun a => a = ascii "/app") (ascii "/app") rfl
    (by rintro a q rfl rfl _ _; rfl) { db := db1, tasks := [], pushed := [] } (by have := Spec.Stopping.stop _ _ stop0; rw [hs0] at this; exact this) (app_unique objs1) m1 hfo hacc appCmd appCmd_ok
    (ascii "report-status") (by decide) (by decide) (.inl rfl) appEntries pack (hpack db1) app_project ⟨_, .head _, rfl⟩ hfu
  have edb : (serve demoServer m1 st1 push).2.db = db' := by
    have := r1.1 st1 (ascii ".git") (by rw [hst1]) app_clean_url (.inr rfl)
    rw [← hpush] at this
    exact congrArg (fun x => x.2.db) this
  rw [edb] at objs2
  obtain ⟨m2, hm2⟩ : ∃ m2 : Moment, m2 = { demoMoment with fuel := db'.nodes.length } := ⟨_, rfl⟩
  obtain ⟨out, file, r3, r4, r6⟩ := r5 { db := db', tasks := [], pushed := [] } (.stop _ _ (.refl _)) (app_unique objs2) (app_fits objs2)
    m2 (by rw [hm2]; rfl) (by rw [hm2]) (by rw [hm2]; exact fun _ _ => .rfl) (by rw [hm2]; exact demoCut_ok) cloneLines (ascii "\n") [] cloneLines_ok
  obtain ⟨q, q1, q2⟩ := r6 (fun _ => none) 0
  have hside : decide (Capability.sideBand ∈ parseCapabilities (ascii "report-status") ∨ Capability.sideBand64k ∈ parseCapabilities (ascii "report-status")) = false := by
    decide +kernel
  rw [hside, show Spec.statusLine (appCmd.name ++ [0]) none = ascii "ok refs/heads/master" ++ [0] by decide] at r2
  have hs0' : s0.db = db1 := by rw [hs0]
  obtain ⟨k1, k2⟩ := r1.2 (restarted s0.db) 0 0 (by rw [hs0']; rfl) rfl
  refine ⟨s0, pack, rep, out, file, m1, m2, q, stop0, by rw [hs0], k1, r2, ?_, r4, q1, (q2 _ (.head _) rfl _ _ _).1 ?_⟩
  · exact r3.2 _ 1 0 k2 rfl
  show Spec.CheckedOut (Spec.found polyExt appEntries) (metaOf polyExt (.commit, appCommit.encode)).id _ _ _
  have find : ∀ m ∈ appObjects, Spec.found polyExt appEntries m.id = some m := fun m hm => (app_found _ _).2 ⟨hm, rfl⟩
  refine ⟨metaOf polyExt (.commit, appCommit.encode), appCommit, rfl, find _ (by simp [appObjects, appThin]), rfl, appCommit_decode, ?_⟩
  refine .dir (metaOf polyExt (.tree, encodeTree appItems)) appItems (dirItem "src" (idOf polyExt (.tree, encodeTree srcA))) _ _ _
    (find _ (by simp [appObjects, appThin])) rfl appItems_decode (by simp [appItems]) rfl ?_
  exact .file (metaOf polyExt (.tree, encodeTree srcA)) appBlob srcA (fileItem "a" (polyId .blob (ascii "one"))) (find _ (by simp [appObjects, appThin])) rfl srcA_decode
    (by simp [srcA]) (by decide) rfl (find _ (by simp [appObjects])) rfl

end Gust

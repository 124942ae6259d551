import Verif.Props.StopsBoth
import Verif.Props.AnyText
import Verif.Props.RefinedTables

/-! # C138 and C142 with the tables of the dump -/

namespace Gust

/-- **C142 (partial)** With the tables of the dump, wherever the two servers were stopped while they handled overlapping requests, the push of a complete project that fits the columns, whether parts of it are stored
already or not, is answered with success, over HTTP or SSH. From then on, whatever requests follow or are still being worked on, and wherever the servers are stopped, who clones the repository over HTTP or SSH and
checks out one of its commits finds exactly the files of the project. (Missing from the full claim: as for `C142_both_again_partial`; what does not fit, see C117, C118, C119.) -/
theorem C142_tables_partial (P : ServerExt) (hfold : ∀ a b : Hash, P.D.fold (Hash.toPlainStr a) = P.D.fold (Hash.toPlainStr b) → a = b)
    (R : Bytes → Prop) (u : Bytes) (hRu : R u) (hR : ∀ a q, R a → R q → P.D.fold q = P.D.fold u → pathStartsWith q a = true → a = q)
    (s1 : Sys) (h1 : Spec.Stopping P.X (fun E => E.fold = P.D.fold) R (fun _ _ => True) Sys.empty s1) (hun1 : UniqueIds P.X s1.db)
    (m1 : Moment) (hm1 : m1.sql.fold = P.D.fold) (hE : Spec.SchemaOnly m1.sql)
    (c : Spec.PushCmd) (hc : c.Ok) (caps : Bytes) (hcaps : caps.length ≤ 4000) (hascii : ∀ x ∈ caps, x.toNat < 128) (happ : Spec.Applies P.D.fold s1.db u c)
    (os : List (Nat × Spec.Obj)) (pack : Bytes) (hpack : Spec.PackOf P.X P.D.fold s1.db pack os) (hproj : Spec.Project P.X os) (hcommit : ∃ p ∈ os, p.2.1 = .commit)
    (hroom : Spec.Roomy (Spec.found P.X os)) (hsmall : ∀ p ∈ os, p.2.1 = .commit → p.2.2.length ≤ 65535) (hname : c.name.length ≤ 31) (hpath : chars u ≤ 64) (hfuel1 : os.length < m1.fuel) :
    ∃ rep db', Spec.PushAnswered P m1 s1.db u c caps pack rep db' ∧
      Spec.reportLines (decide (.sideBand ∈ parseCapabilities caps ∨ .sideBand64k ∈ parseCapabilities caps)) rep =
        some [ascii "unpack ok\n", Spec.statusLine (c.name ++ [0]) none] ∧
      ∀ s2, Spec.Stopping P.X (fun E => E.fold = P.D.fold) R (fun _ _ => True) { s1 with db := db' } s2 → UniqueIds P.X s2.db → FitsPack P.X s2.db →
        ∀ m2 : Moment, m2.sql.fold = P.D.fold → s2.db.nodes.length ≤ m2.fuel → (∀ l x, x ∈ m2.ord l ↔ x ∈ l) → Spec.CutOk m2.cut → ∀ ls t rest, Spec.CloneReq ls t →
          ∃ out file, Spec.FetchAnswered P m2 s2.db u (doneBody ls t rest) out ∧ Spec.readClone out = some file ∧
            ∀ St fuel, ∃ q, decodePack P.X St (fuel + 1) file = .ok q ∧ ∀ p ∈ os, p.2.1 = .commit →
              ∀ path mode data, Spec.CheckedOut (Spec.found P.X os) (idOf P.X p.2) path mode data ↔ Spec.CheckedOut q.result.hashObject (idOf P.X p.2) path mode data := by
  have hnodes : NodesOk P.X s1.db := by
    obtain ⟨s1', a1, a2, _, _⟩ := stopping_idle h1 (Idle.self _)
    rw [← a2]
    exact (sysRun_nodes (sysNodes_empty _) a1).db
  obtain ⟨rep, st', r1, r2⟩ := roomy_answered hfold hnodes hun1 hm1 hE hc hcaps hascii happ hpack hproj hroom hfuel1
  obtain ⟨p, d1, d2⟩ := packOf_read hfold hnodes hun1 hm1 hpack (fuel := m1.fuel) (by omega)
  have hmagic := decodePack_magic d1
  have hcs : ∀ o, p.result.hashObject o.id = some o → o.t = .commit → o.data.length ≤ 65535 := by
    intro o ho ht
    rw [d2] at ho
    obtain ⟨q, hq, e2, _⟩ := (found_iff hpack.ids _ _).1 ho
    rw [← e2] at ht ⊢
    exact hsmall q hq ht
  have k1 := r1
  rw [push_answer _ u _ c hc caps hcaps hascii pack hmagic] at k1
  have k2 := receiveData_unlimited hE hpath hc hname d1 hcs (Res.unwrap_eq_ok.1 k1)
  have k3 : httpReceivePack (mysqlPush P.X m1.unlimited.sql m1.unlimited.fuel) { caps := [], commands := [], path := u, db := s1.db } (Spec.pushBody c [] caps pack) = .ok (rep, st') := by
    rw [push_answer _ u _ c hc caps hcaps hascii pack hmagic]
    exact Res.unwrap_eq_ok.2 k2
  have a1 := push_answered hc hcaps hascii r1 (report_ne r2)
  have a2 := push_answered (m := m1.unlimited) hc hcaps hascii k3 (report_ne r2)
  obtain ⟨rep', db', b1, b2, b3⟩ := C142_both_again_partial P hfold R u hRu hR s1 h1 hun1 m1.unlimited hm1 (unlimited_accepts _) c hc caps hcaps hascii happ os pack hpack hproj hcommit hfuel1
  let z : SshState := { db := s1.db, link := fun _ => .ready (some { service := .receivePack, path := u, caps := parseCapabilities caps, commands := [RefCommand.new c.old c.new (c.name ++ [0])] }) }
  have e : st'.db = db' := (a2.2 z 0 0 rfl rfl).2.symm.trans (b1.2 z 0 0 rfl rfl).2
  rw [← e] at b3
  exact ⟨rep, st'.db, a1, r2, b3⟩

/-! ## C138 -/

/-- A project in git's formats that fits the columns of the dump: files smaller than 16 MiB, directories smaller than 10 MiB, commits of at most 65535 bytes, names of at most 128 characters. -/
structure Spec.GitRoomy (os : List (Nat × Spec.Obj)) : Prop where
  files : ∀ p ∈ os, p.2.1 = .blob → p.2.2.length < 16 * 1024 * 1024
  dirs : ∀ p ∈ os, p.2.1 = .tree → p.2.2.length < 10 * 1024 * 1024
  names : ∀ p ∈ os, ∀ es : List Spec.EntryData, p.2 = (.tree, es.flatMap Spec.EntryData.text) → (∀ e ∈ es, e.Ok) → ∀ e ∈ es, chars e.name ≤ 128
  commits : ∀ p ∈ os, p.2.1 = .commit → p.2.2.length ≤ 65535

theorem gitRoomy_roomy {X : Ext} {os : List (Nat × Spec.Obj)} {depth : Hash → Nat} (h : Spec.GitProject X os depth) (hr : Spec.GitRoomy os) : Spec.Roomy (Spec.found X os) := by
  refine ⟨fun o ho ht => ?_, fun o ho ht => ?_, fun o items i ho ht hd hi => ?_⟩
  · obtain ⟨p, hp, rfl, _⟩ := found_mem ho
    exact hr.files p hp ht
  · obtain ⟨p, hp, rfl, _⟩ := found_mem ho
    exact hr.dirs p hp ht
  · obtain ⟨p, hp, rfl, _⟩ := found_mem ho
    obtain ⟨es, e1, e2, _, _⟩ := h.trees p hp ht
    rcases entries_decode es e1 with ⟨_, k⟩ | ⟨_, k⟩
    · rw [e2, show decodeTree p.2.2 = .ok items from hd, Res.ok.injEq] at k
      rw [k] at hi
      obtain ⟨e, he, rfl⟩ := List.mem_map.1 hi
      exact hr.names p hp es (Prod.ext ht e2.symm) e1 e he
    · rw [e2, show decodeTree p.2.2 = .ok items from hd] at k
      cases k

/-- **C138 (partial)** With the tables of the dump, after anything anybody has done over HTTP and SSH: the push over HTTP or SSH of a complete project in git's formats, in a well-formed pack, is answered with `ok` if all
texts are UTF-8, all times are since 1970, all tags have taggers and everything fits the columns; a ref it creates is stored. Whoever clones the repository afterwards, over HTTP or SSH, whatever anybody has done in
between, gets an answer, and finds in every commit exactly the files of the project. (Missing from the full claim: see `C138_foreign_false`; otherwise as for `C111_tables_partial`.) -/
theorem C138_tables_partial (P : ServerExt) (hfold : ∀ a b : Hash, P.D.fold (Hash.toPlainStr a) = P.D.fold (Hash.toPlainStr b) → a = b)
    (u : Bytes) (h h' h2 : BothHist) (m1 m2 : Moment)
    (c : Spec.PushCmd) (hc : c.Ok) (caps : Bytes) (hcaps : caps.length ≤ 4000) (hascii : ∀ x ∈ caps, x.toNat < 128)
    (happ : Spec.Applies P.D.fold (runBoth P .empty h).web.db u c)
    (os : List (Nat × Spec.Obj)) (pack : Bytes) (hpack : Spec.PackOf P.X P.D.fold (runBoth P .empty h).web.db pack os)
    (depth : Hash → Nat) (hproj : Spec.GitProject P.X os depth) (hplain : ∀ p ∈ os, ¬ Spec.Foreign p.2)
    (hcommit : ∃ p ∈ os, p.2.1 = .commit) (hsent : Spec.SentAny P u c caps pack m1 h h')
    (hE : Spec.SchemaOnly m1.sql) (hroom : Spec.GitRoomy os) (hname : c.name.length ≤ 31) (hpath : chars u ≤ 64) (hfuel1 : os.length < m1.fuel)
    (hfl : Spec.SameFoldAny P.D.fold (h' ++ h2)) (hm2 : m2.sql.fold = P.D.fold) (hab : Spec.NoneAboveAny P.D.fold u (h' ++ h2))
    (hun : UniqueIds P.X (runBoth P .empty (h' ++ h2)).web.db) (hfit : FitsPack P.X (runBoth P .empty (h' ++ h2)).web.db)
    (hfuel2 : (runBoth P .empty (h' ++ h2)).web.db.nodes.length ≤ m2.fuel)
    (hord : ∀ l x, x ∈ m2.ord l ↔ x ∈ l) (hcut : Spec.CutOk m2.cut) (ls : List Spec.ReqLine) (t rest : Bytes) (hr : Spec.CloneReq ls t) :
    ∃ rep out, Spec.PushedAny P u c caps pack rep m1 h h' ∧
      Spec.reportLines (decide (.sideBand ∈ parseCapabilities caps ∨ .sideBand64k ∈ parseCapabilities caps)) rep =
        some [ascii "unpack ok\n", Spec.statusLine (c.name ++ [0]) none] ∧
      (c.old = zeroId → (runBoth P .empty h').web.db.refs = (runBoth P .empty h).web.db.refs ++ [{ repoPath := u, refName := c.name ++ [0], refGitId := c.new }]) ∧
      (∀ g, Spec.CleanUrl u → (g = [] ∨ g = ascii ".git") →
        (serve P m2 (runBoth P .empty (h' ++ h2)).web (Spec.fetchReq (u ++ g) (doneBody ls t rest))).1 = .reply (.ok (.bytes out))) ∧
      (∀ i ch, Spec.Opened P u i (h' ++ h2) → (sshStep P.X m2 (runBoth P .empty (h' ++ h2)).ssh i (.data ch (doneBody ls t rest))).1 = [(ch, out)]) ∧
      ∃ file, Spec.readClone out = some file ∧
        ∀ St fuel, ∃ q, decodePack P.X St (fuel + 1) file = .ok q ∧ ∀ p ∈ os, p.2.1 = .commit →
          ∀ path mode data, Spec.CheckedOut (Spec.found P.X os) (idOf P.X p.2) path mode data ↔ Spec.CheckedOut q.result.hashObject (idOf P.X p.2) path mode data :=
  C111_tables_partial P hfold u h h' h2 m1 m2 c hc caps hcaps hascii happ os pack hpack (gitProject_project hpack.ids hproj hplain) hcommit hsent hE (gitRoomy_roomy hproj hroom) hroom.commits
    hname hpath hfuel1 hfl hm2 hab hun hfit hfuel2 hord hcut ls t rest hr

/-! ## Instances -/

theorem app_gitRoomy : Spec.GitRoomy appEntries where
  files := fun p hp ht => app_roomy.size (metaOf polyExt p.2) ((found_iff appEntries_ids _ _).2 ⟨p, hp, rfl, rfl⟩) ht
  dirs := fun p hp ht => app_roomy.dir (metaOf polyExt p.2) ((found_iff appEntries_ids _ _).2 ⟨p, hp, rfl, rfl⟩) ht
  names := fun p hp es e ok x hx => by
    rcases entries_decode es ok with ⟨_, k⟩ | ⟨k, _⟩
    · exact app_roomy.entry (metaOf polyExt p.2) (es.map Spec.EntryData.item) x.item ((found_iff appEntries_ids _ _).2 ⟨p, hp, rfl, rfl⟩) (congrArg Prod.fst e)
        (by rw [show (metaOf polyExt p.2).data = p.2.2 from rfl, congrArg Prod.snd e]; exact k) (List.mem_map.2 ⟨x, hx, rfl⟩)
    · refine absurd ?_ (app_git.2 p hp)
      rw [e]
      exact .tree es ok k
  commits := fun p hp _ => by
    have : ∀ p ∈ appEntries, p.2.2.length ≤ 65535 := by decide +kernel
    exact this p hp

/-- C142 with the tables of the dump: the five objects are pushed to `/app`, and the server is stopped when it has stored them but not made the branch. The same push is made again over SSH and answered; a client that
then clones `/app` over SSH, on another connection, finds the file `src/a`. -/
example : ∃ (s0 : Sys) (pack rep out file : Bytes) (m2 : Moment) (q : Pack),
    Spec.Stopping polyExt (fun E => E.fold = demoFold) (fun a => a = ascii "/app") (fun _ _ => True) Sys.empty s0 ∧
    s0.tasks = [some (refActs (RefCommand.new appCmd.old appCmd.new (appCmd.name ++ [0])) (ascii "/app"))] ∧
    (sshStep polyExt dumpMoment (restarted s0.db) 0 (.data 0 pack)).1 = [(0, rep)] ∧
    Spec.reportLines false rep = some [ascii "unpack ok\n", ascii "ok refs/heads/master" ++ [0]] ∧
    (sshStep polyExt m2 (sshStep polyExt dumpMoment (restarted s0.db) 0 (.data 0 pack)).2 1 (.data 0 (doneBody cloneLines (ascii "\n") []))).1 = [(0, out)] ∧
    Spec.readClone out = some file ∧ decodePack polyExt (fun _ => none) 1 file = .ok q ∧
    Spec.CheckedOut q.result.hashObject (idOf polyExt (.commit, appCommit.encode)) [ascii "src", ascii "a"] (ascii "100644") (ascii "one") := by
  obtain ⟨pack, hpack⟩ := app_packOf_any demoServer.D.fold
  obtain ⟨m1, hm1⟩ : ∃ m1 : Moment, m1 = { demoMoment with fuel := 6 } := ⟨_, rfl⟩
  have hlen : appEntries.length = 5 := objectsAt_length polyExt 12 appObjects
  have hsql : m1.sql = demoSql := by rw [hm1]; rfl
  have hfo : m1.sql.fold = demoServer.D.fold := by rw [hsql]; rfl
  have hacc : Spec.Accepts m1.sql := by rw [hsql]; exact ⟨fun _ _ => rfl, fun _ _ => rfl, fun _ _ => rfl, fun _ _ => rfl⟩
  have hfu : appEntries.length < m1.fuel := by rw [hlen, hm1]; decide
  have hfu2 : appEntries.length < dumpMoment.fuel := by rw [hlen]; decide
  have hun0 : UniqueIds polyExt Db.empty := by
    intro a b ha
    rcases ha with ⟨n, hn, _⟩ | ⟨n, hn, _⟩ <;> cases hn
  obtain ⟨p, db1, _, _, d1, d2, v1, _⟩ := project_stored (u := ascii "/app") demoFold_hash (nodesOk_empty polyExt) hun0 hfo hacc appCmd_ok (caps := ascii "report-status") (by decide) (by decide) (.inl rfl)
    (hpack Db.empty) app_project hfu
  have hfind : ∀ h m, p.result.hashObject h = some m ↔ m ∈ appObjects ∧ m.id = h := fun h m => by rw [d2]; exact app_found h m
  have objs1 : ∀ o, StoredObj db1 o → metaOf polyExt o ∈ appObjects := by
    have := app_save_objs d1 hfind m1.sql m1.fuel (ascii "/app") Db.empty (by rintro o (⟨n, hn, _⟩ | ⟨n, hn, _⟩) <;> cases hn)
    rwa [v1] at this
  -- stored, but without the branch
  have run1 : SysRun polyExt (fun E => E.fold = demoFold) (fun a => a = ascii "/app") (fun _ _ => True) Sys.empty
      { db := db1, tasks := [some (refActs (RefCommand.new appCmd.old appCmd.new (appCmd.name ++ [0])) (ascii "/app"))], pushed := [(0, ascii "/app", p)] } := by
    have a := SysStep.push (X := polyExt) (Q := fun E => E.fold = demoFold) (R := fun a => a = ascii "/app") (W := fun _ _ => True) Sys.empty _ _ _ p m1.sql m1.fuel (ascii "/app")
      (RefCommand.new appCmd.old appCmd.new (appCmd.name ++ [0])) d1 rfl trivial
    have b := solo_save polyExt m1.sql m1.fuel p (ascii "/app") (RefCommand.new appCmd.old appCmd.new (appCmd.name ++ [0])) Db.empty
    rw [v1] at b
    exact SysRun.trans (.step _ _ _ (.refl _) a) (solo_run (by rw [hsql]; rfl) b _ 0 rfl rfl)
  obtain ⟨s0, hs0⟩ : ∃ s0 : Sys, s0 = { db := db1, tasks := [some (refActs (RefCommand.new appCmd.old appCmd.new (appCmd.name ++ [0])) (ascii "/app"))], pushed := [(0, ascii "/app", p)] } := ⟨_, rfl⟩
  have stop0 : Spec.Stopping polyExt (fun E => E.fold = demoFold) (fun a => a = ascii "/app") (fun _ _ => True) Sys.empty s0 := by
    rw [hs0]
    exact stopping_of_run run1
  obtain ⟨push, hpush⟩ : ∃ push, push = Spec.pushReq (ascii "/app" ++ ascii ".git") (Spec.pushBody appCmd [] (ascii "report-status") pack) := ⟨_, rfl⟩
  have hroute : route push.method push.path push.service = .receivePack (ascii "/app") := by rw [hpush]; exact route_push app_clean_url (.inr rfl)
  obtain ⟨st1, hst1⟩ : ∃ st1 : ServerState, st1 = { ServerState.empty with db := db1 } := ⟨_, rfl⟩
  have nodes1 : NodesOk polyExt db1 := by
    have := (sysRun_nodes (sysNodes_empty polyExt) run1).db
    exact this
  -- what is stored in the end
  have objs2 : ∀ o, StoredObj (serve demoServer dumpMoment st1 push).2.db o → metaOf polyExt o ∈ appObjects := by
    obtain ⟨rep', st', g5, _⟩ := roomy_answered (u := ascii "/app") (E := dumpMoment.sql) demoFold_hash nodes1 (app_unique objs1) rfl dumpSql_schema appCmd_ok (caps := ascii "report-status") (by decide) (by decide)
      (.inl rfl) (hpack db1) app_project app_roomy hfu2
    obtain ⟨p', g1, g2⟩ := packOf_read demoFold_hash nodes1 (app_unique objs1) (E := dumpMoment.sql) rfl (hpack db1) (fuel := dumpMoment.fuel) (by decide)
    have g6 := g5
    rw [push_answer _ (ascii "/app") db1 appCmd appCmd_ok _ (by decide) (by decide) pack (decodePack_magic g1)] at g6
    obtain ⟨p'', db1', x1, g3, g4, _⟩ := receiveData_ok rfl (Res.unwrap_eq_ok.1 g6)
    simp only at x1 g3 g4
    rw [show decodePack polyExt (getHashObject polyExt dumpMoment.sql db1) dumpMoment.fuel pack = .ok p' from g1, Res.ok.injEq] at x1
    subst x1
    have edb : (serve demoServer dumpMoment st1 push).2.db = st'.db := by
      rw [serve_db, hroute, hst1, hpush]
      exact httpReceiveDb_ok _ _ _ _ _ g5
    rw [edb]
    have e1 := app_save_objs g1 (fun h m => by rw [g2]; exact app_found h m) dumpMoment.sql dumpMoment.fuel (ascii "/app") db1 objs1
    rw [g3] at e1
    have e2 := handleRefs_only dumpMoment.sql { RefCommand.new appCmd.old appCmd.new (appCmd.name ++ [0]) with ok := true } (ascii "/app") db1'
    rw [show handleRefs dumpMoment.sql { RefCommand.new appCmd.old appCmd.new (appCmd.name ++ [0]) with ok := true } (ascii "/app") db1' = (.ok (), st'.db) from g4] at e2
    intro o ho
    refine e1 o ?_
    rcases ho with ⟨n, hn, e⟩ | ⟨n, hn, e⟩
    · exact .inl ⟨n, by rw [← e2.1]; exact hn, e⟩
    · exact .inr ⟨n, by rw [← e2.2]; exact hn, e⟩
  obtain ⟨rep, db', r1, r2, r5⟩ := C142_tables_partial demoServer demoFold_hash (fun a => a = ascii "/app") (ascii "/app") rfl
    (by rintro a q rfl rfl _ _; rfl) { db := db1, tasks := [], pushed := [] } (by have := Spec.Stopping.stop _ _ stop0; rw [hs0] at this; exact this) (app_unique objs1) dumpMoment rfl dumpSql_schema appCmd appCmd_ok
    (ascii "report-status") (by decide) (by decide) (.inl rfl) appEntries pack (hpack db1) app_project ⟨_, .head _, rfl⟩ app_roomy app_gitRoomy.commits (by decide) (by decide) hfu2
  have edb : (serve demoServer dumpMoment st1 push).2.db = db' := by
    have := r1.1 st1 (ascii ".git") (by rw [hst1]) app_clean_url (.inr rfl)
    rw [← hpush] at this
    exact congrArg (fun x => x.2.db) this
  rw [edb] at objs2
  obtain ⟨m2, hm2⟩ : ∃ m2 : Moment, m2 = { demoMoment with fuel := db'.nodes.length } := ⟨_, rfl⟩
  obtain ⟨out, file, r3, r4, r6⟩ := r5 { db := db', tasks := [], pushed := [] } (.stop _ _ (.refl _)) (app_unique objs2) (app_fits objs2)
    m2 (by rw [hm2]; rfl) (by rw [hm2]) (by rw [hm2]; exact fun _ _ => .rfl) (by rw [hm2]; exact demoCut_ok) cloneLines (ascii "\n") [] cloneLines_ok
  obtain ⟨q, q1, q2⟩ := r6 (fun _ => none) 0
  have hside : decide (Capability.sideBand ∈ parseCapabilities (ascii "report-status") ∨ Capability.sideBand64k ∈ parseCapabilities (ascii "report-status")) = false := by
    decide +kernel
  rw [hside, show Spec.statusLine (appCmd.name ++ [0]) none = ascii "ok refs/heads/master" ++ [0] by decide] at r2
  have hs0' : s0.db = db1 := by rw [hs0]
  obtain ⟨k1, k2⟩ := r1.2 (restarted s0.db) 0 0 (by rw [hs0']; rfl) rfl
  refine ⟨s0, pack, rep, out, file, m2, q, stop0, by rw [hs0], k1, r2, ?_, r4, q1, (q2 _ (.head _) rfl _ _ _).1 ?_⟩
  · exact r3.2 _ 1 0 k2 rfl
  show Spec.CheckedOut (Spec.found polyExt appEntries) (metaOf polyExt (.commit, appCommit.encode)).id _ _ _
  have find : ∀ m ∈ appObjects, Spec.found polyExt appEntries m.id = some m := fun m hm => (app_found _ _).2 ⟨hm, rfl⟩
  refine ⟨metaOf polyExt (.commit, appCommit.encode), appCommit, rfl, find _ (by simp [appObjects, appThin]), rfl, appCommit_decode, ?_⟩
  refine .dir (metaOf polyExt (.tree, encodeTree appItems)) appItems (dirItem "src" (idOf polyExt (.tree, encodeTree srcA))) _ _ _
    (find _ (by simp [appObjects, appThin])) rfl appItems_decode (by simp [appItems]) rfl ?_
  exact .file (metaOf polyExt (.tree, encodeTree srcA)) appBlob srcA (fileItem "a" (polyId .blob (ascii "one"))) (find _ (by simp [appObjects, appThin])) rfl srcA_decode
    (by simp [srcA]) (by decide) rfl (find _ (by simp [appObjects])) rfl

/-- C138 with the tables of the dump: the same project, in git's formats, is published over SSH; the push is answered with `ok`, the ref is stored, and a clone over HTTP is answered; the file `src/a` is there. -/
example : ∃ (m2 : Moment) (pack rep out file : Bytes) (q : Pack),
    Spec.PushedAny demoServer (ascii "/app") appCmd (ascii "report-status") pack rep dumpMoment bothBefore (bothBefore ++ [(dumpMoment, .ssh 0 (.data 0 pack))]) ∧
    Spec.reportLines false rep = some [ascii "unpack ok\n", ascii "ok refs/heads/master" ++ [0]] ∧
    (runBoth demoServer .empty (bothBefore ++ [(dumpMoment, .ssh 0 (.data 0 pack))])).web.db.refs =
      [{ repoPath := ascii "/app", refName := ascii "refs/heads/master" ++ [0], refGitId := appCmd.new }] ∧
    (serve demoServer m2 (runBoth demoServer .empty (bothBefore ++ [(dumpMoment, .ssh 0 (.data 0 pack))] ++ [])).web
      (Spec.fetchReq (ascii "/app" ++ []) (doneBody cloneLines (ascii "\n") []))).1 = .reply (.ok (.bytes out)) ∧
    Spec.readClone out = some file ∧ decodePack polyExt (fun _ => none) 1 file = .ok q ∧
    Spec.CheckedOut q.result.hashObject (idOf polyExt (.commit, appCommit.encode)) [ascii "src", ascii "a"] (ascii "100644") (ascii "one") := by
  obtain ⟨pack, hpack⟩ := app_packOf demoServer.D.fold (runBoth demoServer .empty bothBefore).web.db
  have hlen : appEntries.length = 5 := objectsAt_length polyExt 12 appObjects
  obtain ⟨rep0, hpush, _⟩ := C119_both_partial demoServer demoFold_hash (ascii "/app") bothBefore _ dumpMoment bothBefore_unique rfl dumpSql_schema appCmd appCmd_ok (ascii "report-status") (by decide)
    (by decide) (.inl rfl) appEntries pack hpack app_project app_roomy (by rw [hlen]; decide) (bothBefore_sent _ _)
  have objs := dump_objs hpack hpush
  rw [← List.append_nil (bothBefore ++ _)] at objs
  obtain ⟨m2, hm2⟩ : ∃ m2 : Moment, m2 = { demoMoment with fuel := (runBoth demoServer .empty (bothBefore ++ [(dumpMoment, .ssh 0 (.data 0 pack))] ++ [])).web.db.nodes.length } := ⟨_, rfl⟩
  have names : ∀ x ∈ bothBefore ++ [(dumpMoment, Visit.ssh 0 (.data 0 pack))] ++ [], x.1.sql.fold = demoFold ∧ ∀ a, x.2.repo = some a → a = ascii "/app" := by
    intro x hx
    rw [List.append_nil] at hx
    rcases List.mem_append.1 hx with hx | hx
    · exact bothBefore_names x hx
    · cases List.mem_singleton.1 hx
      exact ⟨rfl, fun _ e => nomatch e⟩
  obtain ⟨rep, out, r1, r2, r0, r3, _, file, f1, f2⟩ := C138_tables_partial demoServer demoFold_hash (ascii "/app") bothBefore _ [] dumpMoment m2 appCmd appCmd_ok (ascii "report-status") (by decide)
    (by decide) (.inl rfl) appEntries pack hpack appDepth app_git.1 app_git.2 ⟨_, .head _, rfl⟩ (bothBefore_sent _ _) dumpSql_schema app_gitRoomy (by decide) (by decide) (by rw [hlen]; decide)
    (fun x hx => (names x hx).1) (by rw [hm2]; rfl)
    (fun a ha b hb x y hx hy _ _ => by rw [(names a ha).2 x hx, (names b hb).2 y hy]) (app_unique objs) (app_fits objs) (by rw [hm2]) (by rw [hm2]; exact fun _ _ => .rfl)
    (by rw [hm2]; exact demoCut_ok) cloneLines (ascii "\n") [] cloneLines_ok
  obtain ⟨q, q1, q2⟩ := f2 (fun _ => none) 0
  have hside : decide (Capability.sideBand ∈ parseCapabilities (ascii "report-status") ∨ Capability.sideBand64k ∈ parseCapabilities (ascii "report-status")) = false := by
    decide +kernel
  rw [hside, show Spec.statusLine (appCmd.name ++ [0]) none = ascii "ok refs/heads/master" ++ [0] by decide] at r2
  refine ⟨m2, pack, rep, out, file, q, r1, r2, ?_, r3 [] app_clean_url (.inl rfl), f1, q1, (q2 _ (.head _) rfl _ _ _).1 ?_⟩
  · rw [r0 rfl, bothBefore_db]
    rfl
  show Spec.CheckedOut (Spec.found polyExt appEntries) (metaOf polyExt (.commit, appCommit.encode)).id _ _ _
  have find : ∀ m ∈ appObjects, Spec.found polyExt appEntries m.id = some m := fun m hm => (app_found _ _).2 ⟨hm, rfl⟩
  refine ⟨metaOf polyExt (.commit, appCommit.encode), appCommit, rfl, find _ (by simp [appObjects, appThin]), rfl, appCommit_decode, ?_⟩
  refine .dir (metaOf polyExt (.tree, encodeTree appItems)) appItems (dirItem "src" (idOf polyExt (.tree, encodeTree srcA))) _ _ _
    (find _ (by simp [appObjects, appThin])) rfl appItems_decode (by simp [appItems]) rfl ?_
  exact .file (metaOf polyExt (.tree, encodeTree srcA)) appBlob srcA (fileItem "a" (polyId .blob (ascii "one"))) (find _ (by simp [appObjects, appThin])) rfl srcA_decode
    (by simp [srcA]) (by decide) rfl (find _ (by simp [appObjects])) rfl

end Gust

import Verif.Props.Refined
import Verif.Props.AgainExamples
import Verif.Props.CutPackExamples
import Verif.Props.ServerBothExamples

/-! # C164: pushes for which the database does not move the branch

A push moves a branch with one UPDATE statement (storage.rs 515-526). These theorems are about pushes for which it fails. -/

namespace Gust
open Spec (InRepo commitsAt)

/-- An UPDATE statement that fails: nothing is changed, and the thread panics. -/
theorem refused_command {E : SqlExt} {c : Spec.PushCmd} (hold : c.old ≠ zeroId) (hnew : c.new ≠ zeroId) (hfail : ∀ n, E.acceptUpdate n c.new = false) (u : Bytes) (db : Db) :
    handleRefs E { RefCommand.new c.old c.new (c.name ++ [0]) with ok := true } u db = (.panic, db) := by
  have hk : ({ RefCommand.new c.old c.new (c.name ++ [0]) with ok := true } : RefCommand).commandType = .update := by
    simp only [RefCommand.new]
    rw [if_neg (fun h => hold h.symm), if_neg (fun h => hnew h.symm)]
  rcases C53_update_scope_partial E { RefCommand.new c.old c.new (c.name ++ [0]) with ok := true } u db hk with ⟨_, _, _, _, _, _, q⟩ | ⟨_, q⟩
  · have := updated_accepted hk q
    rw [show ({ RefCommand.new c.old c.new (c.name ++ [0]) with ok := true } : RefCommand).newId = c.new from rfl, hfail] at this
    cases this
  · exact q

/-- **C164 (partial)** After anything anybody has done on both servers, somebody pushes over HTTP or SSH to move a branch, with any pack, and the database does not carry out the UPDATE statement. Then the push is never
answered as a success, and all branches of all repositories are as before. (Missing from the full claim: what was sent is kept, see `C164_kept_false`.) -/
theorem C164_failed_partial (P : ServerExt) (u : Bytes) (h h' : BothHist) (m : Moment) (c : Spec.PushCmd) (hc : c.Ok) (hold : c.old ≠ zeroId) (hnew : c.new ≠ zeroId)
    (hfail : ∀ n, m.sql.acceptUpdate n c.new = false) (caps : Bytes) (hcaps : caps.length ≤ 4000) (hascii : ∀ x ∈ caps, x.toNat < 128) (pack : Bytes)
    (hmag : (ascii "PACK").isPrefixOf pack = true) (hsent : Spec.SentAny P u c caps pack m h h') :
    (∀ rep, ¬ Spec.PushedAny P u c caps pack rep m h h') ∧ (runBoth P .empty h').web.db.refs = (runBoth P .empty h).web.db.refs := by
  constructor
  · intro rep hp
    obtain ⟨st', e1, _, _⟩ := pushedAny_http hc hcaps hascii hp
    rw [push_answer _ u _ c hc caps hcaps hascii pack hmag] at e1
    obtain ⟨p, db1, _, _, k3, _⟩ := receiveData_ok rfl (Res.unwrap_eq_ok.1 e1)
    simp only at k3
    rw [refused_command hold hnew hfail] at k3
    cases (Prod.mk.inj k3).1
  · rw [sent_db hc hcaps hascii hmag hsent]
    simp only [receiveDataDb, List.getLast?_singleton, mysqlPush]
    cases decodePack P.X (getHashObject P.X m.sql (runBoth P .empty h).web.db) m.fuel pack with
    | ok p =>
      have k := savePackfile_refs m.sql m.fuel p u (runBoth P .empty h).web.db
      rcases hs : savePackfile m.sql m.fuel p u (runBoth P .empty h).web.db with ⟨r, db1⟩
      rw [hs] at k
      simp only [hs] at k ⊢
      cases r with
      | ok x => simp only [refused_command hold hnew hfail]; exact k
      | _ => exact k
    | _ => rfl

/-- **C164 (partial)** A complete project is pushed to move a branch, over HTTP or SSH after any history, and the database does not carry out the UPDATE statement. Then anybody does anything but push to this repository.
The client pushes the same again, over HTTP or SSH, and now the database works: the push is answered with `ok`, and the branches of the repository are those before the first push, with one of them
moved from the old id to the new one. (Missing from the full claim: what the first push has sent is kept, see `C164_kept_false`.) -/
theorem C164_again_partial (P : ServerExt) (hfold : ∀ a b : Hash, P.D.fold (Hash.toPlainStr a) = P.D.fold (Hash.toPlainStr b) → a = b)
    (u : Bytes) (h h' h2 h'' : BothHist) (m m2 : Moment) (c : Spec.PushCmd) (hc : c.Ok) (hold : c.old ≠ zeroId) (hnew : c.new ≠ zeroId)
    (hfail : ∀ n, m.sql.acceptUpdate n c.new = false) (caps caps2 : Bytes) (hcaps : caps.length ≤ 4000) (hascii : ∀ x ∈ caps, x.toNat < 128)
    (hcaps2 : caps2.length ≤ 4000) (hascii2 : ∀ x ∈ caps2, x.toNat < 128) (os : List (Nat × Spec.Obj)) (pack : Bytes)
    (hpack : Spec.PackOf P.X P.D.fold (runBoth P .empty h).web.db pack os) (hproj : Spec.Project P.X os) (hsent : Spec.SentAny P u c caps pack m h h')
    (hrow : ∃ r ∈ (runBoth P .empty h).web.db.refs, P.D.fold r.repoPath = P.D.fold u ∧ P.D.fold r.refGitId = P.D.fold c.old)
    (hno : Spec.NoPack P u (runBoth P .empty h') h2) (hf : Spec.SameFoldAny P.D.fold (h' ++ h2)) (hab : Spec.NoneAboveAny P.D.fold u (h' ++ h2))
    (hun : UniqueIds P.X (runBoth P .empty (h' ++ h2)).web.db) (hm2 : m2.sql.fold = P.D.fold) (hacc2 : Spec.Accepts m2.sql) (hfuel2 : os.length < m2.fuel)
    (hsent2 : Spec.SentAny P u c caps2 pack m2 (h' ++ h2) h'') :
    ∃ rep pre r post, Spec.PushedAny P u c caps2 pack rep m2 (h' ++ h2) h'' ∧
      Spec.reportLines (decide (.sideBand ∈ parseCapabilities caps2 ∨ .sideBand64k ∈ parseCapabilities caps2)) rep = some [ascii "unpack ok\n", Spec.statusLine (c.name ++ [0]) none] ∧
      Spec.refsAt P.D.fold (runBoth P .empty h).web.db.refs u = pre ++ r :: post ∧ P.D.fold r.refGitId = P.D.fold c.old ∧
      Spec.refsAt P.D.fold (runBoth P .empty h'').web.db.refs u = pre ++ { r with refGitId := c.new } :: post := by
  obtain ⟨v, e⟩ := sentAny_ends hsent
  have ext : Extends (runBoth P .empty h).web.db (runBoth P .empty (h' ++ h2)).web.db := by
    rw [e, List.append_assoc, runBoth_append]
    exact runBoth_extends P _ _
  have hpack2 := packOf_mono ext hpack
  obtain ⟨p, d1, _⟩ := packOf_read hfold (both_nodes P (h' ++ h2)) hun hm2 hpack2 (fuel := m2.fuel) (by omega)
  have hmag := decodePack_magic d1
  have k1 := (C164_failed_partial P u h h' m c hc hold hnew hfail caps hcaps hascii pack hmag hsent).2
  have k2 := (noPack_run h2 h' hno hf hab hun).2
  rw [k1] at k2
  have happ : Spec.Applies P.D.fold (runBoth P .empty (h' ++ h2)).web.db u c := by
    obtain ⟨r, r1, r2, r3⟩ := hrow
    have : r ∈ Spec.refsAt P.D.fold (runBoth P .empty (h' ++ h2)).web.db.refs u := by
      rw [k2]
      exact refsAt_mem.2 ⟨r1, r2⟩
    exact .inr ⟨hnew, r, (refsAt_mem.1 this).1, r2, r3⟩
  obtain ⟨rep, a1, a2⟩ := C111_both_partial P hfold u (h' ++ h2) h'' m2 hun hm2 hacc2 c hc caps2 hcaps2 hascii2 happ os pack hpack2 hproj hfuel2 hsent2
  rcases pushedAny_refs hc hnew hcaps2 hascii2 hmag a1 hm2 hacc2.refs with ⟨ho, _⟩ | ⟨_, pre, r, post, e1, e2, e3, e4⟩
  · exact absurd ho hold
  · have cut : ∀ x : RefRow, P.D.fold x.repoPath = P.D.fold u → Spec.refsAt P.D.fold (pre ++ x :: post) u = Spec.refsAt P.D.fold pre u ++ x :: Spec.refsAt P.D.fold post u := fun x hx => by
      rw [refsAt_append, show x :: post = [x] ++ post from rfl, refsAt_append]
      simp [Spec.refsAt, hx]
    refine ⟨rep, Spec.refsAt P.D.fold pre u, r, Spec.refsAt P.D.fold post u, a1, a2, ?_, e3, ?_⟩
    · rw [← k2, e1, cut r e2]
    · rw [e4, cut _ (by exact e2)]

/-- **C164 is false** for what was sent: after any history a complete project is pushed to move a branch, over HTTP or SSH, and the database carries out every INSERT statement of the push, but not the UPDATE statement.
The push gets no answer, and all branches are as before. But whatever anybody does afterwards (`h2`), every clone of the repository, over HTTP and over SSH, is answered and has every commit of the project, and everything these refer to. -/
theorem C164_kept_false (P : ServerExt) (hfold : ∀ a b : Hash, P.D.fold (Hash.toPlainStr a) = P.D.fold (Hash.toPlainStr b) → a = b)
    (u : Bytes) (h h' h2 : BothHist) (m : Moment) (hf : Spec.SameFoldAny P.D.fold (h' ++ h2)) (hab : Spec.NoneAboveAny P.D.fold u (h' ++ h2))
    (hun : UniqueIds P.X (runBoth P .empty (h' ++ h2)).web.db) (hfit : FitsPack P.X (runBoth P .empty (h' ++ h2)).web.db)
    (hnodes : ∀ n rows, m.sql.acceptNodes n rows = true) (hcommits : ∀ n rows, m.sql.acceptCommits n rows = true)
    (c : Spec.PushCmd) (hc : c.Ok) (hold : c.old ≠ zeroId) (hnew : c.new ≠ zeroId) (hfail : ∀ n, m.sql.acceptUpdate n c.new = false)
    (caps : Bytes) (hcaps : caps.length ≤ 4000) (hascii : ∀ x ∈ caps, x.toNat < 128)
    (os : List (Nat × Spec.Obj)) (pack : Bytes) (hpack : Spec.PackOf P.X P.D.fold (runBoth P .empty h).web.db pack os) (hproj : Spec.Project P.X os)
    (hcommit : ∃ p ∈ os, p.2.1 = .commit) (hfuel : os.length < m.fuel) (hsent : Spec.SentAny P u c caps pack m h h')
    (m2 : Moment) (hm2 : m2.sql.fold = P.D.fold) (hfuel2 : (runBoth P .empty (h' ++ h2)).web.db.nodes.length ≤ m2.fuel) (hord : ∀ l x, x ∈ m2.ord l ↔ x ∈ l) (hcut : Spec.CutOk m2.cut)
    (ls : List Spec.ReqLine) (t rest : Bytes) (hr : Spec.CloneReq ls t) :
    Spec.LostAny P u c caps pack m h h' ∧ (runBoth P .empty h').web.db.refs = (runBoth P .empty h).web.db.refs ∧
      ∃ out file ms, (∀ g, Spec.CleanUrl u → (g = [] ∨ g = ascii ".git") →
          (serve P m2 (runBoth P .empty (h' ++ h2)).web (Spec.fetchReq (u ++ g) (doneBody ls t rest))).1 = .reply (.ok (.bytes out))) ∧
        (∀ i ch, Spec.Opened P u i (h' ++ h2) → (sshStep P.X m2 (runBoth P .empty (h' ++ h2)).ssh i (.data ch (doneBody ls t rest))).1 = [(ch, out)]) ∧
        Spec.readClone out = some file ∧ PackHas P.X file ms ∧
        ∀ o ∈ os, o.2.1 = .commit ∨ Spec.PackReach (Spec.found P.X os) (idOf P.X o.2) → metaOf P.X o.2 ∈ ms := by
  obtain ⟨v, rfl⟩ := sentAny_ends hsent
  have sub' : ∀ x ∈ h ++ [(m, v)], x ∈ h ++ [(m, v)] ++ h2 := fun x hx => List.mem_append_left _ hx
  have sub : ∀ x ∈ h, x ∈ h ++ [(m, v)] ++ h2 := fun x hx => sub' x (List.mem_append_left _ hx)
  have ext' : Extends (runBoth P .empty (h ++ [(m, v)])).web.db (runBoth P .empty (h ++ [(m, v)] ++ h2)).web.db := by
    rw [runBoth_append P .empty (h ++ [(m, v)])]
    exact runBoth_extends P _ _
  have ext : Extends (runBoth P .empty h).web.db (runBoth P .empty (h ++ [(m, v)])).web.db := by
    rw [runBoth_append]
    exact runBoth_extends P _ _
  have hun' := ext'.unique hun
  have hm : m.sql.fold = P.D.fold := hf (m, v) (sub' _ (by simp))
  obtain ⟨p, d1, d2⟩ := packOf_read hfold (both_nodes P h) (ext.unique hun') hm hpack (fuel := m.fuel) (by omega)
  obtain ⟨db1, d3, d4⟩ := project_saved hpack.ids hproj d1 d2 hfuel hnodes u (runBoth P .empty h).web.db
  have k := refused_command hold hnew hfail u db1
  have hdb : (runBoth P .empty (h ++ [(m, v)])).web.db = db1 := by
    rw [sent_db hc hcaps hascii (decodePack_magic d1) hsent]
    simp only [receiveDataDb, List.getLast?_singleton, mysqlPush, d1, d3, k]
  refine ⟨sent_lost hc hcaps hascii hsent (.inl ?_), by rw [hdb]; exact d4, ?_⟩
  · rw [push_answer _ u _ c hc caps hcaps hascii pack (decodePack_magic d1)]
    unfold receiveData
    simp only [List.getLast?_singleton, mysqlPush, d1, d3, k]
    rfl
  have hrun := (runBoth_inv P u h (sameFoldAny_sub sub hf) (noneAboveAny_sub sub hab)).2.2
  rw [← hm] at hrun
  rw [← hdb] at d3
  have kept : ∀ o ∈ os, o.2.1 = .commit ∨ Spec.PackReach (Spec.found P.X os) (idOf P.X o.2) → InRepo P.D.fold (runBoth P .empty (h ++ [(m, v)] ++ h2)).web.db u o.2 := fun o ho hr => by
    have e := (push_inRepo hrun m.sql rfl hcommits m.fuel pack p d1 d3 hun' o.2).2 (.inr ⟨metaOf P.X o.2, by
      rw [d2]; exact (found_iff hpack.ids _ _).2 ⟨o, ho, rfl, rfl⟩, rfl, hr.imp_right (fun h => by rw [d2]; exact h)⟩)
    rw [hm] at e
    exact inRepo_mono ext' e
  have hne : commitsAt P.D.fold (runBoth P .empty (h ++ [(m, v)] ++ h2)).web.db.commits u ≠ [] := by
    obtain ⟨o, o1, o2⟩ := hcommit
    have hx := kept o o1 (.inl o2)
    generalize o.2 = x at hx
    intro e
    cases hx with
    | commit r hr => rw [e] at hr; cases hr
    | node r _ _ _ hr => rw [e] at hr; cases hr
  have hend := (runBoth_inv P u _ hf hab).2.2
  have inv := storeRun_inv hend hun
  have hdeep : ∀ r ∈ commitsAt P.D.fold (runBoth P .empty (h ++ [(m, v)] ++ h2)).web.db.commits u, ∀ c, Commit.decode r.data = .ok c →
      Spec.NestedWithin (runBoth P .empty (h ++ [(m, v)] ++ h2)).web.db.nodes m2.fuel c.treeId := fun _ hr' _ hc => inv.nested hr' hc hfuel2
  have hend' := hend
  have hfold' := hfold
  rw [← hm2] at hend' hfold' hdeep hne
  obtain ⟨_, _, c1, _⟩ := C49_clone_partial P.X m2.sql u _ hend' hun hfold' hfit m2.fuel hdeep hne
  obtain ⟨out, ho⟩ := httpUploadPack_ok (St := mysqlFetch P.X m2.sql m2.fuel (runBoth P .empty (h ++ [(m, v)] ++ h2)).web.db u) (cut := m2.cut) (rest := rest) hord hr c1
  obtain ⟨file, f1, f2⟩ := httpUploadPack_clone hord hcut hr ho
  obtain ⟨ms, w1, w2⟩ := clone_has hend hun hfold hfit hm2 f1
  refine ⟨out, file, ms, fun g hg1 hg2 => ?_, fun i ch hop => ?_, f2, w1, fun o ho hr => (w2 _).2 ⟨o.2, kept o ho hr, rfl⟩⟩
  · simp only [serve, Spec.fetchReq, route_fetch hg1 hg2, ho, Res.outcome]
  · rw [opened_sent hop (fun l x => (hord l x).1), ho]
    refine if_neg ?_
    intro e
    have e : out = [] := e
    rw [e] at f2
    cases f2

/-! ## An example -/

/-- Somebody creates `master` of `/app` at a commit, without sending it. -/
def planHist : BothHist := [(roomMoment, .http (Spec.pushReq (ascii "/app" ++ []) (Spec.pushBody srcCmd [] (ascii "report-status") noObjects)))]

theorem plan_db : (runBoth demoServer .empty planHist).web.db = { Db.empty with refs := [⟨ascii "/app", srcCmd.name ++ [0], srcCmd.new⟩], inserts := 1 } := by decide +kernel

/-- Then `master` is to be moved to the commit of the five objects, but the database does not carry out UPDATE statements at that moment. -/
def nextCmd : Spec.PushCmd := { old := srcCmd.new, new := appCmd.new, name := ascii "refs/heads/master" }

theorem nextCmd_ok : nextCmd.Ok := by
  refine ⟨by decide +kernel, by decide +kernel, by decide +kernel, by decide +kernel, by decide, by decide, by decide⟩

def brokenMoment : Moment := { roomMoment with sql := { demoSql with acceptUpdate := fun _ _ => false } }

def nextPush (pack : Bytes) : HttpReq := Spec.pushReq (ascii "/app" ++ []) (Spec.pushBody nextCmd [] (ascii "report-status") pack)
def brokenHist (pack : Bytes) : BothHist := planHist ++ [(brokenMoment, .http (nextPush pack))]

theorem broken_sent (pack : Bytes) : Spec.SentAny demoServer (ascii "/app") nextCmd (ascii "report-status") pack brokenMoment planHist (brokenHist pack) :=
  .http planHist [] app_clean_url (.inl rfl)

theorem broken_names (pack : Bytes) : ∀ x ∈ brokenHist pack ++ [], x.1.sql.fold = demoFold ∧ ∀ a, x.2.repo = some a → a = ascii "/app" := by
  intro x hx
  rw [List.append_nil] at hx
  simp only [brokenHist, planHist, List.cons_append, List.nil_append, List.mem_cons, List.not_mem_nil, or_false] at hx
  rcases hx with rfl | rfl <;> refine ⟨rfl, fun a e => ?_⟩ <;>
    simp only [Visit.repo, HttpReq.repo, nextPush, Spec.pushReq, route_push app_clean_url (.inl rfl)] at e <;> exact (Option.some.inj e).symm

theorem plan_unique : UniqueIds polyExt (runBoth demoServer .empty planHist).web.db := by
  rw [plan_db]
  intro a b ha
  rcases ha with ⟨n, hn, _⟩ | ⟨n, hn, _⟩ <;> cases hn

/-- The five objects are all that is stored then. -/
theorem broken_objs {pack : Bytes} (hpack : Spec.PackOf polyExt demoFold (runBoth demoServer .empty planHist).web.db pack appEntries) :
    ∀ o, StoredObj (runBoth demoServer .empty (brokenHist pack ++ [])).web.db o → metaOf polyExt o ∈ appObjects := by
  have hlen : appEntries.length = 5 := objectsAt_length polyExt 12 appObjects
  obtain ⟨p, d1, d2⟩ := packOf_read demoFold_hash (both_nodes demoServer planHist) plan_unique (E := brokenMoment.sql) rfl hpack (fuel := brokenMoment.fuel) (by decide)
  obtain ⟨db1, d3, _⟩ := project_saved (E := brokenMoment.sql) (fuel := brokenMoment.fuel) hpack.ids app_project d1 d2 (by rw [hlen]; decide) (fun _ _ => rfl) (ascii "/app") (runBoth demoServer .empty planHist).web.db
  have k := refused_command (E := brokenMoment.sql) (c := nextCmd) (by decide +kernel) (by decide +kernel) (fun _ => rfl) (ascii "/app") db1
  have hdb : (runBoth demoServer .empty (brokenHist pack)).web.db = db1 := by
    rw [sent_db nextCmd_ok (by decide) (by decide) (decodePack_magic d1) (broken_sent pack)]
    have d1 : decodePack demoServer.X (getHashObject demoServer.X brokenMoment.sql (runBoth demoServer .empty planHist).web.db) brokenMoment.fuel pack = .ok p := d1
    simp only [receiveDataDb, List.getLast?_singleton, mysqlPush, d1, d3, k]
  rw [List.append_nil, hdb]
  intro o ho
  obtain ⟨rows, k1, k2, _, k4⟩ := push_effect d1 brokenMoment.sql brokenMoment.fuel (ascii "/app") (runBoth demoServer .empty planHist).web.db
  have e : (savePackfile brokenMoment.sql brokenMoment.fuel p (ascii "/app") (runBoth demoServer .empty planHist).web.db).2 = db1 := congrArg Prod.snd d3
  rw [e] at k1 k4
  have hf : ∀ h m, p.result.hashObject h = some m → m ∈ appObjects := fun h m hm => by
    rw [d2] at hm
    exact ((app_found _ _).1 hm).1
  rcases ho with ⟨n, hn, rfl⟩ | ⟨r, hr, rfl⟩
  · rw [k1, plan_db] at hn
    obtain ⟨m, hm, e, _⟩ := k2 n hn
    exact e ▸ hf _ _ hm
  · rcases k4 r hr with h | ⟨_, _, m, c, hm, ht, hd, _⟩
    · rw [plan_db] at h
      cases h
    · have hmem := hf _ _ hm
      have := (metaOf_of_new (appObjects_new m hmem)).2
      rw [hd, ← ht, this]
      exact hmem

/-- C164: while the database does not carry out UPDATE statements, the push is not answered, and `master` stays where it is; the same push later is answered with `ok` and moves `master`. -/
example : ∃ pack rep, (∀ out, (serve demoServer brokenMoment (runBoth demoServer .empty planHist).web (nextPush pack)).1 ≠ .reply (.ok (.bytes out))) ∧
    (runBoth demoServer .empty (brokenHist pack)).web.db.refs = [⟨ascii "/app", srcCmd.name ++ [0], srcCmd.new⟩] ∧
    (serve demoServer roomMoment (runBoth demoServer .empty (brokenHist pack)).web (nextPush pack)).1 = .reply (.ok (.bytes rep)) ∧
    Spec.reportLines false rep = some [ascii "unpack ok\n", ascii "ok refs/heads/master" ++ [0]] ∧
    Spec.refsAt demoFold (runBoth demoServer .empty (brokenHist pack ++ [(roomMoment, .http (nextPush pack))])).web.db.refs (ascii "/app") = [⟨ascii "/app", srcCmd.name ++ [0], appCmd.new⟩] := by
  obtain ⟨pack, hpack⟩ := app_packOf demoFold (runBoth demoServer .empty planHist).web.db
  have hlen : appEntries.length = 5 := objectsAt_length polyExt 12 appObjects
  have objs := broken_objs hpack
  have names := broken_names pack
  have hacc : Spec.Accepts roomMoment.sql := ⟨fun _ _ => rfl, fun _ _ => rfl, fun _ _ => rfl, fun _ _ => rfl⟩
  obtain ⟨p, d1, _⟩ := packOf_read demoFold_hash (both_nodes demoServer planHist) plan_unique (E := brokenMoment.sql) rfl hpack (fuel := brokenMoment.fuel) (by decide)
  obtain ⟨f1, f2⟩ := C164_failed_partial demoServer (ascii "/app") planHist (brokenHist pack) brokenMoment nextCmd nextCmd_ok (by decide +kernel) (by decide +kernel) (fun _ => rfl) (ascii "report-status")
    (by decide) (by decide) pack (decodePack_magic d1) (broken_sent pack)
  obtain ⟨rep, pre, r, post, a1, a2, a3, a4, a5⟩ := C164_again_partial demoServer demoFold_hash (ascii "/app") planHist (brokenHist pack) [] (brokenHist pack ++ [] ++ [(roomMoment, .http (nextPush pack))])
    brokenMoment roomMoment nextCmd nextCmd_ok (by decide +kernel) (by decide +kernel) (fun _ => rfl) (ascii "report-status") (ascii "report-status") (by decide) (by decide) (by decide) (by decide) appEntries pack
    hpack app_project (broken_sent pack) ⟨_, by rw [plan_db]; exact .head _, rfl, rfl⟩ trivial (fun x hx => (names x hx).1)
    (fun a ha b hb x y hx hy _ _ => by rw [(names a ha).2 x hx, (names b hb).2 y hy]) (app_unique objs) rfl hacc (by rw [hlen]; decide) (.http _ [] app_clean_url (.inl rfl))
  refine ⟨pack, rep, fun out e => f1 out (.http planHist [] app_clean_url (.inl rfl) e), by rw [f2, plan_db], ?_, ?_, ?_⟩
  · have := pushed_serve a1 (r := nextPush pack) rfl
    rw [List.append_nil] at this
    exact this
  · rw [show decide (Capability.sideBand ∈ parseCapabilities (ascii "report-status") ∨ Capability.sideBand64k ∈ parseCapabilities (ascii "report-status")) = false by decide +kernel] at a2
    exact a2
  · rw [List.append_nil] at a5
    have a3 : Spec.refsAt demoFold (runBoth demoServer .empty planHist).web.db.refs (ascii "/app") = pre ++ r :: post := a3
    rw [show Spec.refsAt demoFold (runBoth demoServer .empty planHist).web.db.refs (ascii "/app") = [⟨ascii "/app", srcCmd.name ++ [0], srcCmd.new⟩] by rw [plan_db]; decide +kernel] at a3
    rcases pre with _ | ⟨x, pre⟩
    · obtain ⟨rfl, rfl⟩ := List.cons.inj a3
      exact a5
    · have := congrArg List.length a3
      simp at this

/-- C164 is false: before it is pushed again, `master` is where it was, but a clone has all five objects. -/
example : ∃ (pack : Bytes) (m2 : Moment) (out file : Bytes) (ms : List MetaData),
    ((serve demoServer brokenMoment (runBoth demoServer .empty planHist).web (nextPush pack)).1 = .reply .panic ∨
      (serve demoServer brokenMoment (runBoth demoServer .empty planHist).web (nextPush pack)).1 = .hang) ∧
    (runBoth demoServer .empty (brokenHist pack)).web.db.refs = [⟨ascii "/app", srcCmd.name ++ [0], srcCmd.new⟩] ∧
    (serve demoServer m2 (runBoth demoServer .empty (brokenHist pack)).web (Spec.fetchReq (ascii "/app" ++ []) (doneBody cloneLines (ascii "\n") []))).1 = .reply (.ok (.bytes out)) ∧
    Spec.readClone out = some file ∧ PackHas polyExt file ms ∧ metaOf polyExt (.commit, appCommit.encode) ∈ ms := by
  obtain ⟨pack, hpack⟩ := app_packOf demoFold (runBoth demoServer .empty planHist).web.db
  have hlen : appEntries.length = 5 := objectsAt_length polyExt 12 appObjects
  have objs := broken_objs hpack
  have names := broken_names pack
  obtain ⟨m2, hm2⟩ : ∃ m2 : Moment, m2 = { demoMoment with fuel := (runBoth demoServer .empty (brokenHist pack ++ [])).web.db.nodes.length } := ⟨_, rfl⟩
  obtain ⟨q, hq, e⟩ : ∃ q ∈ appEntries, q.2 = (.commit, appCommit.encode) := ⟨_, .head _, rfl⟩
  obtain ⟨k1, k2, out, file, ms, k3, _, k4, k5, k6⟩ := C164_kept_false demoServer demoFold_hash (ascii "/app") planHist (brokenHist pack) [] brokenMoment (fun x hx => (names x hx).1)
    (fun a ha b hb x y hx hy _ _ => by rw [(names a ha).2 x hx, (names b hb).2 y hy]) (app_unique objs) (app_fits objs) (fun _ _ => rfl) (fun _ _ => rfl) nextCmd nextCmd_ok (by decide +kernel)
    (by decide +kernel) (fun _ => rfl) (ascii "report-status") (by decide) (by decide) appEntries pack hpack app_project ⟨q, hq, by rw [e]⟩ (by rw [hlen]; decide) (broken_sent pack) m2 (by rw [hm2]; rfl)
    (by rw [hm2]) (by rw [hm2]; exact fun _ _ => .rfl) (by rw [hm2]; exact demoCut_ok) cloneLines (ascii "\n") [] cloneLines_ok
  have k3 := k3 [] app_clean_url (.inl rfl)
  rw [List.append_nil] at k3
  have k6 := k6 q hq (.inl (by rw [e]))
  rw [e] at k6
  exact ⟨pack, m2, out, file, ms, lost_serve k1 rfl, by rw [k2, plan_db], k3, k4, k5, k6⟩

end Gust

import Verif.Props.UpdateFails
import Verif.Props.CopiedTables

/-! # C165: pushes for which the database does not store all files

The files and directories of a push are inserted with several statements, before its commits and its ref (storage.rs 89-100 and 551-579); the first one that fails ends the push. -/

namespace Gust
open Spec (InRepo commitsAt)

/-- Saving a pack that could be saved if the database took all files: it is saved, or the thread panics before commits are stored. -/
theorem saved_or_not {E : SqlExt} {fuel : Nat} {p : Pack} {u : Bytes} {db : Db} (h : ∃ db', savePackfile { E with acceptNodes := fun _ _ => true } fuel p u db = (.ok (), db')) :
    ∃ db1, savePackfile E fuel p u db = (.ok (), db1) ∨ savePackfile E fuel p u db = (.panic, db1) ∧ db1.commits = db.commits := by
  obtain ⟨db', h⟩ := h
  unfold savePackfile at h ⊢
  have hpool : ({ E with acceptNodes := fun _ _ => true } : SqlExt).pool p.result = E.pool p.result := rfl
  rw [hpool] at h
  cases hp : E.pool p.result with
  | ok m =>
    rw [hp] at h
    simp only at h ⊢
    cases hb : buildNodeTree fuel m with
    | ok rows =>
      simp only
      obtain ⟨_, _, _, _, k, _, k2, _, k4⟩ := C51_batches_partial E rows db
      rcases hs : saveNodes E rows db with ⟨r, db1⟩
      rw [hs] at k2 k4
      rcases k4 with ⟨k4, _⟩ | ⟨k4, _⟩ <;> simp only at k2 k4 <;> subst k4
      · exact ⟨_, .inl rfl⟩
      · exact ⟨db1, .inr ⟨rfl, k2⟩⟩
    | _ => rw [hb] at h; cases (Prod.mk.inj h).1
  | _ => rw [hp] at h; cases (Prod.mk.inj h).1

theorem stored_congr {db db' : Db} (hn : db'.nodes = db.nodes) (hc : db'.commits = db.commits) {o : Spec.Obj} (h : StoredObj db o) : StoredObj db' o :=
  h.imp (fun ⟨n, h1, h2⟩ => ⟨n, by rw [hn]; exact h1, h2⟩) (fun ⟨n, h1, h2⟩ => ⟨n, by rw [hc]; exact h1, h2⟩)

/-- **C165 (partial)** After anything anybody has done on both servers, a complete project is pushed over HTTP or SSH, to create or to move a branch. The database may refuse any of the statements that store its files and
directories; the other statements it takes. Then either the push is answered with `ok`, and every commit of it belongs to the repository, with all that it refers to, and a branch of it has the new value; or it gets no answer, all branches of all repositories are as before, and so is what belongs to any repository `w`.
(Missing from the full claim: repositories `w` inside others.) -/
theorem C165_all_or_nothing_partial (P : ServerExt) (hfold : ∀ a b : Hash, P.D.fold (Hash.toPlainStr a) = P.D.fold (Hash.toPlainStr b) → a = b)
    (u : Bytes) (h h' : BothHist) (m : Moment) (hf : Spec.SameFoldAny P.D.fold h') (hun : UniqueIds P.X (runBoth P .empty h').web.db)
    (hcommits : ∀ n rows, m.sql.acceptCommits n rows = true) (hrefs : ∀ n rows, m.sql.acceptRefs n rows = true) (hups : ∀ n id, m.sql.acceptUpdate n id = true)
    (c : Spec.PushCmd) (hc : c.Ok) (hnew : c.new ≠ zeroId) (caps : Bytes) (hcaps : caps.length ≤ 4000) (hascii : ∀ x ∈ caps, x.toNat < 128) (happ : Spec.Applies P.D.fold (runBoth P .empty h).web.db u c)
    (os : List (Nat × Spec.Obj)) (pack : Bytes) (hpack : Spec.PackOf P.X P.D.fold (runBoth P .empty h).web.db pack os) (hproj : Spec.Project P.X os)
    (hfuel : os.length < m.fuel) (hsent : Spec.SentAny P u c caps pack m h h') :
    (∃ rep, Spec.PushedAny P u c caps pack rep m h h' ∧
      Spec.reportLines (decide (.sideBand ∈ parseCapabilities caps ∨ .sideBand64k ∈ parseCapabilities caps)) rep = some [ascii "unpack ok\n", Spec.statusLine (c.name ++ [0]) none] ∧
      (Spec.NoneAboveAny P.D.fold u h' → ∀ o ∈ os, o.2.1 = .commit ∨ Spec.PackReach (Spec.found P.X os) (idOf P.X o.2) → Spec.InRepo P.D.fold (runBoth P .empty h').web.db u o.2) ∧
      ∃ r ∈ (runBoth P .empty h').web.db.refs, P.D.fold r.repoPath = P.D.fold u ∧ r.refGitId = c.new) ∨
    Spec.LostAny P u c caps pack m h h' ∧ (runBoth P .empty h').web.db.refs = (runBoth P .empty h).web.db.refs ∧
      ∀ w, Spec.NoneAboveAny P.D.fold w h' → ∀ o, Spec.InRepo P.D.fold (runBoth P .empty h').web.db w o ↔ Spec.InRepo P.D.fold (runBoth P .empty h).web.db w o := by
  obtain ⟨v, e⟩ := sentAny_ends hsent
  have sub : ∀ x ∈ h, x ∈ h' := fun x hx => by rw [e]; exact List.mem_append_left _ hx
  have ext : Extends (runBoth P .empty h).web.db (runBoth P .empty h').web.db := by
    rw [e, runBoth_append]
    exact runBoth_extends P _ _
  have hm : m.sql.fold = P.D.fold := hf (m, v) (by rw [e]; simp)
  obtain ⟨p, d1, d2⟩ := packOf_read hfold (both_nodes P h) (ext.unique hun) hm hpack (fuel := m.fuel) (by omega)
  obtain ⟨db0, s0, _⟩ := project_saved (E := { m.sql with acceptNodes := fun _ _ => true }) hpack.ids hproj d1 d2 hfuel (fun _ _ => rfl) u (runBoth P .empty h).web.db
  have hr := savePackfile_refs m.sql m.fuel p u (runBoth P .empty h).web.db
  obtain ⟨db1, s | ⟨s, sc⟩⟩ := saved_or_not ⟨db0, s0⟩
  · left
    rw [s] at hr
    obtain ⟨db2, k⟩ := handleRefs_applies (E := m.sql) (by rw [hm]; exact happ) (fun n => hups n _) db1 hr
    obtain ⟨rep, st', r1, _, r2⟩ := (C70_report_partial (mysqlPush P.X m.sql m.fuel) u _ db1 c hc caps hcaps hascii pack (decodePack_magic d1) p d1).1 db2 s k
    have hp := sent_pushed hc hcaps hascii hsent r1 (report_ne r2)
    refine ⟨rep, hp, r2, fun hab o ho hr => ?_, ?_⟩
    rotate_left
    · rcases pushedAny_refs hc hnew hcaps hascii (decodePack_magic d1) hp hm hrefs with ⟨_, e⟩ | ⟨_, pre, r, post, _, e2, _, e4⟩
      · exact ⟨⟨u, c.name ++ [0], c.new⟩, by rw [e]; simp, rfl, rfl⟩
      · exact ⟨{ r with refGitId := c.new }, by rw [e4]; simp, e2, rfl⟩
    obtain ⟨st2, e1, e2, _⟩ := pushedAny_http hc hcaps hascii hp
    rw [push_answer _ u _ c hc caps hcaps hascii pack (decodePack_magic d1)] at e1
    obtain ⟨p', db', h1, h2, h3, _⟩ := receiveData_ok rfl (Res.unwrap_eq_ok.1 e1)
    obtain rfl : p' = p := Res.ok.inj (h1.symm.trans d1)
    simp only at h2 h3
    obtain ⟨g1, g2⟩ := handleRefs_only m.sql { RefCommand.new c.old c.new (c.name ++ [0]) with ok := true } u db'
    rw [h3] at g1 g2
    rw [e2] at hun ⊢
    have hrun := (runBoth_inv P u h (sameFoldAny_sub sub hf) (noneAboveAny_sub sub hab)).2.2
    rw [← hm] at hrun
    have hun1 : UniqueIds P.X db' := fun a b ha hb => hun a b (stored_congr g1 g2 ha) (stored_congr g1 g2 hb)
    have k := (push_inRepo hrun m.sql rfl hcommits m.fuel pack p' d1 h2 hun1 o.2).2 (.inr ⟨metaOf P.X o.2, by
      rw [d2]; exact (found_iff hpack.ids _ _).2 ⟨o, ho, rfl, rfl⟩, rfl, hr.imp_right (fun h => by rw [d2]; exact h)⟩)
    rw [hm] at k
    exact (inRepo_congr g1 g2).2 k
  · right
    rw [s] at hr
    have hdb : (runBoth P .empty h').web.db = db1 := by
      rw [sent_db hc hcaps hascii (decodePack_magic d1) hsent]
      simp only [receiveDataDb, List.getLast?_singleton, mysqlPush, d1, s]
    refine ⟨sent_lost hc hcaps hascii hsent (.inl ?_), by rw [hdb]; exact hr, fun w hab o => ?_⟩
    · rw [push_answer _ u _ c hc caps hcaps hascii pack (decodePack_magic d1)]
      unfold receiveData
      simp only [List.getLast?_singleton, mysqlPush, d1, s]
      rfl
    · refine inRepo_same (runBoth_inv P w h (sameFoldAny_sub sub hf) (noneAboveAny_sub sub hab)).2.2 (runBoth_inv P w h' hf hab).2.2 ext hun (fun r hr => ?_) o
      rw [hdb, sc] at hr
      exact hr

/-- **C165 (partial)** In the second case, that is when such a push is not answered, clones of any repository `w` that are answered, over HTTP or SSH, have the same objects right before and right after the push.
(Missing from the full claim: repositories `w` inside others.) -/
theorem C165_clones_partial (P : ServerExt) (hfold : ∀ a b : Hash, P.D.fold (Hash.toPlainStr a) = P.D.fold (Hash.toPlainStr b) → a = b)
    (u : Bytes) (h h' : BothHist) (m : Moment) (hf : Spec.SameFoldAny P.D.fold h') (hun : UniqueIds P.X (runBoth P .empty h').web.db) (hfit : FitsPack P.X (runBoth P .empty h').web.db)
    (hcommits : ∀ n rows, m.sql.acceptCommits n rows = true) (hrefs : ∀ n rows, m.sql.acceptRefs n rows = true) (hups : ∀ n id, m.sql.acceptUpdate n id = true)
    (c : Spec.PushCmd) (hc : c.Ok) (hnew : c.new ≠ zeroId) (caps : Bytes) (hcaps : caps.length ≤ 4000) (hascii : ∀ x ∈ caps, x.toNat < 128) (happ : Spec.Applies P.D.fold (runBoth P .empty h).web.db u c)
    (os : List (Nat × Spec.Obj)) (pack : Bytes) (hpack : Spec.PackOf P.X P.D.fold (runBoth P .empty h).web.db pack os) (hproj : Spec.Project P.X os)
    (hfuel : os.length < m.fuel) (hsent : Spec.SentAny P u c caps pack m h h') (hlost : ∀ rep, ¬ Spec.PushedAny P u c caps pack rep m h h')
    (w : Bytes) (hab : Spec.NoneAboveAny P.D.fold w h') (m2 m3 : Moment) (ls ls' : List Spec.ReqLine) (t rest t' rest' out out' : Bytes) (hm2 : m2.sql.fold = P.D.fold) (hm3 : m3.sql.fold = P.D.fold)
    (hord2 : ∀ l x, x ∈ m2.ord l ↔ x ∈ l) (hcut2 : Spec.CutOk m2.cut) (hord3 : ∀ l x, x ∈ m3.ord l ↔ x ∈ l) (hcut3 : Spec.CutOk m3.cut) (hr : Spec.CloneReq ls t) (hr' : Spec.CloneReq ls' t')
    (hfe : Spec.FetchedAny P w (doneBody ls t rest) out m2 h) (hfe' : Spec.FetchedAny P w (doneBody ls' t' rest') out' m3 h') :
    ∃ file file' ms ms', Spec.readClone out = some file ∧ Spec.readClone out' = some file' ∧ PackHas P.X file ms ∧ PackHas P.X file' ms' ∧ ∀ x, x ∈ ms ↔ x ∈ ms' := by
  rcases C165_all_or_nothing_partial P hfold u h h' m hf hun hcommits hrefs hups c hc hnew caps hcaps hascii happ os pack hpack hproj hfuel hsent with ⟨rep, hp, _⟩ | ⟨_, _, hin⟩
  · exact absurd hp (hlost rep)
  · obtain ⟨v, e⟩ := sentAny_ends hsent
    have sub : ∀ x ∈ h, x ∈ h' := fun x hx => by rw [e]; exact List.mem_append_left _ hx
    have ext : Extends (runBoth P .empty h).web.db (runBoth P .empty h').web.db := by
      rw [e, runBoth_append]
      exact runBoth_extends P _ _
    obtain ⟨file, f1, f2⟩ := httpUploadPack_clone hord2 hcut2 hr (fetchedAny_http (fun l x => (hord2 l x).1) hfe)
    obtain ⟨file', f1', f2'⟩ := httpUploadPack_clone hord3 hcut3 hr' (fetchedAny_http (fun l x => (hord3 l x).1) hfe')
    obtain ⟨ms, w1, w2⟩ := clone_has (runBoth_inv P w h (sameFoldAny_sub sub hf) (noneAboveAny_sub sub hab)).2.2 (ext.unique hun) hfold (FitsPack.mono ext hfit) hm2 f1
    obtain ⟨ms', w1', w2'⟩ := clone_has (runBoth_inv P w h' hf hab).2.2 hun hfold hfit hm3 f1'
    refine ⟨file, file', ms, ms', f2, f2', w1, w1', fun x => ?_⟩
    rw [w2, w2']
    simp only [hin w hab]

/-- **C165 (partial)** When such a push is not answered, and then anybody does anything but push to this repository, the same push made again over HTTP or SSH is answered with `ok`, if the database works now.
(Missing from the full claim: repositories inside others.) -/
theorem C165_again_partial (P : ServerExt) (hfold : ∀ a b : Hash, P.D.fold (Hash.toPlainStr a) = P.D.fold (Hash.toPlainStr b) → a = b)
    (u : Bytes) (h h' h2 h'' : BothHist) (m m2 : Moment) (hf : Spec.SameFoldAny P.D.fold (h' ++ h2)) (hab : Spec.NoneAboveAny P.D.fold u (h' ++ h2))
    (hun : UniqueIds P.X (runBoth P .empty (h' ++ h2)).web.db)
    (hcommits : ∀ n rows, m.sql.acceptCommits n rows = true) (hrefs : ∀ n rows, m.sql.acceptRefs n rows = true) (hups : ∀ n id, m.sql.acceptUpdate n id = true)
    (c : Spec.PushCmd) (hc : c.Ok) (hnew : c.new ≠ zeroId) (caps caps2 : Bytes) (hcaps : caps.length ≤ 4000) (hascii : ∀ x ∈ caps, x.toNat < 128) (hcaps2 : caps2.length ≤ 4000) (hascii2 : ∀ x ∈ caps2, x.toNat < 128)
    (happ : Spec.Applies P.D.fold (runBoth P .empty h).web.db u c)
    (os : List (Nat × Spec.Obj)) (pack : Bytes) (hpack : Spec.PackOf P.X P.D.fold (runBoth P .empty h).web.db pack os) (hproj : Spec.Project P.X os)
    (hfuel : os.length < m.fuel) (hsent : Spec.SentAny P u c caps pack m h h') (hlost : ∀ rep, ¬ Spec.PushedAny P u c caps pack rep m h h')
    (hno : Spec.NoPack P u (runBoth P .empty h') h2) (hm2 : m2.sql.fold = P.D.fold) (hacc2 : Spec.Accepts m2.sql) (hfuel2 : os.length < m2.fuel)
    (hsent2 : Spec.SentAny P u c caps2 pack m2 (h' ++ h2) h'') :
    ∃ rep, Spec.PushedAny P u c caps2 pack rep m2 (h' ++ h2) h'' ∧
      Spec.reportLines (decide (.sideBand ∈ parseCapabilities caps2 ∨ .sideBand64k ∈ parseCapabilities caps2)) rep = some [ascii "unpack ok\n", Spec.statusLine (c.name ++ [0]) none] := by
  obtain ⟨v, e⟩ := sentAny_ends hsent
  have ext' : Extends (runBoth P .empty h').web.db (runBoth P .empty (h' ++ h2)).web.db := by
    rw [runBoth_append P .empty h']
    exact runBoth_extends P _ _
  have ext : Extends (runBoth P .empty h).web.db (runBoth P .empty (h' ++ h2)).web.db := by
    rw [e, List.append_assoc, runBoth_append]
    exact runBoth_extends P _ _
  rcases C165_all_or_nothing_partial P hfold u h h' m (fun x hx => hf x (List.mem_append_left _ hx)) (ext'.unique hun) hcommits hrefs hups c hc hnew caps hcaps hascii happ os pack hpack hproj hfuel hsent
    with ⟨rep, hp, _⟩ | ⟨_, k1, _⟩
  · exact absurd hp (hlost rep)
  · have k2 := (noPack_run h2 h' hno hf hab hun).2
    rw [k1] at k2
    have happ2 : Spec.Applies P.D.fold (runBoth P .empty (h' ++ h2)).web.db u c := by
      rcases happ with happ | ⟨hn, r, r1, r2, r3⟩
      · exact .inl happ
      · have : r ∈ Spec.refsAt P.D.fold (runBoth P .empty (h' ++ h2)).web.db.refs u := by
          rw [k2]
          exact refsAt_mem.2 ⟨r1, r2⟩
        exact .inr ⟨hn, r, (refsAt_mem.1 this).1, r2, r3⟩
    exact C111_both_partial P hfold u (h' ++ h2) h'' m2 hun hm2 hacc2 c hc caps2 hcaps2 hascii2 happ2 os pack (packOf_mono ext hpack) hproj hfuel2 hsent2

/-! ## An example -/

/-- A moment at which the table of files takes nothing. -/
def fullMoment : Moment := { roomMoment with sql := { demoSql with acceptNodes := fun _ _ => false } }
def fullHist (pack : Bytes) : BothHist := planHist ++ [(fullMoment, .http (nextPush pack))]

theorem full_sent (pack : Bytes) : Spec.SentAny demoServer (ascii "/app") nextCmd (ascii "report-status") pack fullMoment planHist (fullHist pack) :=
  .http planHist [] app_clean_url (.inl rfl)

theorem full_names (pack : Bytes) : ∀ x ∈ fullHist pack, x.1.sql.fold = demoFold ∧ ∀ a, x.2.repo = some a → a = ascii "/app" := by
  intro x hx
  simp only [fullHist, planHist, List.cons_append, List.nil_append, List.mem_cons, List.not_mem_nil, or_false] at hx
  rcases hx with rfl | rfl <;> refine ⟨rfl, fun a e => ?_⟩ <;>
    simp only [Visit.repo, HttpReq.repo, nextPush, Spec.pushReq, route_push app_clean_url (.inl rfl)] at e <;> exact (Option.some.inj e).symm

theorem savePackfile_refused {E : SqlExt} (h : ∀ n rows, E.acceptNodes n rows = false) (fuel : Nat) (p : Pack) (u : Bytes) (db : Db) : (savePackfile E fuel p u db).2.nodes = db.nodes := by
  have key : ∀ rows, (saveNodes E rows db).2.nodes = db.nodes := fun rows => by
    unfold saveNodes
    cases nodeBatches 0 [] rows with
    | nil => rfl
    | cons b bs => rw [insertNodes, h]; rfl
  unfold savePackfile
  split
  · split
    · rename_i rows _
      have k := key rows
      split <;> rename_i e <;> rw [e] at k
      · rw [(saveCommits_eq ..).1]
        exact k
      · exact k
      · exact k
    · rfl
    · rfl
  · rfl
  · rfl

/-- No file is stored, and nothing else but the five objects. -/
theorem full_objs {pack : Bytes} (hpack : Spec.PackOf polyExt demoFold (runBoth demoServer .empty planHist).web.db pack appEntries) :
    (runBoth demoServer .empty (fullHist pack)).web.db.nodes = [] ∧ ∀ o, StoredObj (runBoth demoServer .empty (fullHist pack)).web.db o → metaOf polyExt o ∈ appObjects := by
  obtain ⟨p, d1, d2⟩ := packOf_read demoFold_hash (both_nodes demoServer planHist) plan_unique (E := fullMoment.sql) rfl hpack (fuel := fullMoment.fuel) (by decide)
  obtain ⟨g1, g2⟩ : (runBoth demoServer .empty (fullHist pack)).web.db.nodes = (savePackfile fullMoment.sql fullMoment.fuel p (ascii "/app") (runBoth demoServer .empty planHist).web.db).2.nodes ∧
      (runBoth demoServer .empty (fullHist pack)).web.db.commits = (savePackfile fullMoment.sql fullMoment.fuel p (ascii "/app") (runBoth demoServer .empty planHist).web.db).2.commits := by
    rw [sent_db nextCmd_ok (by decide) (by decide) (decodePack_magic d1) (full_sent pack)]
    have d1 : decodePack demoServer.X (getHashObject demoServer.X fullMoment.sql (runBoth demoServer .empty planHist).web.db) fullMoment.fuel pack = .ok p := d1
    simp only [receiveDataDb, List.getLast?_singleton, mysqlPush, d1]
    rcases savePackfile fullMoment.sql fullMoment.fuel p (ascii "/app") (runBoth demoServer .empty planHist).web.db with ⟨r, db1⟩
    cases r with
    | ok x => exact handleRefs_only ..
    | _ => exact ⟨rfl, rfl⟩
  have h0 : (runBoth demoServer .empty (fullHist pack)).web.db.nodes = [] := by
    rw [g1, savePackfile_refused (fun _ _ => rfl), plan_db]
    rfl
  refine ⟨h0, fun o ho => ?_⟩
  obtain ⟨rows, _, _, _, k4⟩ := push_effect d1 fullMoment.sql fullMoment.fuel (ascii "/app") (runBoth demoServer .empty planHist).web.db
  rcases ho with ⟨n, hn, rfl⟩ | ⟨r, hr, rfl⟩
  · rw [h0] at hn
    cases hn
  · rw [g2] at hr
    rcases k4 r hr with h | ⟨_, _, m, c, hm, ht, hd, _⟩
    · rw [plan_db] at h
      cases h
    · rw [d2] at hm
      have hmem := ((app_found _ _).1 hm).1
      have := (metaOf_of_new (appObjects_new m hmem)).2
      rw [hd, ← ht, this]
      exact hmem

/-- C165: the table of files takes nothing, and `master` is to be moved to a commit with files. The push is not answered, `master` stays where it is, and nothing belongs to the repository;
the same push is answered with `ok` when the database works again. -/
example : ∃ pack rep, ((serve demoServer fullMoment (runBoth demoServer .empty planHist).web (nextPush pack)).1 = .reply .panic ∨
      (serve demoServer fullMoment (runBoth demoServer .empty planHist).web (nextPush pack)).1 = .hang) ∧
    (runBoth demoServer .empty (fullHist pack)).web.db.refs = [⟨ascii "/app", srcCmd.name ++ [0], srcCmd.new⟩] ∧
    (∀ o, ¬ Spec.InRepo demoFold (runBoth demoServer .empty (fullHist pack)).web.db (ascii "/app") o) ∧
    (serve demoServer roomMoment (runBoth demoServer .empty (fullHist pack)).web (nextPush pack)).1 = .reply (.ok (.bytes rep)) ∧
    Spec.reportLines false rep = some [ascii "unpack ok\n", ascii "ok refs/heads/master" ++ [0]] := by
  obtain ⟨pack, hpack⟩ := app_packOf demoFold (runBoth demoServer .empty planHist).web.db
  have hlen : appEntries.length = 5 := objectsAt_length polyExt 12 appObjects
  obtain ⟨h0, objs⟩ := full_objs hpack
  have names := full_names pack
  have hacc : Spec.Accepts roomMoment.sql := ⟨fun _ _ => rfl, fun _ _ => rfl, fun _ _ => rfl, fun _ _ => rfl⟩
  have hab : Spec.NoneAboveAny demoFold (ascii "/app") (fullHist pack) := fun a ha b hb x y hx hy _ _ => by rw [(names a ha).2 x hx, (names b hb).2 y hy]
  have happ : Spec.Applies demoFold (runBoth demoServer .empty planHist).web.db (ascii "/app") nextCmd := .inr ⟨by decide +kernel, _, by rw [plan_db]; exact .head _, rfl, rfl⟩
  rcases C165_all_or_nothing_partial demoServer demoFold_hash (ascii "/app") planHist (fullHist pack) fullMoment (fun x hx => (names x hx).1) (app_unique objs) (fun _ _ => rfl) (fun _ _ => rfl)
    (fun _ _ => rfl) nextCmd nextCmd_ok (by decide +kernel) (ascii "report-status") (by decide) (by decide) happ appEntries pack hpack app_project (by rw [hlen]; decide) (full_sent pack)
    with ⟨_, _, _, k, _⟩ | ⟨k1, k2, k3⟩
  · obtain ⟨q, hq, e⟩ : ∃ q ∈ appEntries, q.2 = (.tree, encodeTree appItems) := ⟨_, .tail _ (.head _), rfl⟩
    have := k hab q hq (by rw [e]; exact (app_all_given (metaOf polyExt (.tree, encodeTree appItems)) (by simp [appObjects, appThin])).2)
    rw [e] at this
    generalize hx : ((.tree, encodeTree appItems) : Spec.Obj) = x at this
    cases this with
    | commit r hr => exact absurd (congrArg Prod.fst hx) (by simp)
    | node r c h n _ _ _ hn _ =>
      have hn : n ∈ (runBoth demoServer .empty (fullHist pack)).web.db.nodes := hn
      rw [h0] at hn
      cases hn
  · have hlost : ∀ rep, ¬ Spec.PushedAny demoServer (ascii "/app") nextCmd (ascii "report-status") pack rep fullMoment planHist (fullHist pack) := fun rep hp => by
      obtain ⟨p, d1, _⟩ := packOf_read demoFold_hash (both_nodes demoServer planHist) plan_unique (E := fullMoment.sql) rfl hpack (fuel := fullMoment.fuel) (by decide)
      rcases pushedAny_refs nextCmd_ok (by decide +kernel) (by decide) (by decide) (decodePack_magic d1) hp rfl (fun _ _ => rfl) with ⟨e, _⟩ | ⟨_, pre, r, post, e1, _, e3, e4⟩
      · exact absurd e (by decide +kernel)
      · rw [k2, e1] at e4
        have e5 := congrArg RefRow.refGitId (List.cons.inj (List.append_cancel_left e4)).1
        rw [show r.refGitId = nextCmd.new from e5] at e3
        exact absurd e3 (by decide +kernel)
    obtain ⟨rep, a1, a2⟩ := C165_again_partial demoServer demoFold_hash (ascii "/app") planHist (fullHist pack) [] (fullHist pack ++ [] ++ [(roomMoment, .http (nextPush pack))]) fullMoment roomMoment
      (by rw [List.append_nil]; exact fun x hx => (names x hx).1) (by rw [List.append_nil]; exact hab) (by rw [List.append_nil]; exact app_unique objs) (fun _ _ => rfl) (fun _ _ => rfl) (fun _ _ => rfl)
      nextCmd nextCmd_ok (by decide +kernel) (ascii "report-status") (ascii "report-status") (by decide) (by decide) (by decide) (by decide) happ appEntries pack hpack app_project (by rw [hlen]; decide)
      (full_sent pack) hlost trivial rfl hacc (by rw [hlen]; decide) (.http _ [] app_clean_url (.inl rfl))
    refine ⟨pack, rep, lost_serve k1 rfl, by rw [k2, plan_db], fun o ho => ?_, ?_, ?_⟩
    · have := inRepo_stored ((k3 _ hab o).1 ho)
      rw [plan_db] at this
      rcases this with ⟨n, hn, _⟩ | ⟨r, hr, _⟩
      · cases hn
      · cases hr
    · have := pushed_serve a1 (r := nextPush pack) rfl
      rw [List.append_nil] at this
      exact this
    · rw [show decide (Capability.sideBand ∈ parseCapabilities (ascii "report-status") ∨ Capability.sideBand64k ∈ parseCapabilities (ascii "report-status")) = false by decide +kernel] at a2
      exact a2

end Gust

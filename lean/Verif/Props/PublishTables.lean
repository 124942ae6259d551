import Verif.Props.PublishBothExamples

/-! # C111: publishing with the tables of the dump -/

namespace Gust

open Spec (commitsAt)

/-- The same database without limits on commits. -/
def SqlExt.anyCommit (E : SqlExt) : SqlExt := { E with acceptCommits := fun _ _ => true }

theorem insertCommits_any {E : SqlExt} : ∀ (bs : List (List CommitRow)) (db : Db), (∀ b ∈ bs, ∀ n, E.acceptCommits n b = true) →
    insertCommits E.anyCommit bs db = insertCommits E bs db
  | [], _, _ => rfl
  | b :: bs, db, h => by
    have hb := h b (by simp) db.inserts
    simp only [insertCommits, hb]
    exact insertCommits_any bs _ (fun b' hb' => h b' (by simp [hb']))

/-- A pack whose commits fit is stored as by a database without limits on commits. -/
theorem savePackfile_fits {E : SqlExt} (hE : Spec.SchemaOnly E) {X : Ext} {St : ObjectSource} {file : Bytes} {fuel0 : Nat} {p : Pack} (hdec : decodePack X St fuel0 file = .ok p)
    {u : Bytes} (hpath : chars u ≤ 128) (hsmall : ∀ o, p.result.hashObject o.id = some o → o.t = .commit → o.data.length ≤ 65535) (fuel : Nat) (db : Db) :
    savePackfile E.anyCommit fuel p u db = savePackfile E fuel p u db := by
  have nodes : ∀ bs db, insertNodes E.anyCommit bs db = insertNodes E bs db := by
    intro bs
    induction bs with
    | nil => exact fun _ => rfl
    | cons b bs ih =>
      intro db
      rw [insertNodes, insertNodes]
      simp only [ih]
      rfl
  unfold savePackfile
  rw [show E.anyCommit.pool p.result = E.pool p.result from rfl]
  cases hp : E.pool p.result with
  | ok D =>
    have hH : D.Holds p.result := C36_each_object_once hdec (by have := E.pool_outcome p.result; rwa [hp] at this)
    have commits : ∀ db, saveCommits E.anyCommit D.commits u db = saveCommits E D.commits u db := by
      intro db
      rw [saveCommits, saveCommits, insertCommits_any]
      intro b hb n
      have hsub := chunks_sub _ _ b hb
      refine hE.commits_ok n b (chunks_nonempty (by simp) _ _ b hb) ?_
      intro r hr
      obtain ⟨co, hm, rfl⟩ := List.mem_map.1 (hsub r hr)
      obtain ⟨k1, k2⟩ := (hH.commits _).1 (List.mem_map_of_mem hm)
      have := hsmall _ k2 k1
      have a1 := hexId_chars (Hash.toPlainStr_length co.base.id)
      have a2 := hexId_chars (Hash.toPlainStr_length co.commit.treeId)
      simp only [CommitRow.fits, CommitObj.row, Bool.and_eq_true, decide_eq_true_eq]
      exact ⟨⟨⟨decide_eq_true a1, decide_eq_true a2⟩, decide_eq_true this⟩, decide_eq_true hpath⟩
    simp only [saveNodes, nodes, commits]
  | _ => rfl

/-- So is the push. -/
theorem push_fits {E : SqlExt} (hE : Spec.SchemaOnly E) {X : Ext} {u : Bytes} (hpath : chars u ≤ 128) {c : Spec.PushCmd} (hc : c.Ok) {caps : Bytes} (hcaps : caps.length ≤ 4000)
    (hascii : ∀ x ∈ caps, x.toNat < 128) {fuel : Nat} {db : Db} {pack : Bytes} {p : Pack} (hdec : decodePack X (getHashObject X E db) fuel pack = .ok p)
    (hsmall : ∀ o, p.result.hashObject o.id = some o → o.t = .commit → o.data.length ≤ 65535) :
    httpReceivePack (mysqlPush X E.anyCommit fuel) { caps := [], commands := [], path := u, db := db } (Spec.pushBody c [] caps pack) =
      httpReceivePack (mysqlPush X E fuel) { caps := [], commands := [], path := u, db := db } (Spec.pushBody c [] caps pack) := by
  rw [push_answer _ u _ c hc caps hcaps hascii pack (decodePack_magic hdec), push_answer _ u _ c hc caps hcaps hascii pack (decodePack_magic hdec)]
  unfold receiveData
  simp only [List.getLast?_singleton, mysqlPush]
  rw [show decodePack X (getHashObject X E.anyCommit db) fuel pack = decodePack X (getHashObject X E db) fuel pack from rfl, hdec]
  simp only [savePackfile_fits hE hdec hpath hsmall]
  rfl

/-- **C111 (partial)** Publishing works with the tables of the dump, over HTTP and SSH: after anything anybody has done, push a complete project with at least one commit over either, to create a ref whose name has at
most 31 characters or to update one, in a repository whose path has at most 64; its files are smaller than 16 MiB, its directory listings smaller than 10 MiB, its commits at most 65535 bytes long, and names of files and
directories have at most 128 characters. The push is answered with `ok`, and a ref it creates is stored. Let anybody do anything over both, pushes to the same repository included. Then every clone request, over HTTP and on every SSH
session that is open for the repository, is answered with the same bytes; they can be read, and whoever checks out one of the commits finds exactly the files of the project. (Missing from the full claim: as for
`C111_both_published_partial`; what does not fit the columns, see C117, C118, C119.) -/
theorem C111_tables_partial (P : ServerExt) (hfold : ∀ a b : Hash, P.D.fold (Hash.toPlainStr a) = P.D.fold (Hash.toPlainStr b) → a = b)
    (u : Bytes) (h h' h2 : BothHist) (m1 m2 : Moment)
    (c : Spec.PushCmd) (hc : c.Ok) (caps : Bytes) (hcaps : caps.length ≤ 4000) (hascii : ∀ x ∈ caps, x.toNat < 128)
    (happ : Spec.Applies P.D.fold (runBoth P .empty h).web.db u c)
    (os : List (Nat × Spec.Obj)) (pack : Bytes) (hpack : Spec.PackOf P.X P.D.fold (runBoth P .empty h).web.db pack os) (hproj : Spec.Project P.X os)
    (hcommit : ∃ p ∈ os, p.2.1 = .commit) (hsent : Spec.SentAny P u c caps pack m1 h h')
    (hE : Spec.SchemaOnly m1.sql) (hroom : Spec.Roomy (Spec.found P.X os)) (hsmall : ∀ p ∈ os, p.2.1 = .commit → p.2.2.length ≤ 65535)
    (hname : c.name.length ≤ 31) (hpath : chars u ≤ 64) (hfuel1 : os.length < m1.fuel)
    (hfl : Spec.SameFoldAny P.D.fold (h' ++ h2)) (hm2 : m2.sql.fold = P.D.fold) (hab : Spec.NoneAboveAny P.D.fold u (h' ++ h2))
    (hun : UniqueIds P.X (runBoth P .empty (h' ++ h2)).web.db) (hfit : FitsPack P.X (runBoth P .empty (h' ++ h2)).web.db)
    (hfuel2 : (runBoth P .empty (h' ++ h2)).web.db.nodes.length ≤ m2.fuel)
    (hord : ∀ l x, x ∈ m2.ord l ↔ x ∈ l) (hcut : Spec.CutOk m2.cut) (ls : List Spec.ReqLine) (t rest : Bytes) (hr : Spec.CloneReq ls t) :
    ∃ rep out, Spec.PushedAny P u c caps pack rep m1 h h' ∧
      Spec.reportLines (decide (.sideBand ∈ parseCapabilities caps ∨ .sideBand64k ∈ parseCapabilities caps)) rep =
        some [ascii "unpack ok\n", Spec.statusLine (c.name ++ [0]) none] ∧
      (c.old = zeroId → (runBoth P .empty h').web.db.refs = (runBoth P .empty h).web.db.refs ++ [{ repoPath := u, refName := c.name ++ [0], refGitId := c.new }]) ∧
      (∀ g, Spec.CleanUrl u → (g = [] ∨ g = ascii ".git") →
        (serve P m2 (runBoth P .empty (h' ++ h2)).web (Spec.fetchReq (u ++ g) (doneBody ls t rest))).1 = .reply (.ok (.bytes out))) ∧
      (∀ i ch, Spec.Opened P u i (h' ++ h2) → (sshStep P.X m2 (runBoth P .empty (h' ++ h2)).ssh i (.data ch (doneBody ls t rest))).1 = [(ch, out)]) ∧
      ∃ file, Spec.readClone out = some file ∧
        ∀ St fuel, ∃ q, decodePack P.X St (fuel + 1) file = .ok q ∧ ∀ p ∈ os, p.2.1 = .commit →
          ∀ path mode data, Spec.CheckedOut (Spec.found P.X os) (idOf P.X p.2) path mode data ↔ Spec.CheckedOut q.result.hashObject (idOf P.X p.2) path mode data := by
  obtain ⟨v, hv⟩ : ∃ v, h' = h ++ [(m1, v)] := by
    cases hsent <;> exact ⟨_, rfl⟩
  have hm1 : m1.sql.fold = P.D.fold := hfl (m1, v) (by rw [hv]; simp)
  have ext0 : Extends (runBoth P .empty h).web.db (runBoth P .empty (h' ++ h2)).web.db := by
    rw [hv, List.append_assoc, runBoth_append]
    exact runBoth_extends P _ _
  obtain ⟨rep, r1, r2⟩ := C119_both_partial P hfold u h _ m1 (ext0.unique hun) hm1 hE c hc caps hcaps hascii happ os pack hpack hproj hroom hfuel1 hsent
  obtain ⟨p, d1, d2⟩ := packOf_read hfold (both_nodes P h) (ext0.unique hun) hm1 hpack (fuel := m1.fuel) (by omega)
  have hmem : ∀ o ∈ os, p.result.hashObject (metaOf P.X o.2).id = some (metaOf P.X o.2) := fun o ho => by
    rw [d2]
    exact (found_iff hpack.ids _ _).2 ⟨o, ho, rfl, rfl⟩
  have hcs : ∀ o, p.result.hashObject o.id = some o → o.t = .commit → o.data.length ≤ 65535 := by
    intro o ho ht
    rw [d2] at ho
    obtain ⟨q, hq, e2, _⟩ := (found_iff hpack.ids _ _).1 ho
    rw [← e2] at ht ⊢
    exact hsmall q hq ht
  have hmagic := decodePack_magic d1
  obtain ⟨st', e1, e2, _⟩ := pushedAny_http hc hcaps hascii r1
  rw [← push_fits hE (by omega) hc hcaps hascii d1 hcs] at e1
  have hsub : ∀ x ∈ h, x ∈ h' ++ h2 := fun x hx => by rw [hv]; simp [hx]
  have hrun := (runBoth_inv P u h (fun p hp => hfl p (hsub p hp)) (fun p hp q hq => hab p (hsub p hp) q (hsub q hq))).2.2
  have hend := (runBoth_inv P u _ hfl hab).2.2
  have ext := runBoth_extends P h2 (runBoth P .empty h')
  rw [← runBoth_append, e2] at ext
  obtain ⟨p', d1', i2, i3⟩ := pushed_inRepo (m := { m1 with sql := m1.sql.anyCommit }) hc hcaps hascii hmagic hrun hm1 (fun _ _ => rfl) e1 ext hun
  have d1'' : decodePack P.X (getHashObject P.X m1.sql (runBoth P .empty h).web.db) m1.fuel pack = .ok p' := d1'
  rw [d1] at d1''
  cases d1''
  have hne : commitsAt P.D.fold (runBoth P .empty (h' ++ h2)).web.db.commits u ≠ [] := by
    obtain ⟨o, ho, et⟩ := hcommit
    obtain ⟨x, hx, _⟩ := i2 _ (hmem o ho) (.inl et)
    intro e
    cases hx with
    | commit r hr => rw [e] at hr; cases hr
    | node r _ _ _ hr => rw [e] at hr; cases hr
  have inv := storeRun_inv hend hun
  have hdeep : ∀ r ∈ commitsAt P.D.fold (runBoth P .empty (h' ++ h2)).web.db.commits u, ∀ c, Commit.decode r.data = .ok c →
      Spec.NestedWithin (runBoth P .empty (h' ++ h2)).web.db.nodes m2.fuel c.treeId := fun _ hr' _ hc => inv.nested hr' hc hfuel2
  have hend' := hend
  have hfold' := hfold
  rw [← hm2] at hend' hfold' hdeep hne
  obtain ⟨file, _, c1, _⟩ := C49_clone_partial P.X m2.sql u _ hend' hun hfold' hfit m2.fuel hdeep hne
  obtain ⟨out, ho⟩ := httpUploadPack_ok (St := mysqlFetch P.X m2.sql m2.fuel (runBoth P .empty (h' ++ h2)).web.db u) (cut := m2.cut) (rest := rest) hord hr c1
  obtain ⟨file', f1, f2⟩ := httpUploadPack_clone hord hcut hr ho
  obtain ⟨ms, k1, k2⟩ := clone_has hend hun hfold hfit hm2 f1
  refine ⟨rep, out, r1, r2, fun h0 => C117_created_partial P u c hc h0 caps hcaps hascii pack rep hmagic m1 hE h h' r1 hname hpath, fun g hu hg => ?_, fun i ch hop => ?_,
    file', f2, fun St fuel => ?_⟩
  · simp only [serve, Spec.fetchReq, route_fetch hu hg, ho, Res.outcome]
  · rw [opened_sent hop (fun l x => (hord l x).1), ho]
    refine if_neg ?_
    intro e
    have e : out = [] := e
    rw [e] at f2
    cases f2
  · obtain ⟨q, q1, _, q2⟩ := k1.2 St fuel
    refine ⟨q, q1, fun o ho et path mode data => ?_⟩
    have := CheckedOut.same (fun x hx hf => (q2 _ _).2 ⟨(k2 x).2 (i2 x hf hx), rfl⟩) i3 (hmem o ho) et path mode data
    rw [d2] at this
    exact this

/-- What is stored after the push of the example repository, with the tables of the dump. -/
theorem dump_objs {pack rep : Bytes} {h' : BothHist} (hpack : Spec.PackOf polyExt demoFold (runBoth demoServer .empty bothBefore).web.db pack appEntries)
    (hp : Spec.PushedAny demoServer (ascii "/app") appCmd (ascii "report-status") pack rep dumpMoment bothBefore h') :
    ∀ o, StoredObj (runBoth demoServer .empty h').web.db o → metaOf polyExt o ∈ appObjects := by
  obtain ⟨p, d1, d2⟩ := packOf_read demoFold_hash (both_nodes demoServer bothBefore) bothBefore_unique (E := dumpSql) rfl hpack (fuel := 6) (by decide)
  obtain ⟨st', e1, e2, _⟩ := pushedAny_http appCmd_ok (by decide) (by decide) hp
  rw [bothBefore_db] at e1 d1
  rw [e2]
  obtain ⟨p', db1, q1, q2, q3, q4, _⟩ := push_run (path := ascii "/app") .empty appCmd_ok (by decide) (by decide) (decodePack_magic d1) e1
  have : p' = p := Res.ok.inj (q1.symm.trans d1)
  subst this
  intro o ho
  apply app_stored_objs d1 (fun h m => by rw [d2]; exact app_found h m) dumpMoment.sql dumpMoment.fuel (ascii "/app") o
  have q2 : (savePackfile dumpMoment.sql dumpMoment.fuel p' (ascii "/app") Db.empty).2 = db1 := by rw [q2]
  rw [q2]
  rcases ho with ⟨n, hn, e⟩ | ⟨n, hn, e⟩
  · exact .inl ⟨n, by rw [← q3]; exact hn, e⟩
  · exact .inr ⟨n, by rw [← q4]; exact hn, e⟩

/-- C111 with the tables of the dump: connection 0 publishes the five objects to `/app` over SSH; the push is answered with `ok`, the ref is stored, and a clone over HTTP is answered; the file `src/a` is there. -/
example : ∃ (m2 : Moment) (pack rep out file : Bytes) (q : Pack),
    Spec.PushedAny demoServer (ascii "/app") appCmd (ascii "report-status") pack rep dumpMoment bothBefore (bothBefore ++ [(dumpMoment, .ssh 0 (.data 0 pack))]) ∧
    Spec.reportLines false rep = some [ascii "unpack ok\n", ascii "ok refs/heads/master" ++ [0]] ∧
    (runBoth demoServer .empty (bothBefore ++ [(dumpMoment, .ssh 0 (.data 0 pack))])).web.db.refs =
      [{ repoPath := ascii "/app", refName := ascii "refs/heads/master" ++ [0], refGitId := appCmd.new }] ∧
    (serve demoServer m2 (runBoth demoServer .empty (bothBefore ++ [(dumpMoment, .ssh 0 (.data 0 pack))] ++ [])).web
      (Spec.fetchReq (ascii "/app" ++ []) (doneBody cloneLines (ascii "\n") []))).1 = .reply (.ok (.bytes out)) ∧
    Spec.readClone out = some file ∧ decodePack polyExt (fun _ => none) 1 file = .ok q ∧
    Spec.CheckedOut q.result.hashObject (idOf polyExt (.commit, appCommit.encode)) [ascii "src", ascii "a"] (ascii "100644") (ascii "one") := by
  obtain ⟨pack, hpack⟩ := app_packOf demoServer.D.fold (runBoth demoServer .empty bothBefore).web.db
  have hlen : appEntries.length = 5 := objectsAt_length polyExt 12 appObjects
  obtain ⟨rep0, hpush, _⟩ := C119_both_partial demoServer demoFold_hash (ascii "/app") bothBefore _ dumpMoment bothBefore_unique rfl dumpSql_schema appCmd appCmd_ok (ascii "report-status") (by decide)
    (by decide) (.inl rfl) appEntries pack hpack app_project app_roomy (by rw [hlen]; decide) (bothBefore_sent _ _)
  have objs := dump_objs hpack hpush
  rw [← List.append_nil (bothBefore ++ _)] at objs
  obtain ⟨m2, hm2⟩ : ∃ m2 : Moment, m2 = { demoMoment with fuel := (runBoth demoServer .empty (bothBefore ++ [(dumpMoment, .ssh 0 (.data 0 pack))] ++ [])).web.db.nodes.length } := ⟨_, rfl⟩
  have names : ∀ x ∈ bothBefore ++ [(dumpMoment, Visit.ssh 0 (.data 0 pack))] ++ [], x.1.sql.fold = demoFold ∧ ∀ a, x.2.repo = some a → a = ascii "/app" := by
    intro x hx
    rw [List.append_nil] at hx
    rcases List.mem_append.1 hx with hx | hx
    · exact bothBefore_names x hx
    · cases List.mem_singleton.1 hx
      exact ⟨rfl, fun _ e => nomatch e⟩
  have hsmall : ∀ p ∈ appEntries, p.2.1 = .commit → p.2.2.length ≤ 65535 := fun p hp _ => by
    have : ∀ p ∈ appEntries, p.2.2.length ≤ 65535 := by decide +kernel
    exact this p hp
  obtain ⟨rep, out, r1, r2, r0, r3, _, file, f1, f2⟩ := C111_tables_partial demoServer demoFold_hash (ascii "/app") bothBefore _ [] dumpMoment m2 appCmd appCmd_ok (ascii "report-status") (by decide)
    (by decide) (.inl rfl) appEntries pack hpack app_project ⟨_, .head _, rfl⟩ (bothBefore_sent _ _) dumpSql_schema app_roomy hsmall (by decide) (by decide) (by rw [hlen]; decide)
    (fun x hx => (names x hx).1) (by rw [hm2]; rfl)
    (fun a ha b hb x y hx hy _ _ => by rw [(names a ha).2 x hx, (names b hb).2 y hy]) (app_unique objs) (app_fits objs) (by rw [hm2]) (by rw [hm2]; exact fun _ _ => .rfl)
    (by rw [hm2]; exact demoCut_ok) cloneLines (ascii "\n") [] cloneLines_ok
  obtain ⟨q, q1, q2⟩ := f2 (fun _ => none) 0
  have hside : decide (Capability.sideBand ∈ parseCapabilities (ascii "report-status") ∨ Capability.sideBand64k ∈ parseCapabilities (ascii "report-status")) = false := by
    decide +kernel
  rw [hside, show Spec.statusLine (appCmd.name ++ [0]) none = ascii "ok refs/heads/master" ++ [0] by decide] at r2
  refine ⟨m2, pack, rep, out, file, q, r1, r2, ?_, r3 [] app_clean_url (.inl rfl), f1, q1, (q2 _ (.head _) rfl _ _ _).1 ?_⟩
  · rw [r0 rfl, bothBefore_db]
    rfl
  show Spec.CheckedOut (Spec.found polyExt appEntries) (metaOf polyExt (.commit, appCommit.encode)).id _ _ _
  have find : ∀ m ∈ appObjects, Spec.found polyExt appEntries m.id = some m := fun m hm => (app_found _ _).2 ⟨hm, rfl⟩
  refine ⟨metaOf polyExt (.commit, appCommit.encode), appCommit, rfl, find _ (by simp [appObjects, appThin]), rfl, appCommit_decode, ?_⟩
  refine .dir (metaOf polyExt (.tree, encodeTree appItems)) appItems (dirItem "src" (idOf polyExt (.tree, encodeTree srcA))) _ _ _
    (find _ (by simp [appObjects, appThin])) rfl appItems_decode (by simp [appItems]) rfl ?_
  exact .file (metaOf polyExt (.tree, encodeTree srcA)) appBlob srcA (fileItem "a" (polyId .blob (ascii "one"))) (find _ (by simp [appObjects, appThin])) rfl srcA_decode
    (by simp [srcA]) (by decide) rfl (find _ (by simp [appObjects])) rfl

end Gust

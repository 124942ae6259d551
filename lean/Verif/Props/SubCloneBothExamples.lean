import Verif.Props.SubCloneBoth
import Verif.Props.SubCloneExamples
import Verif.Props.BothExamples
import Verif.Props.NestingBothExamples

/-! # C110 for the two servers on a concrete run -/

namespace Gust

open Spec (nodeObj StoreReach commitsAt InRepo)

theorem ask_src_repo : Visit.repo (.ssh 1 (askFor .uploadPack 0 (ascii "/app/src"))) = some (ascii "/app/src") := by decide +kernel

/-- The push of the example repository over SSH leaves the same database as the one over HTTP. -/
theorem both_same_db {pack rep : Bytes} (hpush : (serve demoServer demoMoment .empty (appPush pack)).1 = .reply (.ok (.bytes rep))) :
    (runBoth demoServer .empty (bothBefore ++ [(demoMoment, .ssh 0 (.data 0 pack))])).web.db = (runServer demoServer .empty [(demoMoment, appPush pack)]).db := by
  obtain ⟨st, e1, e2, _⟩ := pushedAny_http (P := demoServer) appCmd_ok (by decide) (by decide)
    (.http (u := ascii "/app") (c := appCmd) (caps := ascii "report-status") [] (ascii ".git") app_clean_url (.inr rfl) hpush)
  refine .trans ?_ e2.symm
  rw [runBoth_concat]
  show (sshLinkStep demoServer.X demoMoment (runBoth demoServer .empty bothBefore).web.db ((runBoth demoServer .empty bothBefore).link 0) (.data 0 pack)).2.2 = _
  have key := receive_section (mysqlPush demoServer.X demoMoment.sql demoMoment.fuel) (ascii "/app") Db.empty appCmd_ok (caps := ascii "report-status") (by decide) (by decide) pack
  have e1 : httpReceivePack (mysqlPush demoServer.X demoMoment.sql demoMoment.fuel) { caps := [], commands := [], path := ascii "/app", db := Db.empty }
      (Spec.pushBody appCmd [] (ascii "report-status") pack) = .ok (rep, st) := e1
  unfold httpReceivePack at e1
  rw [key, Res.unwrap_ok, Res.bind_ok] at e1
  rw [bothBefore_push, bothBefore_db]
  simp only [sshLinkStep, sshData, sshReceivePack]
  exact gitReceiveDb_ok (Res.unwrap_eq_ok.1 e1)

/-- The example repository is pushed to `/app` on connection 0; the client of connection 1 asks for `/app/src` and clones it. -/
theorem both_sub_run : ∃ (pack : Bytes) (m : Moment) (id : Hash) (refs : List (Bytes × Bytes)) (out file : Bytes) (q : Pack) (h : BothHist),
    h = bothBefore ++ [(demoMoment, .ssh 0 (.data 0 pack))] ∧
    Spec.Reads demoServer demoMoment h (Hash.toPlainStr id) refs (.ssh 1 (askFor .uploadPack 0 (ascii "/app/src"))) ∧
    (sshStep polyExt m (runBoth demoServer .empty (h ++ [(demoMoment, .ssh 1 (askFor .uploadPack 0 (ascii "/app/src")))])).ssh 1
      (.data 0 (doneBody cloneLines (ascii "\n") []))).1 = [(0, out)] ∧
    Spec.readClone out = some file ∧ decodePack polyExt (fun _ => none) 1 file = .ok q ∧
    Spec.CheckedOut q.result.hashObject id [ascii "a"] (ascii "100644") (ascii "one") ∧
    ∃ oB, q.result.hashObject id = some oB ∧ oB.data = Commit.encode { appCommit with treeId := idOf polyExt (.tree, encodeTree srcA), parents := [] } := by
  obtain ⟨pack, p, rep, st', refs, ins, outA, file', qA, h1, h2, h3, hpush, e0, objs, hrefs, hg, c1, d2, q1, fA, fT, fS, fB, hd, hd1, hcalled⟩ := app_first
  obtain ⟨h, hh⟩ : ∃ h, h = bothBefore ++ [(demoMoment, Visit.ssh 0 (.data 0 pack))] := ⟨_, rfl⟩
  obtain ⟨v, hv⟩ : ∃ v, v = Visit.ssh 1 (askFor .uploadPack 0 (ascii "/app/src")) := ⟨_, rfl⟩
  have hdb : (runBoth demoServer .empty h).web.db = st'.db := by rw [hh, both_same_db hpush, e0]
  have names : ∀ x ∈ h, x.1.sql.fold = demoFold ∧ ∀ a, x.2.repo = some a → a = ascii "/app" := by
    intro x hx
    rw [hh] at hx
    rcases List.mem_append.1 hx with hx | hx
    · exact bothBefore_names x hx
    · cases List.mem_singleton.1 hx
      exact ⟨rfl, fun _ e => nomatch e⟩
  have vrepo : v.repo = some (ascii "/app/src") := by rw [hv]; exact ask_src_repo
  have names' : ∀ x ∈ h ++ [(demoMoment, v)] ++ [], x.1.sql.fold = demoFold ∧ ∀ a, x.2.repo = some a → a = ascii "/app" ∨ a = ascii "/app/src" := by
    intro x hx
    rw [List.append_nil] at hx
    rcases List.mem_append.1 hx with hx | hx
    · exact ⟨(names x hx).1, fun a ha => .inl ((names x hx).2 a ha)⟩
    · cases List.mem_singleton.1 hx
      refine ⟨rfl, fun a ha => .inr ?_⟩
      rw [vrepo] at ha
      exact (Option.some.inj ha).symm
  have hlink : (runBoth demoServer .empty h).link 1 = .ready (some { service := .uploadPack, path := ascii "/app", caps := [], commands := [] }) := by
    rw [hh, runBoth_append, runBoth_elsewhere demoServer [(demoMoment, .ssh 0 (.data 0 pack))] _ (by intro x hx; cases List.mem_singleton.1 hx; intro e; simp), bothBefore_fetch]
  have hask : Spec.AsksFor demoServer h (ascii "/app/src") v := by rw [hv]; exact .ssh 1 0 _ (by decide) (by decide) hlink
  have hdb2 : (runBoth demoServer .empty (h ++ [(demoMoment, v)] ++ [])).web.db =
      { st'.db with commits := st'.db.commits ++ [srcChild.row (ascii "/app/src")], refs := refs, inserts := ins } := by
    rw [List.append_nil, asksFor_db hask, hdb]
    exact congrArg Prod.snd hg
  have objsD := app_below_objs (sub := ascii "/app/src") (refs := refs) (k := ins) objs
  obtain ⟨id, refsD, outB, fileB, w1, _, w3, w4, w5⟩ := C110_both_partial demoServer demoFold_hash [ascii "app"] [] (ascii "src") (ascii "/app") (ascii "/app/src")
    (by decide) (by decide) (by intro d hd; simp only [List.append_nil, List.cons_append, List.nil_append, List.mem_cons, List.not_mem_nil, or_false] at hd; rcases hd with rfl | rfl <;> exact ⟨by decide, by decide, by decide⟩)
    (by decide) (by decide) (by decide) h [] { demoMoment with fuel := st'.db.nodes.length } demoMoment { demoMoment with fuel := st'.db.nodes.length } v hask
    (fun x hx => (names' x hx).1) rfl rfl
    (by
      intro a ha b hb x y hx hy hf hs
      have hy' : y = ascii "/app" := by
        rcases (names' b hb).2 y hy with e | e
        · exact e
        · rw [e] at hf; exact absurd hf (by decide)
      rw [hy'] at hs
      rw [hy']
      rcases (names' a ha).2 x hx with e | e
      · exact e
      · rw [e] at hs; exact absurd hs (by decide))
    (fun x hx a ha _ => (names x hx).2 a ha)
    (by intro x hx a ha; rw [List.append_nil] at hx; rw [(names x hx).2 a ha]; decide)
    (by rw [hdb, Spec.HasMaster, hrefs]; exact ⟨_, .head _, rfl, by unfold Spec.isMaster; decide⟩) (idOf polyExt (.commit, appCommit.encode))
    (by
      rw [hdb, hrefs]
      intro r hr _ _
      rw [List.mem_singleton.1 hr]
      exact ⟨rfl, ⟨by decide +kernel, by decide +kernel, by decide, by decide⟩, by decide +kernel⟩) (fun _ _ => rfl)
    (by rw [hdb2]; exact few_unique libObjects_ids objsD) (by rw [hdb2]; exact few_fits (l := libObjects) (by decide) (by decide +kernel) objsD)
    (by rw [hdb2]) (fun _ _ => .rfl) demoCut_ok cloneLines (ascii "\n") [] cloneLines_ok outA file' (.http [] app_clean_url (.inl rfl) (c1 _ hdb)) d2 (fun _ => none) 0 qA q1
    _ fA rfl appCommit appCommit_decode _ hd hd1
    (by intro a q hq; rw [hh] at hq; rw [both_sent_last h2 hq]; exact hcalled) (by decide +kernel)
    (fun _ _ => .rfl) demoCut_ok cloneLines (ascii "\n") [] cloneLines_ok
  obtain ⟨qB, b1, ⟨oB, _, y1, _, _, _, _, _, y2, _⟩, b3⟩ := w5 (fun _ => none) 0
  rw [List.append_nil] at w3
  rw [hv] at hask w1 w3
  refine ⟨pack, _, id, refsD, outB, fileB, qB, h, hh, w1, w3 1 0 (reads_opened hask w1), w4, b1, (b3 _ _ _ _).2 ⟨_, appCommit, rfl, fA, rfl, appCommit_decode, ?_⟩, oB, y1, y2⟩
  refine .dir (metaOf polyExt (.tree, encodeTree appItems)) appItems (dirItem "src" (idOf polyExt (.tree, encodeTree srcA))) _ _ _ fT rfl appItems_decode (by simp [appItems]) rfl ?_
  exact .file (metaOf polyExt (.tree, encodeTree srcA)) appBlob srcA (fileItem "a" (polyId .blob (ascii "one"))) fS rfl srcA_decode
    (by simp [srcA]) (by decide) rfl fB rfl

/-- C110 over SSH at work: the example repository is pushed to `/app` on connection 0. The client of connection 1, which was open for `/app`, asks for `/app/src` instead and clones
this: it reads HEAD, and the clone has the file `a` with the content `one`. -/
example : ∃ (pack : Bytes) (m : Moment) (id : Hash) (refs : List (Bytes × Bytes)) (out file : Bytes) (q : Pack) (h : BothHist),
    h = bothBefore ++ [(demoMoment, .ssh 0 (.data 0 pack))] ∧
    Spec.Reads demoServer demoMoment h (Hash.toPlainStr id) refs (.ssh 1 (askFor .uploadPack 0 (ascii "/app/src"))) ∧
    (sshStep polyExt m (runBoth demoServer .empty (h ++ [(demoMoment, .ssh 1 (askFor .uploadPack 0 (ascii "/app/src")))])).ssh 1
      (.data 0 (doneBody cloneLines (ascii "\n") []))).1 = [(0, out)] ∧
    Spec.readClone out = some file ∧ decodePack polyExt (fun _ => none) 1 file = .ok q ∧
    Spec.CheckedOut q.result.hashObject id [ascii "a"] (ascii "100644") (ascii "one") := by
  obtain ⟨pack, m, id, refs, out, file, q, h, h1, h2, h3, h4, h5, h6, _⟩ := both_sub_run
  exact ⟨pack, m, id, refs, out, file, q, h, h1, h2, h3, h4, h5, h6⟩

end Gust

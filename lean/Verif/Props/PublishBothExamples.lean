import Verif.Props.PublishBoth
import Verif.Props.BothExamples
import Verif.Props.SchemaExamples

/-! # C111, C119, C126 on concrete runs over SSH -/

namespace Gust

/-- The moment of the push, with some more room on the stack. -/
def roomMoment : Moment := { demoMoment with fuel := 6 }

theorem bothBefore_sent (m : Moment) (pack : Bytes) :
    Spec.SentAny demoServer (ascii "/app") appCmd (ascii "report-status") pack m bothBefore (bothBefore ++ [(m, .ssh 0 (.data 0 pack))]) :=
  .ssh [(demoMoment, .ssh 1 logIn), (demoMoment, .ssh 1 (askFor .uploadPack 0 (ascii "/app"))), (demoMoment, .ssh 0 logIn)] [] [] bothBefore demoMoment demoMoment 0 0 0 0
    (by decide) (by decide) (fun _ h => nomatch h) (fun _ h => nomatch h) rfl _ bothBefore_push

theorem bothBefore_unique : UniqueIds polyExt (runBoth demoServer .empty bothBefore).web.db := by
  rw [bothBefore_db]
  intro a b ha
  rcases ha with ⟨n, hn, _⟩ | ⟨n, hn, _⟩ <;> cases hn

/-- What is stored after the push of the example repository. -/
theorem room_objs {pack rep : Bytes} {h' : BothHist} (hpack : Spec.PackOf polyExt demoFold (runBoth demoServer .empty bothBefore).web.db pack appEntries)
    (hp : Spec.PushedAny demoServer (ascii "/app") appCmd (ascii "report-status") pack rep roomMoment bothBefore h') :
    ∀ o, StoredObj (runBoth demoServer .empty h').web.db o → metaOf polyExt o ∈ appObjects := by
  obtain ⟨p, d1, d2⟩ := packOf_read demoFold_hash (both_nodes demoServer bothBefore) bothBefore_unique (E := demoSql) rfl hpack (fuel := 6) (by decide)
  obtain ⟨st', e1, e2, _⟩ := pushedAny_http appCmd_ok (by decide) (by decide) hp
  rw [bothBefore_db] at e1 d1
  rw [e2]
  obtain ⟨p', db1, q1, q2, q3, q4, _⟩ := push_run (path := ascii "/app") .empty appCmd_ok (by decide) (by decide) (decodePack_magic d1) e1
  have : p' = p := Res.ok.inj (q1.symm.trans d1)
  subst this
  intro o ho
  apply app_stored_objs d1 (fun h m => by rw [d2]; exact app_found h m) roomMoment.sql roomMoment.fuel (ascii "/app") o
  have q2 : (savePackfile roomMoment.sql roomMoment.fuel p' (ascii "/app") Db.empty).2 = db1 := by rw [q2]
  rw [q2]
  rcases ho with ⟨n, hn, e⟩ | ⟨n, hn, e⟩
  · exact .inl ⟨n, by rw [← q3]; exact hn, e⟩
  · exact .inr ⟨n, by rw [← q4]; exact hn, e⟩

/-- C111: connection 0 publishes the five objects to `/app` over SSH; the push is answered with `ok`, and so are the clones over HTTP and on connection 1, with the same bytes; the file `src/a` is there. -/
example : ∃ (m2 : Moment) (pack rep out file : Bytes) (q : Pack),
    (sshStep polyExt roomMoment (runBoth demoServer .empty bothBefore).ssh 0 (.data 0 pack)).1 = [(0, rep)] ∧
    Spec.reportLines false rep = some [ascii "unpack ok\n", ascii "ok refs/heads/master" ++ [0]] ∧
    (serve demoServer m2 (runBoth demoServer .empty (bothBefore ++ [(roomMoment, .ssh 0 (.data 0 pack))] ++ [])).web
      (Spec.fetchReq (ascii "/app" ++ []) (doneBody cloneLines (ascii "\n") []))).1 = .reply (.ok (.bytes out)) ∧
    (sshStep polyExt m2 (runBoth demoServer .empty (bothBefore ++ [(roomMoment, .ssh 0 (.data 0 pack))] ++ [])).ssh 1 (.data 0 (doneBody cloneLines (ascii "\n") []))).1 = [(0, out)] ∧
    Spec.readClone out = some file ∧ decodePack polyExt (fun _ => none) 1 file = .ok q ∧
    Spec.CheckedOut q.result.hashObject (idOf polyExt (.commit, appCommit.encode)) [ascii "src", ascii "a"] (ascii "100644") (ascii "one") := by
  obtain ⟨pack, hpack⟩ := app_packOf demoServer.D.fold (runBoth demoServer .empty bothBefore).web.db
  have hlen : appEntries.length = 5 := objectsAt_length polyExt 12 appObjects
  have hacc : Spec.Accepts roomMoment.sql := ⟨fun _ _ => rfl, fun _ _ => rfl, fun _ _ => rfl, fun _ _ => rfl⟩
  obtain ⟨rep0, hpush, _⟩ := C111_both_partial demoServer demoFold_hash (ascii "/app") bothBefore _ roomMoment bothBefore_unique rfl hacc appCmd appCmd_ok (ascii "report-status") (by decide)
    (by decide) (.inl rfl) appEntries pack hpack app_project (by rw [hlen]; decide) (bothBefore_sent _ _)
  have objs := room_objs hpack hpush
  rw [← List.append_nil (bothBefore ++ _)] at objs
  obtain ⟨m2, hm2⟩ : ∃ m2 : Moment, m2 = { demoMoment with fuel := (runBoth demoServer .empty (bothBefore ++ [(roomMoment, .ssh 0 (.data 0 pack))] ++ [])).web.db.nodes.length } := ⟨_, rfl⟩
  have names : ∀ x ∈ bothBefore ++ [(roomMoment, Visit.ssh 0 (.data 0 pack))] ++ [], x.1.sql.fold = demoFold ∧ ∀ a, x.2.repo = some a → a = ascii "/app" := by
    intro x hx
    rw [List.append_nil] at hx
    rcases List.mem_append.1 hx with hx | hx
    · exact bothBefore_names x hx
    · cases List.mem_singleton.1 hx
      exact ⟨rfl, fun _ e => nomatch e⟩
  obtain ⟨rep, out, r1, r2, r3, r4, r5⟩ := C111_both_published_partial demoServer demoFold_hash (ascii "/app") bothBefore _ [] roomMoment m2 appCmd appCmd_ok (ascii "report-status") (by decide)
    (by decide) (.inl rfl) appEntries pack hpack app_project ⟨_, .head _, rfl⟩ (bothBefore_sent _ _) hacc (by rw [hlen]; decide) (fun x hx => (names x hx).1) (by rw [hm2]; rfl)
    (fun a ha b hb x y hx hy _ _ => by rw [(names a ha).2 x hx, (names b hb).2 y hy]) (app_unique objs) (app_fits objs) (by rw [hm2]) (by rw [hm2]; exact fun _ _ => .rfl)
    (by rw [hm2]; exact demoCut_ok) cloneLines (ascii "\n") [] cloneLines_ok
  have hopen : Spec.Opened demoServer (ascii "/app") 1 (bothBefore ++ [(roomMoment, Visit.ssh 0 (.data 0 pack))] ++ []) := by
    refine ⟨[(demoMoment, .ssh 1 logIn)], [(demoMoment, .ssh 0 logIn), (demoMoment, .ssh 0 (askFor .receivePack 0 (ascii "/app"))),
      (demoMoment, .ssh 0 (.data 0 (Spec.pushBody appCmd [] (ascii "report-status") []))), (roomMoment, Visit.ssh 0 (.data 0 pack))], demoMoment, 0, ?_, by decide, by decide, rfl,
      some { service := .uploadPack, path := ascii "/app", caps := [], commands := [] }, ?_⟩
    · intro x hx e
      simp only [List.mem_cons, List.not_mem_nil, or_false] at hx
      rcases hx with rfl | rfl | rfl | rfl <;> exact fun h => nomatch h
    · rw [List.append_nil, runBoth_append, runBoth_elsewhere demoServer _ _ (i := 1)]
      · exact bothBefore_fetch
      · intro x hx e
        cases List.mem_singleton.1 hx
        exact fun h => nomatch h
  obtain ⟨file, f1, f2⟩ := r5 (.inr ⟨1, hopen⟩)
  obtain ⟨q, q1, q2⟩ := f2 (fun _ => none) 0
  have hside : decide (Capability.sideBand ∈ parseCapabilities (ascii "report-status") ∨ Capability.sideBand64k ∈ parseCapabilities (ascii "report-status")) = false := by
    decide +kernel
  rw [hside, show Spec.statusLine (appCmd.name ++ [0]) none = ascii "ok refs/heads/master" ++ [0] by decide] at r2
  have r1' : (sshStep polyExt roomMoment (runBoth demoServer .empty bothBefore).ssh 0 (.data 0 pack)).1 = [(0, rep)] := by
    obtain ⟨st', k1, _⟩ := pushedAny_http appCmd_ok (by decide) (by decide) r1
    exact ssh_pushed (P := demoServer) appCmd_ok (by decide) (by decide) 0 bothBefore_push k1 (report_ne r2)
  refine ⟨m2, pack, rep, out, file, q, r1', r2, r3 [] app_clean_url (.inl rfl), r4 1 0 hopen, f1, q1, (q2 _ (.head _) rfl _ _ _).1 ?_⟩
  show Spec.CheckedOut (Spec.found polyExt appEntries) (metaOf polyExt (.commit, appCommit.encode)).id _ _ _
  have find : ∀ m ∈ appObjects, Spec.found polyExt appEntries m.id = some m := fun m hm => (app_found _ _).2 ⟨hm, rfl⟩
  refine ⟨metaOf polyExt (.commit, appCommit.encode), appCommit, rfl, find _ (by simp [appObjects, appThin]), rfl, appCommit_decode, ?_⟩
  refine .dir (metaOf polyExt (.tree, encodeTree appItems)) appItems (dirItem "src" (idOf polyExt (.tree, encodeTree srcA))) _ _ _
    (find _ (by simp [appObjects, appThin])) rfl appItems_decode (by simp [appItems]) rfl ?_
  exact .file (metaOf polyExt (.tree, encodeTree srcA)) appBlob srcA (fileItem "a" (polyId .blob (ascii "one"))) (find _ (by simp [appObjects, appThin])) rfl srcA_decode
    (by simp [srcA]) (by decide) rfl (find _ (by simp [appObjects])) rfl

/-- C119: the same push, with the tables of the dump. -/
example : ∃ pack rep, Spec.PushedAny demoServer (ascii "/app") appCmd (ascii "report-status") pack rep dumpMoment bothBefore (bothBefore ++ [(dumpMoment, .ssh 0 (.data 0 pack))]) := by
  obtain ⟨pack, hpack⟩ := app_packOf demoServer.D.fold (runBoth demoServer .empty bothBefore).web.db
  have hlen : appEntries.length = 5 := objectsAt_length polyExt 12 appObjects
  obtain ⟨rep, r, _⟩ := C119_both_partial demoServer demoFold_hash (ascii "/app") bothBefore _ dumpMoment bothBefore_unique rfl dumpSql_schema appCmd appCmd_ok (ascii "report-status") (by decide)
    (by decide) (.inl rfl) appEntries pack hpack app_project app_roomy (by rw [hlen]; decide) (bothBefore_sent _ _)
  exact ⟨pack, rep, r⟩

/-- C111 fails over SSH: a pack with nothing but a commit is not answered, and the connection is closed or silent from then on. -/
example : ∃ pack, (sshStep polyExt roomMoment (runBoth demoServer .empty bothBefore).ssh 0 (.data 0 pack)).1 = [] ∧
    ((sshStep polyExt roomMoment (runBoth demoServer .empty bothBefore).ssh 0 (.data 0 pack)).2.link 0 = .closed ∨
      (sshStep polyExt roomMoment (runBoth demoServer .empty bothBefore).ssh 0 (.data 0 pack)).2.link 0 = .hung) := by
  have hnew : ∀ m ∈ [metaOf polyExt (.commit, appCommit.encode)], MetaData.new polyExt m.t m.data = .ok m := by
    intro m hm
    rw [List.mem_singleton.1 hm]
    exact new_metaOf polyExt (.commit, _) rfl
  have small : ∀ m ∈ [metaOf polyExt (.commit, appCommit.encode)], m.data.length < 2 ^ 61 := by decide +kernel
  obtain ⟨hd, h1, h2, h3⟩ := packFile_written hnew small (by decide) (by decide) (⟨List.replicate 20 7, rfl⟩ : Hash)
  have hcol : Spec.NoCollision (idOf polyExt) (objectsAt polyExt 12 [metaOf polyExt (.commit, appCommit.encode)]) := by
    intro a ha b hb _
    simp only [objectsAt, List.mem_singleton] at ha hb
    rw [ha, hb]
  have := C111_both_update_false demoServer demoFold_hash (ascii "/app") bothBefore _ roomMoment bothBefore_unique rfl appCmd appCmd_ok (ascii "report-status") (by decide) (by decide)
    (objectsAt polyExt 12 [metaOf polyExt (.commit, appCommit.encode)]) _
    ⟨⟨_, _, fun _ => none, h3, by decide +kernel, (fun _ _ e => by cases e), resolves_written (fun m hm => (new_ok (hnew m hm)).1) 12 []⟩, hcol, by
      intro p hp
      simp only [objectsAt, List.mem_singleton] at hp
      rw [hp]
      decide +kernel⟩ (by decide)
    appCommit.treeId (.commit (metaOf polyExt (.commit, appCommit.encode)) appCommit ((found_iff hcol _ _).2 ⟨_, .head _, rfl, rfl⟩) rfl appCommit_decode) (by decide +kernel) (bothBefore_sent _ _)
  generalize hh : bothBefore ++ [(roomMoment, Visit.ssh 0 (.data 0 _))] = h' at this
  cases this with
  | http g ha =>
    have := List.append_cancel_left hh
    cases this
  | ssh i ch ha hl =>
    have := List.append_cancel_left hh
    simp only [List.cons.injEq, Prod.mk.injEq, Visit.ssh.injEq, SshEvent.data.injEq, true_and, and_true] at this
    obtain ⟨rfl, rfl⟩ := this
    exact ⟨_, ha, hl⟩

/-- Connection 0 is open for pushing to `/app` and has sent the command that starts `dev`. -/
def devBefore : BothHist :=
  [(demoMoment, .ssh 0 logIn), (demoMoment, .ssh 0 (askFor .receivePack 0 (ascii "/app"))), (demoMoment, .ssh 0 (.data 0 (Spec.pushBody startCmd [] (ascii "report-status") [])))]

/-- After that `dev` has been pushed, and the client has sent the command that moves it on. -/
def devLater : BothHist :=
  devBefore ++ [(demoMoment, .ssh 0 (.data 0 noObjects)), (demoMoment, .ssh 0 (askFor .receivePack 0 (ascii "/app"))),
    (demoMoment, .ssh 0 (.data 0 (Spec.pushBody onCmd [] (ascii "report-status") [])))]

/-- C126: `dev` is started over SSH and then moved on. -/
example : ∃ rep1 rep2,
    Spec.PushedAny demoServer (ascii "/app") startCmd (ascii "report-status") noObjects rep1 demoMoment devBefore (devBefore ++ [(demoMoment, .ssh 0 (.data 0 noObjects))]) ∧
    Spec.PushedAny demoServer (ascii "/app") onCmd (ascii "report-status") noObjects rep2 demoMoment devLater (devLater ++ [(demoMoment, .ssh 0 (.data 0 noObjects))]) ∧
    (runBoth demoServer .empty (devLater ++ [(demoMoment, .ssh 0 (.data 0 noObjects))])).web.db.refs =
      [{ repoPath := ascii "/app", refName := ascii "refs/heads/dev" ++ [0], refGitId := onCmd.new }] := by
  obtain ⟨rep1, a1, a2, _⟩ := C126_both_started_partial demoServer (ascii "/app") devBefore _ demoMoment startCmd startCmd_ok rfl (ascii "report-status") (by decide) (by decide) noObjects Hash.zero
    (noObjects_pack _) rfl (.ssh [(demoMoment, .ssh 0 logIn)] [] [] devBefore demoMoment demoMoment 0 0 0 0 (by decide) (by decide) (fun _ h => nomatch h) (fun _ h => nomatch h) rfl
      (some { service := .receivePack, path := ascii "/app", caps := parseCapabilities (ascii "report-status"), commands := [RefCommand.new startCmd.old startCmd.new (startCmd.name ++ [0])] })
      (by decide +kernel))
  have hrefs : (runBoth demoServer .empty devLater).web.db.refs = [] ++ { repoPath := ascii "/app", refName := onCmd.name ++ [0], refGitId := onCmd.old } :: [] := by decide +kernel
  obtain ⟨rep2, b1, b2, _⟩ := C126_both_moved_partial demoServer (ascii "/app") devLater _ demoMoment onCmd onCmd_ok (by decide +kernel) (by decide +kernel) (ascii "report-status") (by decide) (by decide) noObjects
    Hash.zero (noObjects_pack _) [] [] hrefs (fun _ h => nomatch h)
    rfl (.ssh (devBefore ++ [(demoMoment, .ssh 0 (.data 0 noObjects))]) [] [] devLater demoMoment demoMoment 0 0 0 0 (by decide) (by decide) (fun _ h => nomatch h) (fun _ h => nomatch h) rfl
      (some { service := .receivePack, path := ascii "/app", caps := parseCapabilities (ascii "report-status"), commands := [RefCommand.new onCmd.old onCmd.new (onCmd.name ++ [0])] })
      (by decide +kernel))
  exact ⟨rep1, rep2, a1, b1, by rw [b2]; rfl⟩

end Gust

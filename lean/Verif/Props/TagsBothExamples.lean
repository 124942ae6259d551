import Verif.Props.TagsBoth
import Verif.Props.TagsExamples
import Verif.Props.PublishBothExamples

/-! # C143 on a concrete run over SSH -/

namespace Gust

/-- Connection 1 is open for fetching from `/app`, connection 0 for pushing to it, and has sent a command. -/
def tagBefore (c : Spec.PushCmd) : BothHist :=
  [(demoMoment, .ssh 1 logIn), (demoMoment, .ssh 1 (askFor .uploadPack 0 (ascii "/app"))), (demoMoment, .ssh 0 logIn),
    (demoMoment, .ssh 0 (askFor .receivePack 0 (ascii "/app"))), (demoMoment, .ssh 0 (.data 0 (Spec.pushBody c [] (ascii "report-status") [])))]

/-- The moment of the push. -/
def tagMoment : Moment := { demoMoment with fuel := 7 }

/-- What the examples say of such a command. -/
structure TagReady (c : Spec.PushCmd) : Prop where
  db : (runBoth demoServer .empty (tagBefore c)).web.db = .empty
  push : ∃ p, (runBoth demoServer .empty (tagBefore c)).link 0 = .ready p
  fetch : ∃ p, (runBoth demoServer .empty (tagBefore c)).link 1 = .ready p
  ok : c.Ok
  old : c.old = zeroId
  new : c.new ≠ zeroId

theorem tag_ready : TagReady tagCmd where
  db := by decide +kernel
  push := ⟨some { service := .receivePack, path := ascii "/app", caps := parseCapabilities (ascii "report-status"), commands := [RefCommand.new tagCmd.old tagCmd.new (tagCmd.name ++ [0])] },
    by decide +kernel⟩
  fetch := ⟨some { service := .uploadPack, path := ascii "/app", caps := [], commands := [] }, by decide +kernel⟩
  ok := tagCmd_ok
  old := rfl
  new := by decide +kernel

theorem light_ready : TagReady lightCmd where
  db := by decide +kernel
  push := ⟨some { service := .receivePack, path := ascii "/app", caps := parseCapabilities (ascii "report-status"),
                  commands := [RefCommand.new lightCmd.old lightCmd.new (lightCmd.name ++ [0])] }, by decide +kernel⟩
  fetch := ⟨some { service := .uploadPack, path := ascii "/app", caps := [], commands := [] }, by decide +kernel⟩
  ok := lightCmd_ok
  old := rfl
  new := by decide +kernel

theorem tagBefore_sent {c : Spec.PushCmd} (hr : TagReady c) (pack : Bytes) :
    Spec.SentAny demoServer (ascii "/app") c (ascii "report-status") pack tagMoment (tagBefore c) (tagBefore c ++ [(tagMoment, .ssh 0 (.data 0 pack))]) := by
  obtain ⟨p, hp⟩ := hr.push
  exact .ssh [(demoMoment, .ssh 1 logIn), (demoMoment, .ssh 1 (askFor .uploadPack 0 (ascii "/app"))), (demoMoment, .ssh 0 logIn)] [] [] (tagBefore c) demoMoment demoMoment 0 0 0 0
    (by decide) (by decide) (fun _ h => nomatch h) (fun _ h => nomatch h) rfl _ hp

theorem tagBefore_opened {c : Spec.PushCmd} (hr : TagReady c) (pack : Bytes) :
    Spec.Opened demoServer (ascii "/app") 1 (tagBefore c ++ [(tagMoment, Visit.ssh 0 (.data 0 pack))] ++ []) := by
  obtain ⟨p, hp⟩ := hr.fetch
  refine ⟨[(demoMoment, .ssh 1 logIn)], [(demoMoment, .ssh 0 logIn), (demoMoment, .ssh 0 (askFor .receivePack 0 (ascii "/app"))),
    (demoMoment, .ssh 0 (.data 0 (Spec.pushBody c [] (ascii "report-status") []))), (tagMoment, Visit.ssh 0 (.data 0 pack))], demoMoment, 0, ?_, by decide, by decide, rfl, p, ?_⟩
  · intro x hx e
    simp only [List.mem_cons, List.not_mem_nil, or_false] at hx
    rcases hx with rfl | rfl | rfl | rfl <;> exact fun h => nomatch h
  · rw [List.append_nil, runBoth_append, runBoth_elsewhere demoServer _ _ (i := 1)]
    · exact hp
    · intro x hx e
      cases List.mem_singleton.1 hx
      exact fun h => nomatch h

theorem tagBefore_unique {c : Spec.PushCmd} (hr : TagReady c) : UniqueIds polyExt (runBoth demoServer .empty (tagBefore c)).web.db := by
  rw [hr.db]
  intro a b ha
  rcases ha with ⟨n, hn, _⟩ | ⟨n, hn, _⟩ <;> cases hn

theorem tagBefore_names {c : Spec.PushCmd} (pack : Bytes) : ∀ x ∈ tagBefore c ++ [(tagMoment, Visit.ssh 0 (.data 0 pack))] ++ [],
    x.1.sql.fold = demoFold ∧ ∀ a, x.2.repo = some a → a = ascii "/app" := by
  intro x hx
  rw [List.append_nil] at hx
  simp only [tagBefore, List.mem_append, List.mem_cons, List.not_mem_nil, or_false] at hx
  rcases hx with (rfl | rfl | rfl | rfl | rfl) | rfl
  · exact ⟨rfl, fun _ e => nomatch e⟩
  · exact bothBefore_names _ (by simp [bothBefore])
  · exact ⟨rfl, fun _ e => nomatch e⟩
  · exact bothBefore_names _ (by simp [bothBefore])
  · exact ⟨rfl, fun _ e => nomatch e⟩
  · exact ⟨rfl, fun _ e => nomatch e⟩

/-- What is stored after the push over SSH is what is stored after one over HTTP. -/
theorem tag_both_stored {pack rep : Bytes} (hpack : ∀ db, Spec.PackOf polyExt demoServer.D.fold db pack tagEntries) {c : Spec.PushCmd} (hr : TagReady c)
    (hp : Spec.PushedAny demoServer (ascii "/app") c (ascii "report-status") pack rep tagMoment (tagBefore c) (tagBefore c ++ [(tagMoment, .ssh 0 (.data 0 pack))])) :
    ∀ o, StoredObj (runBoth demoServer .empty (tagBefore c ++ [(tagMoment, .ssh 0 (.data 0 pack))] ++ [])).web.db o → metaOf polyExt o ∈ appObjects := by
  obtain ⟨st', e1, e2, _⟩ := pushedAny_http hr.ok (by decide) (by decide) hp
  rw [hr.db] at e1
  obtain ⟨_, e3⟩ := serve_push_ok (P := demoServer) (s := .empty) (g := ascii ".git") app_clean_url (.inr rfl) e1
  have := tag_stored hpack hr.ok hr.old (m1 := tagMoment) rfl
  rw [List.append_nil, e2, ← e3]
  exact this

theorem tag_not_stored {db : Db} (h : ∀ o, StoredObj db o → metaOf polyExt o ∈ appObjects) :
    ∀ x, StoredObj db x → idOf polyExt x = idOf polyExt (appTag.t, appTag.data) → x = (appTag.t, appTag.data) := by
  intro x hx e
  have := List.inj_on_of_nodup_map tagObjects_ids (List.mem_append_left _ (h x hx)) (show appTag ∈ tagObjects by simp [tagObjects]) e
  exact Prod.ext (congrArg MetaData.t this) (congrArg MetaData.data this)

/-- C143 fails over SSH: a commit and an annotated tag are pushed on connection 0 with the ref `refs/tags/v1` for the tag; the report says ok and the ref is stored. A clone on connection 1 is
answered, without a tag in its pack; a client there that has the commit and asks for the tag gets no answer, and over HTTP is cut off. -/
example : ∃ (m2 : Moment) (pack rep out : Bytes) (h : BothHist) (file : Bytes) (lines : List Bytes) (caps : List Capability),
    h = tagBefore tagCmd ++ [(tagMoment, .ssh 0 (.data 0 pack))] ++ [] ∧
    Spec.PushedAny demoServer (ascii "/app") tagCmd (ascii "report-status") pack rep tagMoment (tagBefore tagCmd) (tagBefore tagCmd ++ [(tagMoment, .ssh 0 (.data 0 pack))]) ∧
    Spec.reportLines false rep = some [ascii "unpack ok\n", ascii "ok refs/tags/v1" ++ [0]] ∧
    { repoPath := ascii "/app", refName := ascii "refs/tags/v1" ++ [0], refGitId := Hash.toPlainStr appTag.id } ∈ (runBoth demoServer .empty h).web.db.refs ∧
    (sshStep polyExt m2 (runBoth demoServer .empty h).ssh 1 (.data 0 (doneBody cloneLines (ascii "\n") []))).1 = [(0, out)] ∧
    out = lines.flatMap (fun l => hex4 (l.length + 4) ++ l) ++ sendPack caps (m2.cut file) ∧
    (file = [] ∨ ∃ ms, PackHas polyExt file ms ∧ ∀ x ∈ ms, x.t ≠ .tag ∧ x.id ≠ appTag.id) ∧
    (sshStep polyExt m2 (runBoth demoServer .empty h).ssh 1 (.data 0 (doneBody tagLines (ascii "\n") []))).1 = [] ∧
    (serve demoServer m2 (runBoth demoServer .empty h).web (Spec.fetchReq (ascii "/app" ++ []) (doneBody tagLines (ascii "\n") []))).1 = .reply .panic := by
  obtain ⟨pack, hpack⟩ := tag_packOf demoServer.D.fold
  have hlen : tagEntries.length = 6 := objectsAt_length polyExt 12 tagObjects
  have hacc : Spec.Accepts tagMoment.sql := ⟨fun _ _ => rfl, fun _ _ => rfl, fun _ _ => rfl, fun _ _ => rfl⟩
  have hr := tag_ready
  obtain ⟨n, hn⟩ := tagEntries_mem (m := appTag) (by simp [tagObjects])
  obtain ⟨nc, hnc⟩ := tagEntries_mem (m := metaOf polyExt (.commit, appCommit.encode)) (by simp [tagObjects, appObjects, appThin])
  obtain ⟨rep, r1, r2, r3, r4⟩ := C143_lost_both_false demoServer demoFold_hash (ascii "/app") (tagBefore tagCmd) _ tagMoment (tagBefore_unique hr) rfl hacc tagCmd hr.ok rfl hr.new
    (ascii "report-status") (by decide) (by decide) tagEntries pack (hpack _) tag_project (by rw [hlen]; decide) (tagBefore_sent hr pack) _ hn rfl rfl
  have objs := tag_both_stored hpack hr r1
  have names := tagBefore_names (c := tagCmd) pack
  have hopen := tagBefore_opened hr pack
  obtain ⟨m2, hm2⟩ : ∃ m2 : Moment, m2 = { demoMoment with fuel := (runBoth demoServer .empty (tagBefore tagCmd ++ [(tagMoment, Visit.ssh 0 (.data 0 pack))] ++ [])).web.db.nodes.length } :=
    ⟨_, rfl⟩
  have hord : ∀ l x, x ∈ m2.ord l ↔ x ∈ l := by rw [hm2]; exact fun _ _ => .rfl
  have hab : Spec.NoneAboveAny demoFold (ascii "/app") (tagBefore tagCmd ++ [(tagMoment, Visit.ssh 0 (.data 0 pack))] ++ []) :=
    fun a ha b hb x y hx hy _ _ => by rw [(names a ha).2 x hx, (names b hb).2 y hy]
  obtain ⟨_, out, _, _, _, c2, _⟩ := C111_both_published_partial demoServer demoFold_hash (ascii "/app") (tagBefore tagCmd) _ [] tagMoment m2 tagCmd hr.ok (ascii "report-status") (by decide)
    (by decide) (.inl rfl) tagEntries pack (hpack _) tag_project ⟨_, hnc, rfl⟩ (tagBefore_sent hr pack) hacc (by rw [hlen]; decide) (fun x hx => (names x hx).1) (by rw [hm2]; rfl)
    hab (app_unique objs) (app_fits objs) (by rw [hm2]) hord (by rw [hm2]; exact demoCut_ok) cloneLines (ascii "\n") [] cloneLines_ok
  obtain ⟨lines, caps, file, k1, _, k2⟩ := r4 [] (ascii "/app") _ rfl (fun x hx => (names x hx).1) hab (app_unique objs) (tag_not_stored objs) (app_fits objs) m2 (by rw [hm2]; rfl) hord _ out
    (.ssh 1 0 hopen (c2 1 0 hopen))
  obtain ⟨p1, p2⟩ := C143_fetch_both_false demoServer (ascii "/app") (tagBefore tagCmd ++ [(tagMoment, Visit.ssh 0 (.data 0 pack))] ++ []) m2 hord (appTag.t, appTag.data) rfl
    (tag_not_stored objs) tagLines tagLines_ok (ascii "\n") [] (by decide) (by simp [tagLines, Spec.haveIds]) tagLines_asks (by
      intro x hx
      simp only [tagLines, Spec.wantIds] at hx
      have : x = tagCmd.new := by simpa using hx
      exact this)
  have hside : decide (Capability.sideBand ∈ parseCapabilities (ascii "report-status") ∨ Capability.sideBand64k ∈ parseCapabilities (ascii "report-status")) = false := by
    decide +kernel
  rw [hside, show Spec.statusLine (tagCmd.name ++ [0]) none = ascii "ok refs/tags/v1" ++ [0] by decide] at r2
  exact ⟨m2, pack, rep, out, _, file, lines, caps, rfl, r1, r2, by rw [List.append_nil]; exact r3, c2 1 0 hopen, k1, k2, p2 1 0 hopen, p1 [] app_clean_url (.inl rfl)⟩

/-- C143: the same six objects are pushed over SSH with the ref `refs/tags/v1` for the commit; who clones on connection 1 finds the commit, with the file `src/a`. -/
example : ∃ (m2 : Moment) (pack rep out file : Bytes) (h : BothHist) (q : Pack),
    h = tagBefore lightCmd ++ [(tagMoment, .ssh 0 (.data 0 pack))] ++ [] ∧
    Spec.PushedAny demoServer (ascii "/app") lightCmd (ascii "report-status") pack rep tagMoment (tagBefore lightCmd) (tagBefore lightCmd ++ [(tagMoment, .ssh 0 (.data 0 pack))]) ∧
    Spec.reportLines false rep = some [ascii "unpack ok\n", ascii "ok refs/tags/v1" ++ [0]] ∧
    { repoPath := ascii "/app", refName := ascii "refs/tags/v1" ++ [0], refGitId := Hash.toPlainStr (idOf polyExt (.commit, appCommit.encode)) } ∈ (runBoth demoServer .empty h).web.db.refs ∧
    (sshStep polyExt m2 (runBoth demoServer .empty h).ssh 1 (.data 0 (doneBody cloneLines (ascii "\n") []))).1 = [(0, out)] ∧
    Spec.readClone out = some file ∧ decodePack polyExt (fun _ => none) 1 file = .ok q ∧
    Spec.CheckedOut q.result.hashObject (idOf polyExt (.commit, appCommit.encode)) [ascii "src", ascii "a"] (ascii "100644") (ascii "one") := by
  obtain ⟨pack, hpack⟩ := tag_packOf demoServer.D.fold
  have hlen : tagEntries.length = 6 := objectsAt_length polyExt 12 tagObjects
  have hacc : Spec.Accepts tagMoment.sql := ⟨fun _ _ => rfl, fun _ _ => rfl, fun _ _ => rfl, fun _ _ => rfl⟩
  have hr := light_ready
  obtain ⟨nc, hnc⟩ := tagEntries_mem (m := metaOf polyExt (.commit, appCommit.encode)) (by simp [tagObjects, appObjects, appThin])
  obtain ⟨_, hpush, _⟩ := C111_both_partial demoServer demoFold_hash (ascii "/app") (tagBefore lightCmd) _ tagMoment (tagBefore_unique hr) rfl hacc lightCmd hr.ok (ascii "report-status")
    (by decide) (by decide) (.inl rfl) tagEntries pack (hpack _) tag_project (by rw [hlen]; decide) (tagBefore_sent hr pack)
  have objs := tag_both_stored hpack hr hpush
  have names := tagBefore_names (c := lightCmd) pack
  have hopen := tagBefore_opened hr pack
  obtain ⟨m2, hm2⟩ : ∃ m2 : Moment, m2 = { demoMoment with fuel := (runBoth demoServer .empty (tagBefore lightCmd ++ [(tagMoment, Visit.ssh 0 (.data 0 pack))] ++ [])).web.db.nodes.length } :=
    ⟨_, rfl⟩
  obtain ⟨rep, out, r1, r2, r3, _, r4, r5⟩ := C143_light_both_partial demoServer demoFold_hash (ascii "/app") (tagBefore lightCmd) _ [] tagMoment m2 lightCmd hr.ok rfl hr.new
    (ascii "report-status") (by decide) (by decide) tagEntries pack (hpack _) tag_project _ hnc rfl rfl (tagBefore_sent hr pack) hacc (by rw [hlen]; decide)
    (fun x hx => (names x hx).1) (by rw [hm2]; rfl) (fun a ha b hb x y hx hy _ _ => by rw [(names a ha).2 x hx, (names b hb).2 y hy])
    (app_unique objs) (app_fits objs) (by rw [hm2]) (by rw [hm2]; exact fun _ _ => .rfl) (by rw [hm2]; exact demoCut_ok) cloneLines (ascii "\n") [] cloneLines_ok
  obtain ⟨file, f1, f2⟩ := r5 (.inr ⟨1, hopen⟩)
  obtain ⟨q, q1, q2⟩ := f2 (fun _ => none) 0
  have hside : decide (Capability.sideBand ∈ parseCapabilities (ascii "report-status") ∨ Capability.sideBand64k ∈ parseCapabilities (ascii "report-status")) = false := by
    decide +kernel
  rw [hside, show Spec.statusLine (lightCmd.name ++ [0]) none = ascii "ok refs/tags/v1" ++ [0] by decide] at r2
  refine ⟨m2, pack, rep, out, file, _, q, rfl, r1, r2, r3 trivial, r4 1 0 hopen, f1, q1, (q2 _ _ _).1 ?_⟩
  show Spec.CheckedOut (Spec.found polyExt tagEntries) (metaOf polyExt (.commit, appCommit.encode)).id _ _ _
  have find : ∀ m ∈ appObjects, Spec.found polyExt tagEntries m.id = some m := fun m hm => (tag_found _ _).2 ⟨List.mem_append_left _ hm, rfl⟩
  refine ⟨metaOf polyExt (.commit, appCommit.encode), appCommit, rfl, find _ (by simp [appObjects, appThin]), rfl, appCommit_decode, ?_⟩
  refine .dir (metaOf polyExt (.tree, encodeTree appItems)) appItems (dirItem "src" (idOf polyExt (.tree, encodeTree srcA))) _ _ _
    (find _ (by simp [appObjects, appThin])) rfl appItems_decode (by simp [appItems]) rfl ?_
  exact .file (metaOf polyExt (.tree, encodeTree srcA)) appBlob srcA (fileItem "a" (polyId .blob (ascii "one"))) (find _ (by simp [appObjects, appThin])) rfl srcA_decode
    (by simp [srcA]) (by decide) rfl (find _ (by simp [appObjects])) rfl

end Gust

import Verif.Props.Tags

/-! # C143 on a concrete run -/

namespace Gust

open Spec (commitsAt)

/-- The five objects of the examples and an annotated tag. -/
def tagObjects : List MetaData := appObjects ++ [appTag]

/-- The same at the places where the encoder of the server puts them. -/
def tagEntries : List (Nat × Spec.Obj) := objectsAt polyExt 12 tagObjects

theorem tagObjects_new : ∀ m ∈ tagObjects, MetaData.new polyExt m.t m.data = .ok m := by
  intro m hm
  rcases List.mem_append.1 hm with hm | hm
  · exact appObjects_new m hm
  · rw [List.mem_singleton.1 hm]
    exact new_metaOf polyExt (.tag, _) rfl

theorem tagObjects_ids : (tagObjects.map MetaData.id).Nodup := by decide +kernel

theorem tagEntries_ids : Spec.NoCollision (idOf polyExt) tagEntries :=
  noCollision_objectsAt tagObjects_new (fun _ ha _ hb e => List.inj_on_of_nodup_map tagObjects_ids ha hb e) 12

theorem tagEntries_mem {m : MetaData} (h : m ∈ tagObjects) : ∃ n, (n, (m.t, m.data)) ∈ tagEntries := by
  obtain ⟨a, b, hs⟩ := List.append_of_mem h
  exact ⟨_, mem_objectsAt.2 ⟨a, m, b, hs, rfl⟩⟩

theorem tag_found (h : Hash) (m : MetaData) : Spec.found polyExt tagEntries h = some m ↔ m ∈ tagObjects ∧ m.id = h := by
  rw [found_iff tagEntries_ids]
  constructor
  · rintro ⟨p, hp, rfl, e⟩
    obtain ⟨a, m, b, e1, rfl⟩ := mem_objectsAt.1 hp
    have hm : m ∈ tagObjects := by rw [e1]; simp
    have e2 := (metaOf_of_new (tagObjects_new m hm)).2
    simp only at e ⊢
    rw [e2] at e ⊢
    exact ⟨hm, e⟩
  · rintro ⟨hm, e⟩
    obtain ⟨n, hn⟩ := tagEntries_mem hm
    exact ⟨_, hn, (metaOf_of_new (tagObjects_new m hm)).2, e⟩

theorem tag_split (o : MetaData) (ho : Spec.found polyExt tagEntries o.id = some o) :
    Spec.found polyExt appEntries o.id = some o ∨ o.t = .tag ∧ ∃ g, Tag.decode o.data = .ok g := by
  rcases List.mem_append.1 ((tag_found _ _).1 ho).1 with hm | hm
  · exact .inl ((app_found _ _).2 ⟨hm, rfl⟩)
  · rw [List.mem_singleton.1 hm]
    exact .inr ⟨rfl, _, appTag_decode⟩

theorem tag_project : Spec.Project polyExt tagEntries := by
  refine ⟨tag_selfContained (app_selfContained app_found) (fun x o ho => ?_) tag_split, noCycles_of_rank appDepth ?_⟩
  · obtain ⟨a, b⟩ := (app_found _ _).1 ho
    exact (tag_found _ _).2 ⟨List.mem_append_left _ a, b⟩
  intro o items i ho ht hd hi
  rcases tag_split o ho with ho | ⟨h, _⟩
  · have := ((app_found _ _).1 ho).1
    simp only [appObjects, appThin, List.mem_append, List.mem_cons, List.not_mem_nil, or_false] at this
    rcases this with (rfl | rfl | rfl | rfl) | rfl
    · cases ht
    · rw [show decodeTree (metaOf polyExt (.tree, encodeTree appItems)).data = .ok appItems from appItems_decode] at hd
      cases hd
      simp only [appItems, List.mem_cons, List.not_mem_nil, or_false] at hi
      rcases hi with rfl | rfl <;> decide +kernel
    · rw [show decodeTree (metaOf polyExt (.tree, encodeTree srcA)).data = .ok srcA from srcA_decode] at hd
      cases hd
      simp only [srcA, List.mem_cons, List.not_mem_nil, or_false] at hi
      subst hi
      decide +kernel
    all_goals cases ht
  · rw [h] at ht
    cases ht

theorem tag_packOf (fold : Bytes → Bytes) : ∃ pack, ∀ db, Spec.PackOf polyExt fold db pack tagEntries := by
  have small : ∀ m ∈ tagObjects, m.data.length < 2 ^ 61 := by decide +kernel
  obtain ⟨hd, h1, h2, h3⟩ := packFile_written tagObjects_new small (by decide) (by decide) (⟨List.replicate 20 7, rfl⟩ : Hash)
  refine ⟨_, fun db => ⟨⟨_, _, fun _ => none, h3, by decide +kernel, (fun _ _ e => by cases e), resolves_written (fun m hm => (new_ok (tagObjects_new m hm)).1) 12 []⟩, tagEntries_ids, ?_⟩⟩
  intro p hp
  obtain ⟨a, m, b, e, rfl⟩ := mem_objectsAt.1 hp
  have := small m (by rw [e]; simp)
  simp only
  omega

/-- What is stored after a push of all six. -/
theorem tag_stored {pack : Bytes} (hpack : ∀ db, Spec.PackOf polyExt demoServer.D.fold db pack tagEntries) {c : Spec.PushCmd} (hc : c.Ok) (hold : c.old = zeroId)
    {m1 : Moment} (hm1 : m1 = { demoMoment with fuel := 7 }) :
    ∀ o, StoredObj (runServer demoServer .empty [(m1, Spec.pushReq (ascii "/app" ++ ascii ".git") (Spec.pushBody c [] (ascii "report-status") pack))]).db o →
      metaOf polyExt o ∈ appObjects := by
  have hlen : tagEntries.length = 6 := objectsAt_length polyExt 12 tagObjects
  have hsql : m1.sql = demoSql := by rw [hm1]; rfl
  have hun0 : UniqueIds polyExt ServerState.empty.db := by
    intro a b ha
    rcases ha with ⟨n, hn, _⟩ | ⟨n, hn, _⟩ <;> cases hn
  obtain ⟨p, db1, rep, st', d1, d2, d3, d4, d5, _⟩ := project_stored (fold := demoServer.D.fold) demoFold_hash (nodesOk_empty _) hun0 (E := m1.sql) (by rw [hsql]; rfl)
    (by rw [hsql]; exact ⟨fun _ _ => rfl, fun _ _ => rfl, fun _ _ => rfl, fun _ _ => rfl⟩) (u := ascii "/app") hc (caps := ascii "report-status") (by decide) (by decide) (.inl hold) (hpack _) tag_project
    (fuel := m1.fuel) (by rw [hlen, hm1]; decide)
  obtain ⟨_, e2⟩ := serve_push_ok (P := demoServer) (s := .empty) (g := ascii ".git") app_clean_url (.inr rfl) d5
  obtain ⟨p', db1', q1, q2, q3, q4, _⟩ := push_run (path := ascii "/app") .empty hc (by decide) (by decide) (decodePack_magic d1) d5
  obtain rfl : p' = p := Res.ok.inj (q1.symm.trans d1)
  intro o ho
  have ho' : StoredObj st'.db o := by rw [← e2]; exact ho
  obtain ⟨rows, h1, h2, _, h4⟩ := push_effect d1 m1.sql m1.fuel (ascii "/app") Db.empty
  have key : ∀ m, p'.result.hashObject m.id = some m → m.t ≠ .tag → m ∈ appObjects := by
    intro m hm ht
    rw [d2] at hm
    rcases List.mem_append.1 ((tag_found _ _).1 hm).1 with h | h
    · exact h
    · rw [List.mem_singleton.1 h] at ht
      exact absurd rfl ht
  have hdb : ∀ x, (savePackfile m1.sql m1.fuel p' (ascii "/app") Db.empty).2 = x → x.nodes = st'.db.nodes ∧ x.commits = st'.db.commits := by
    intro x e
    have e' : savePackfile m1.sql m1.fuel p' (ascii "/app") Db.empty = (Res.ok (), db1') := q2
    rw [e'] at e
    rw [← e]
    exact ⟨q3.symm, q4.symm⟩
  obtain ⟨k1, k2⟩ := hdb _ rfl
  rcases ho' with ⟨n, hn, rfl⟩ | ⟨r, hr, rfl⟩
  · rw [← k1, h1] at hn
    rcases List.mem_append.1 hn with hn | hn
    · cases hn
    obtain ⟨m, hm, e, _⟩ := h2 n hn
    rw [← e]
    refine key m hm ?_
    rw [e]
    show (Spec.nodeObj n).1 ≠ .tag
    simp only [Spec.nodeObj]
    split <;> simp
  · rw [← k2] at hr
    rcases h4 r hr with h | ⟨_, _, m, c, hm, ht, hd, _⟩
    · cases h
    · have hmem := key m hm (by rw [ht]; simp)
      have := (metaOf_of_new (appObjects_new m hmem)).2
      rw [hd, ← ht, this]
      exact hmem

/-- A new ref for the annotated tag. -/
def tagCmd : Spec.PushCmd := { old := zeroId, new := Hash.toPlainStr appTag.id, name := ascii "refs/tags/v1" }

theorem tagCmd_ok : tagCmd.Ok := ⟨by decide, by decide, by decide +kernel, by decide +kernel, by decide, by decide, by decide⟩

/-- A client that has the commit and wants the tag. -/
def tagLines : List Spec.ReqLine := [.want tagCmd.new (ascii " multi_ack_detailed side-band-64k\n"), .flush, .have_ appCmd.new (ascii "\n")]

theorem tagLines_ok : ∀ l ∈ tagLines, l.Ok := by
  intro l hl
  simp only [tagLines, List.mem_cons, List.not_mem_nil, or_false] at hl
  rcases hl with rfl | rfl | rfl
  · exact ⟨tagCmd_ok.2.2.1, tagCmd_ok.2.2.2.1, ⟨0x20, ascii "multi_ack_detailed side-band-64k\n", by decide, by decide⟩, by decide⟩
  · trivial
  · exact ⟨appCmd_ok.2.2.1, appCmd_ok.2.2.2.1, ⟨10, [], by decide, by simp⟩, by decide⟩

theorem tagLines_asks : Spec.Asks tagLines (ascii "multi_ack_detailed") :=
  ⟨ascii " multi_ack_detailed side-band-64k\n", [ascii "multi_ack_detailed", ascii "side-band-64k\n"], rfl, ⟨by decide, by decide, by decide⟩, .inl (by decide)⟩

/-- C143 fails: a commit and an annotated tag are pushed with the ref `refs/tags/v1` for the tag; the report says ok and the ref is stored. A clone is answered, and its pack
has objects, but no tag; a client that has the commit and asks for the tag is cut off. -/
example : ∃ (m1 m2 : Moment) (pack rep out : Bytes) (s : ServerState) (file : Bytes) (lines : List Bytes) (caps : List Capability),
    serve demoServer m1 .empty (Spec.pushReq (ascii "/app" ++ ascii ".git") (Spec.pushBody tagCmd [] (ascii "report-status") pack)) = (.reply (.ok (.bytes rep)), s) ∧
    Spec.reportLines false rep = some [ascii "unpack ok\n", ascii "ok refs/tags/v1" ++ [0]] ∧
    { repoPath := ascii "/app", refName := ascii "refs/tags/v1" ++ [0], refGitId := Hash.toPlainStr appTag.id } ∈ s.db.refs ∧
    (serve demoServer m2 s (Spec.fetchReq (ascii "/app" ++ []) (doneBody cloneLines (ascii "\n") []))).1 = .reply (.ok (.bytes out)) ∧
    out = lines.flatMap (fun l => hex4 (l.length + 4) ++ l) ++ sendPack caps (m2.cut file) ∧
    (file = [] ∨ ∃ ms, PackHas polyExt file ms ∧ ∀ x ∈ ms, x.t ≠ .tag ∧ x.id ≠ appTag.id) ∧
    (serve demoServer m2 s (Spec.fetchReq (ascii "/app" ++ []) (doneBody tagLines (ascii "\n") []))).1 = .reply .panic := by
  obtain ⟨pack, hpack⟩ := tag_packOf demoServer.D.fold
  obtain ⟨m1, hm1⟩ : ∃ m1 : Moment, m1 = { demoMoment with fuel := 7 } := ⟨_, rfl⟩
  have hlen : tagEntries.length = 6 := objectsAt_length polyExt 12 tagObjects
  have hsql : m1.sql = demoSql := by rw [hm1]; rfl
  have hfo : m1.sql.fold = demoServer.D.fold := by rw [hsql]; rfl
  have hacc : Spec.Accepts m1.sql := by rw [hsql]; exact ⟨fun _ _ => rfl, fun _ _ => rfl, fun _ _ => rfl, fun _ _ => rfl⟩
  have hun0 : UniqueIds polyExt (runServer demoServer .empty []).db := by
    intro a b ha
    rcases ha with ⟨n, hn, _⟩ | ⟨n, hn, _⟩ <;> cases hn
  obtain ⟨push, hpush⟩ : ∃ push, push = Spec.pushReq (ascii "/app" ++ ascii ".git") (Spec.pushBody tagCmd [] (ascii "report-status") pack) := ⟨_, rfl⟩
  have objs := tag_stored hpack tagCmd_ok rfl hm1
  rw [← hpush] at objs
  have hroute : route push.method push.path push.service = .receivePack (ascii "/app") := by rw [hpush]; exact route_push app_clean_url (.inr rfl)
  obtain ⟨n, hn⟩ := tagEntries_mem (m := appTag) (by simp [tagObjects])
  obtain ⟨nc, hnc⟩ := tagEntries_mem (m := metaOf polyExt (.commit, appCommit.encode)) (by simp [tagObjects, appObjects, appThin])
  have hcol : ∀ x, StoredObj (runServer demoServer .empty [(m1, push)]).db x → idOf polyExt x = idOf polyExt (appTag.t, appTag.data) → x = (appTag.t, appTag.data) := by
    intro x hx e
    have := List.inj_on_of_nodup_map tagObjects_ids (List.mem_append_left _ (objs x hx)) (show appTag ∈ tagObjects by simp [tagObjects]) e
    exact Prod.ext (congrArg MetaData.t this) (congrArg MetaData.data this)
  have hsame : Spec.SameFold demoServer.D.fold [(m1, push)] := by
    intro q hq
    rw [List.mem_singleton.1 hq]
    exact hfo
  have habove : Spec.NoneAbove demoServer.D.fold (ascii "/app") [(m1, push)] := by
    have hrepo : ∀ q ∈ [(m1, push)], ∀ a, q.2.repo = some a → a = ascii "/app" := by
      intro q hq a ha
      rw [List.mem_singleton.1 hq, HttpReq.repo, hroute] at ha
      exact (Option.some.inj ha).symm
    intro a ha b hb x y hx hy _ _
    rw [hrepo a ha x hx, hrepo b hb y hy]
  obtain ⟨m2, hm2⟩ : ∃ m2 : Moment, m2 = { demoMoment with fuel := (runServer demoServer .empty [(m1, push)]).db.nodes.length } := ⟨_, rfl⟩
  have hord : ∀ l x, x ∈ m2.ord l ↔ x ∈ l := by rw [hm2]; exact fun _ _ => .rfl
  obtain ⟨rep, r1, r2, r3, r4⟩ := C143_lost_false demoServer demoFold_hash (ascii "/app") (ascii ".git") app_clean_url (.inr rfl) [] m1 hun0 hfo hacc tagCmd tagCmd_ok rfl
    (ascii "report-status") (by decide) (by decide) tagEntries pack (hpack _) tag_project (by rw [hlen, hm1]; decide) _ hn rfl rfl
  obtain ⟨_, out, file, _, _, c1, c2, _⟩ := C111_published_partial demoServer demoFold_hash (ascii "/app") (ascii ".git") [] app_clean_url (.inr rfl) (.inl rfl) [] [] m1 m2 tagCmd tagCmd_ok
    (ascii "report-status") (by decide) (by decide) (.inl rfl) tagEntries pack (hpack _) tag_project ⟨_, hnc, rfl⟩ push hpush hacc (by rw [hlen, hm1]; decide) hsame (by rw [hm2]; rfl) habove
    (app_unique objs) (app_fits objs) (by rw [hm2]; exact Nat.le_refl _) hord (by rw [hm2]; exact demoCut_ok) cloneLines (ascii "\n") [] cloneLines_ok
  obtain ⟨lines, caps, file, k1, _, k2⟩ := r4 [] (ascii "/app") [(m1, push)] (by rw [hpush]; rfl) hsame habove (app_unique objs) hcol (app_fits objs) m2 (by rw [hm2]; rfl) hord _
    (route_fetch app_clean_url (.inl rfl)) out c1
  have hpanic := C143_fetch_false demoServer (u := ascii "/app") (g := []) app_clean_url (.inl rfl) [(m1, push)] m2 hord (appTag.t, appTag.data) rfl hcol tagLines tagLines_ok (ascii "\n") []
    (by decide) (by simp [tagLines, Spec.haveIds]) tagLines_asks (by
      intro x hx
      simp only [tagLines, Spec.wantIds] at hx
      have : x = tagCmd.new := by simpa using hx
      exact this)
  have hside : decide (Capability.sideBand ∈ parseCapabilities (ascii "report-status") ∨ Capability.sideBand64k ∈ parseCapabilities (ascii "report-status")) = false := by
    decide +kernel
  rw [hside, show Spec.statusLine (tagCmd.name ++ [0]) none = ascii "ok refs/tags/v1" ++ [0] by decide] at r2
  subst hpush
  exact ⟨m1, m2, pack, rep, out, (serve demoServer m1 .empty (Spec.pushReq (ascii "/app" ++ ascii ".git") (Spec.pushBody tagCmd [] (ascii "report-status") pack))).2, file, lines, caps,
    Prod.ext r1 rfl, r2, r3, c1, k1, k2, hpanic⟩

/-- A new ref for the commit. -/
def lightCmd : Spec.PushCmd := { old := zeroId, new := appCmd.new, name := ascii "refs/tags/v1" }

theorem lightCmd_ok : lightCmd.Ok := ⟨by decide, by decide, by decide +kernel, by decide +kernel, by decide, by decide, by decide⟩

/-- C143: the same six objects are pushed with the ref `refs/tags/v1` for the commit; whoever clones finds the commit, with the file `src/a`. -/
example : ∃ (m1 m2 : Moment) (pack rep out file : Bytes) (s : ServerState) (q : Pack),
    serve demoServer m1 .empty (Spec.pushReq (ascii "/app" ++ ascii ".git") (Spec.pushBody lightCmd [] (ascii "report-status") pack)) = (.reply (.ok (.bytes rep)), s) ∧
    Spec.reportLines false rep = some [ascii "unpack ok\n", ascii "ok refs/tags/v1" ++ [0]] ∧
    { repoPath := ascii "/app", refName := ascii "refs/tags/v1" ++ [0], refGitId := Hash.toPlainStr (idOf polyExt (.commit, appCommit.encode)) } ∈ s.db.refs ∧
    (serve demoServer m2 s (Spec.fetchReq (ascii "/app" ++ []) (doneBody cloneLines (ascii "\n") []))).1 = .reply (.ok (.bytes out)) ∧
    Spec.readClone out = some file ∧ decodePack polyExt (fun _ => none) 1 file = .ok q ∧
    q.result.hashObject (idOf polyExt (.commit, appCommit.encode)) = some (metaOf polyExt (.commit, appCommit.encode)) ∧
    Spec.CheckedOut q.result.hashObject (idOf polyExt (.commit, appCommit.encode)) [ascii "src", ascii "a"] (ascii "100644") (ascii "one") := by
  obtain ⟨pack, hpack⟩ := tag_packOf demoServer.D.fold
  obtain ⟨m1, hm1⟩ : ∃ m1 : Moment, m1 = { demoMoment with fuel := 7 } := ⟨_, rfl⟩
  have hlen : tagEntries.length = 6 := objectsAt_length polyExt 12 tagObjects
  have hsql : m1.sql = demoSql := by rw [hm1]; rfl
  have hfo : m1.sql.fold = demoServer.D.fold := by rw [hsql]; rfl
  have hacc : Spec.Accepts m1.sql := by rw [hsql]; exact ⟨fun _ _ => rfl, fun _ _ => rfl, fun _ _ => rfl, fun _ _ => rfl⟩
  obtain ⟨push, hpush⟩ : ∃ push, push = Spec.pushReq (ascii "/app" ++ ascii ".git") (Spec.pushBody lightCmd [] (ascii "report-status") pack) := ⟨_, rfl⟩
  have objs := tag_stored hpack lightCmd_ok rfl hm1
  rw [← hpush] at objs
  have hroute : route push.method push.path push.service = .receivePack (ascii "/app") := by rw [hpush]; exact route_push app_clean_url (.inr rfl)
  obtain ⟨nc, hnc⟩ := tagEntries_mem (m := metaOf polyExt (.commit, appCommit.encode)) (by simp [tagObjects, appObjects, appThin])
  have hsame : Spec.SameFold demoServer.D.fold [(m1, push)] := by
    intro q hq
    rw [List.mem_singleton.1 hq]
    exact hfo
  have habove : Spec.NoneAbove demoServer.D.fold (ascii "/app") [(m1, push)] := by
    have hrepo : ∀ q ∈ [(m1, push)], ∀ a, q.2.repo = some a → a = ascii "/app" := by
      intro q hq a ha
      rw [List.mem_singleton.1 hq, HttpReq.repo, hroute] at ha
      exact (Option.some.inj ha).symm
    intro a ha b hb x y hx hy _ _
    rw [hrepo a ha x hx, hrepo b hb y hy]
  obtain ⟨m2, hm2⟩ : ∃ m2 : Moment, m2 = { demoMoment with fuel := (runServer demoServer .empty [(m1, push)]).db.nodes.length } := ⟨_, rfl⟩
  obtain ⟨rep, out, file, r1, r2, r3, r4, r5, r6⟩ := C143_light_partial demoServer demoFold_hash (ascii "/app") (ascii ".git") [] app_clean_url (.inr rfl) (.inl rfl) [] [] m1 m2 lightCmd lightCmd_ok
    rfl (ascii "report-status") (by decide) (by decide) tagEntries pack (hpack _) tag_project _ hnc rfl rfl push hpush hacc (by rw [hlen, hm1]; decide) hsame (by rw [hm2]; rfl) habove
    (app_unique objs) (app_fits objs) (by rw [hm2]; exact Nat.le_refl _) (by rw [hm2]; exact fun _ _ => .rfl) (by rw [hm2]; exact demoCut_ok) cloneLines (ascii "\n") [] cloneLines_ok
  obtain ⟨q, q1, q2, q3⟩ := r6 (fun _ => none) 0
  have hside : decide (Capability.sideBand ∈ parseCapabilities (ascii "report-status") ∨ Capability.sideBand64k ∈ parseCapabilities (ascii "report-status")) = false := by
    decide +kernel
  rw [hside, show Spec.statusLine (lightCmd.name ++ [0]) none = ascii "ok refs/tags/v1" ++ [0] by decide] at r2
  subst hpush
  refine ⟨m1, m2, pack, rep, out, file, (serve demoServer m1 .empty (Spec.pushReq (ascii "/app" ++ ascii ".git") (Spec.pushBody lightCmd [] (ascii "report-status") pack))).2, q,
    Prod.ext r1 rfl, r2, r3 (by simp), r4, r5, q1, q2, (q3 _ _ _).1 ?_⟩
  show Spec.CheckedOut (Spec.found polyExt tagEntries) (metaOf polyExt (.commit, appCommit.encode)).id _ _ _
  have find : ∀ m ∈ appObjects, Spec.found polyExt tagEntries m.id = some m := fun m hm => (tag_found _ _).2 ⟨List.mem_append_left _ hm, rfl⟩
  refine ⟨metaOf polyExt (.commit, appCommit.encode), appCommit, rfl, find _ (by simp [appObjects, appThin]), rfl, appCommit_decode, ?_⟩
  refine .dir (metaOf polyExt (.tree, encodeTree appItems)) appItems (dirItem "src" (idOf polyExt (.tree, encodeTree srcA))) _ _ _
    (find _ (by simp [appObjects, appThin])) rfl appItems_decode (by simp [appItems]) rfl ?_
  exact .file (metaOf polyExt (.tree, encodeTree srcA)) appBlob srcA (fileItem "a" (polyId .blob (ascii "one"))) (find _ (by simp [appObjects, appThin])) rfl srcA_decode
    (by simp [srcA]) (by decide) rfl (find _ (by simp [appObjects])) rfl

end Gust

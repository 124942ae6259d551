import Verif.Props.Schema
import Verif.Props.PublishExamples

/-! # C117, C118, C119 on concrete pushes -/

namespace Gust

/-! ## A database with exactly the limits of the dump -/

theorem RefRow.fits_not_refused {r : RefRow} (h : r.fits = true) : r.refused = false := by
  simp only [RefRow.fits, Bool.and_eq_true, decide_eq_true_eq] at h
  simp only [RefRow.refused, Bool.or_eq_false_iff]
  exact ⟨⟨not_overlong h.1.1, not_overlong h.1.2⟩, not_overlong h.2⟩

theorem CommitRow.fits_not_refused {r : CommitRow} (h : r.fits = true) : r.refused = false := by
  simp only [CommitRow.fits, Bool.and_eq_true, decide_eq_true_eq] at h
  simp only [CommitRow.refused, Bool.or_eq_false_iff, decide_eq_false_iff_not]
  exact ⟨⟨⟨not_overlong h.1.1.1, not_overlong h.1.1.2⟩, by omega⟩, not_overlong h.2⟩

theorem NodeRow.fits_not_refused {r : NodeRow} (h : r.fits = true) : r.refused = false := by
  simp only [NodeRow.fits, Bool.and_eq_true, decide_eq_true_eq] at h
  simp only [NodeRow.refused, Bool.or_eq_false_iff, decide_eq_false_iff_not]
  exact ⟨⟨⟨⟨not_overlong h.1.1.1.1, not_overlong h.1.1.1.2⟩, not_overlong h.1.1.2⟩, by omega⟩, by omega⟩

/-- The database of the examples, with the limits of the dump. -/
def dumpSql : SqlExt :=
  { demoSql with
    acceptNodes := fun _ rows => rows.all NodeRow.fits
    acceptCommits := fun _ rows => rows.all CommitRow.fits
    acceptRefs := fun _ rows => rows.all RefRow.fits
    acceptUpdate := fun _ id => decide (chars id ≤ 40) }

theorem dumpSql_schema : Spec.SchemaOnly dumpSql where
  nodes := by
    rintro n rows ⟨r, hr, h⟩
    show rows.all NodeRow.fits = false
    rw [List.all_eq_false]
    exact ⟨r, hr, fun hf => by rw [NodeRow.fits_not_refused hf] at h; cases h⟩
  commits := by
    rintro n rows ⟨r, hr, h⟩
    show rows.all CommitRow.fits = false
    rw [List.all_eq_false]
    exact ⟨r, hr, fun hf => by rw [CommitRow.fits_not_refused hf] at h; cases h⟩
  refs := by
    rintro n rows ⟨r, hr, h⟩
    show rows.all RefRow.fits = false
    rw [List.all_eq_false]
    exact ⟨r, hr, fun hf => by rw [RefRow.fits_not_refused hf] at h; cases h⟩
  updates := by
    intro n id h
    show decide (chars id ≤ 40) = false
    rw [decide_eq_false_iff_not]
    exact fun hf => by rw [not_overlong hf] at h; cases h
  nodes_ok := fun _ _ _ h => List.all_eq_true.2 h
  commits_ok := fun _ _ _ h => List.all_eq_true.2 h
  refs_ok := fun _ _ _ h => List.all_eq_true.2 h
  updates_ok := fun _ _ h => decide_eq_true h

/-- The moment of the examples. -/
def dumpMoment : Moment := { demoMoment with sql := dumpSql, fuel := 6 }

/-! ## The five objects of the other examples -/

theorem app_roomy : Spec.Roomy (Spec.found polyExt appEntries) := by
  have mem : ∀ o, Spec.found polyExt appEntries o.id = some o → o ∈ appObjects := fun o ho => ((app_found _ _).1 ho).1
  refine ⟨?_, ?_, ?_⟩
  · intro o ho _
    have : ∀ o ∈ appObjects, o.data.length < 16 * 1024 * 1024 := by decide +kernel
    exact this o (mem o ho)
  · intro o ho _
    have : ∀ o ∈ appObjects, o.data.length < 10 * 1024 * 1024 := by decide +kernel
    exact this o (mem o ho)
  · intro o items i ho ht hd hi
    have := mem o ho
    simp only [appObjects, appThin, List.mem_append, List.mem_cons, List.not_mem_nil, or_false] at this
    rcases this with (rfl | rfl | rfl | rfl) | rfl
    · cases ht
    · rw [show decodeTree (metaOf polyExt (.tree, encodeTree appItems)).data = .ok appItems from appItems_decode] at hd
      cases hd
      simp only [appItems, List.mem_cons, List.not_mem_nil, or_false] at hi
      rcases hi with rfl | rfl <;> decide +kernel
    · rw [show decodeTree (metaOf polyExt (.tree, encodeTree srcA)).data = .ok srcA from srcA_decode] at hd
      cases hd
      simp only [srcA, List.mem_cons, List.not_mem_nil, or_false] at hi
      subst hi
      decide +kernel
    all_goals cases ht

/-- Whatever the five objects are pushed to on the empty server, the push is answered. -/
theorem app_pushed {u : Bytes} (hu : Spec.CleanUrl u) {c : Spec.PushCmd} (hc : c.Ok) (hcreate : c.old = zeroId) :
    ∃ (pack rep : Bytes) (p : Pack), (ascii "PACK").isPrefixOf pack = true ∧
      decodePack polyExt (getHashObject polyExt dumpSql Db.empty) 6 pack = .ok p ∧ p.result.hashObject = Spec.found polyExt appEntries ∧
      (serve demoServer dumpMoment .empty (Spec.pushReq (u ++ ascii ".git") (Spec.pushBody c [] (ascii "report-status") pack))).1 = .reply (.ok (.bytes rep)) ∧
      Spec.PushedAny demoServer u c (ascii "report-status") pack rep dumpMoment []
        [(dumpMoment, .http (Spec.pushReq (u ++ ascii ".git") (Spec.pushBody c [] (ascii "report-status") pack)))] := by
  obtain ⟨pack, hpack⟩ := app_packOf demoServer.D.fold Db.empty
  obtain ⟨m, hm⟩ : ∃ m : Moment, m = dumpMoment := ⟨_, rfl⟩
  have hlen : appEntries.length = 5 := objectsAt_length polyExt 12 appObjects
  have hsql : m.sql = dumpSql := by rw [hm]; rfl
  have hfuel : m.fuel = 6 := by rw [hm]; rfl
  have hun0 : UniqueIds polyExt (runServer demoServer .empty []).db := by
    intro a b ha
    rcases ha with ⟨n, hn, _⟩ | ⟨n, hn, _⟩ <;> cases hn
  obtain ⟨rep, r1, _⟩ := C119_accepted_partial demoServer demoFold_hash u (ascii ".git") hu (.inr rfl) [] m hun0 (by rw [hsql]; rfl) (by rw [hsql]; exact dumpSql_schema) c hc
    (ascii "report-status") (by decide) (by decide) (.inl hcreate) appEntries pack hpack app_project app_roomy (by rw [hlen, hfuel]; decide)
  obtain ⟨p, d1, d2⟩ := packOf_decodes demoServer demoFold_hash hun0 (E := dumpSql) rfl hpack (fuel := 6) (by decide)
  rw [← hm]
  exact ⟨pack, rep, p, decodePack_magic d1, d1, d2, r1, .http [] (ascii ".git") hu (.inr rfl) r1⟩

/-! ## C117 -/

/-- The command that creates `refs/heads/feature/login-page-redesign`. -/
def longCmd : Spec.PushCmd := { appCmd with name := ascii "refs/heads/feature/login-page-redesign" }

theorem longCmd_ok : longCmd.Ok := by
  refine ⟨by decide, by decide, by decide +kernel, by decide +kernel, by decide, by decide, by decide⟩

/-- A repository of a server without refs is shown as empty. -/
theorem shows_nothing (P : ServerExt) {u g : Bytes} (hu : Spec.CleanUrl u) (hg : g = [] ∨ g = ascii ".git") (m : Moment) (s : ServerState) (hs : s.db.refs = []) (t : ServiceType) :
    ∃ out s', serve P m s (Spec.refsReq (u ++ g) t) = (.reply (.ok (.bytes out)), s') ∧ Spec.Shows t out zeroId [] := by
  have hr : route .get (u ++ g ++ ascii "/info/refs") (some t.display) = .infoRefs u t := route_discover hu hg t
  have none : ∀ x, x ∈ searchRefs m.sql s.db u → False := by
    intro x hx
    have := (List.Perm.mem_iff (m.sql.order_perm _)).1 hx
    rw [hs] at this
    cases this
  have h1 : getHeadObjectId P.X m.sql s.db u = (.ok zeroId, s.db) := by
    unfold getHeadObjectId
    rw [List.find?_eq_none.2 (fun x hx => (none x hx).elim)]
    simp only
    rw [List.find?_eq_none.2 (fun x hx => (none x hx).elim)]
  obtain ⟨out, h2⟩ : ∃ out, advertise P.X m.sql .http t s.db u = (.ok out, s.db) := by
    unfold advertise
    rw [h1]
    exact ⟨_, rfl⟩
  have e0 : Spec.refsAt m.sql.fold s.db.refs u = [] := by rw [hs]; rfl
  obtain ⟨head, refs, pkts, k1, k2, k3, k4⟩ := C52_advertised_partial P.X m.sql s.db s.db t u out h2 (by rw [e0]; exact List.nodup_nil) (by rw [e0]; intro r hr; cases hr)
  rw [h1] at k1
  cases k1
  rw [e0] at k4
  rw [List.Perm.eq_nil k4] at k3
  have e : (serve P m s (Spec.refsReq (u ++ g) t)).1 = .reply (.ok (.bytes out)) := by
    simp only [serve, Spec.refsReq, hr]
    rw [h2]
    rfl
  exact ⟨out, (serve P m s (Spec.refsReq (u ++ g) t)).2, Prod.ext e rfl, pkts, k2, k3⟩

/-- **C117 is false**: on an empty server with the tables of the dump, the first push of a project, to the branch `feature/login-page-redesign` of `/app.git`, is answered with `ok`; there are no refs
afterwards, and a client that asks is told that the repository is empty. -/
theorem C117_branch_false : ∃ pack rep out s,
    (serve demoServer dumpMoment .empty (Spec.pushReq (ascii "/app.git") (Spec.pushBody longCmd [] (ascii "report-status") pack))) = (.reply (.ok (.bytes rep)), s) ∧
    Spec.reportLines false rep = some [ascii "unpack ok\n", ascii "ok refs/heads/feature/login-page-redesign" ++ [0]] ∧ s.db.refs = [] ∧
    ∃ s', serve demoServer dumpMoment s (Spec.refsReq (ascii "/app.git") .uploadPack) = (.reply (.ok (.bytes out)), s') ∧ Spec.Shows .uploadPack out zeroId [] := by
  obtain ⟨pack, rep, p, hp, _, _, ha, hpush⟩ := app_pushed app_clean_url longCmd_ok rfl
  obtain ⟨r1, r2⟩ := C117_long_false demoServer (ascii "/app") longCmd longCmd_ok rfl (ascii "report-status") (by decide) (by decide) pack rep hp dumpMoment
    dumpSql_schema.toSchema [] _ hpush (.inl (by decide))
  have hside : decide (Capability.sideBand ∈ parseCapabilities (ascii "report-status") ∨ Capability.sideBand64k ∈ parseCapabilities (ascii "report-status")) = false := by
    decide +kernel
  rw [hside, show Spec.statusLine (longCmd.name ++ [0]) none = ascii "ok refs/heads/feature/login-page-redesign" ++ [0] by decide] at r1
  have e : (serve demoServer dumpMoment .empty (Spec.pushReq (ascii "/app" ++ ascii ".git") (Spec.pushBody longCmd [] (ascii "report-status") pack))).2.db.refs = [] := r2
  obtain ⟨out, s', k1, k2⟩ := shows_nothing demoServer app_clean_url (.inr rfl) dumpMoment _ e .uploadPack
  rw [show ascii "/app.git" = ascii "/app" ++ ascii ".git" by decide]
  refine ⟨pack, rep, out, (serve demoServer dumpMoment .empty (Spec.pushReq (ascii "/app" ++ ascii ".git") (Spec.pushBody longCmd [] (ascii "report-status") pack))).2, ?_, r1, e, s', k1, k2⟩
  generalize serve demoServer dumpMoment .empty (Spec.pushReq (ascii "/app" ++ ascii ".git") (Spec.pushBody longCmd [] (ascii "report-status") pack)) = q at ha
  cases q
  exact Prod.ext ha rfl

/-- C117: a short name is stored. -/
example : ∃ pack, (runBoth demoServer .empty [(dumpMoment, .http (Spec.pushReq (ascii "/app" ++ ascii ".git") (Spec.pushBody appCmd [] (ascii "report-status") pack)))]).web.db.refs =
    [{ repoPath := ascii "/app", refName := ascii "refs/heads/master" ++ [0], refGitId := appCmd.new }] := by
  obtain ⟨pack, rep, p, hp, _, _, ha, hpush⟩ := app_pushed app_clean_url appCmd_ok rfl
  refine ⟨pack, ?_⟩
  rw [C117_created_partial demoServer (ascii "/app") appCmd appCmd_ok rfl (ascii "report-status") (by decide) (by decide) pack rep hp dumpMoment dumpSql_schema [] _ hpush
    (by decide) (by decide)]
  rfl

/-- C117: after the push to the long branch, whatever else has happened before, no name of more than 32 characters is shown, and no id of more than 40. -/
example (pack : Bytes) (out : Bytes) (s : ServerState)
    (hout : serve demoServer dumpMoment (runBoth demoServer .empty [(dumpMoment, .http (Spec.pushReq (ascii "/app.git") (Spec.pushBody longCmd [] (ascii "report-status") pack)))]).web
      (Spec.refsReq (ascii "/app" ++ []) .uploadPack) = (.reply (.ok (.bytes out)), s))
    (hid : ((Spec.refsAt demoServer.D.fold s.db.refs (ascii "/app")).map RefRow.refGitId).Nodup) (ht : ∀ r ∈ Spec.refsAt demoServer.D.fold s.db.refs (ascii "/app"), Spec.RefText r) :
    ∃ head refs, Spec.Shows .uploadPack out head refs ∧ ∀ p ∈ refs, overlong 32 p.2 = false ∧ overlong 40 p.1 = false :=
  C117_never_shown demoServer (ascii "/app") [] app_clean_url (.inl rfl) _ (by
    intro q hq
    rw [List.mem_singleton.1 hq]
    exact dumpSql_schema.toSchema) dumpMoment dumpSql_schema.toSchema rfl .uploadPack out s hout hid ht

/-! ## C118 -/

/-- A path of 201 characters. -/
def longPath : Bytes := ascii "/" ++ List.replicate 200 0x61

theorem infix_mem {a : Bytes} {x : UInt8} (hx : x ∈ a) {u : Bytes} (h : x ∉ u) : ¬ a <:+: u := fun hi => h (hi.subset hx)

theorem longPath_clean : Spec.CleanUrl longPath :=
  ⟨infix_mem (x := 0x2e) (by decide) (by decide +kernel), infix_mem (x := 0x6f) (by decide) (by decide +kernel), infix_mem (x := 0x2d) (by decide) (by decide +kernel),
    infix_mem (x := 0x2d) (by decide) (by decide +kernel)⟩

/-- **C118 is false**: a push to a repository with a path of 201 characters is answered, and its commit is not stored. -/
example : ∃ pack, (runBoth demoServer .empty [(dumpMoment, .http (Spec.pushReq (longPath ++ ascii ".git") (Spec.pushBody appCmd [] (ascii "report-status") pack)))]).web.db.commits = [] ∧
    ∃ rep, (serve demoServer dumpMoment .empty (Spec.pushReq (longPath ++ ascii ".git") (Spec.pushBody appCmd [] (ascii "report-status") pack))).1 = .reply (.ok (.bytes rep)) := by
  obtain ⟨pack, rep, p, hp, hdec, _, ha, hpush⟩ := app_pushed longPath_clean appCmd_ok rfl
  refine ⟨pack, ?_, rep, ha⟩
  rw [C118_big_false demoServer longPath appCmd appCmd_ok (ascii "report-status") (by decide) (by decide) pack rep hp dumpMoment dumpSql_schema.toSchema [] _ hpush p hdec
    (.inl (by decide +kernel))]
  rfl

/-- C118: otherwise the commit is stored. -/
example : ∃ pack, ∃ r ∈ (runBoth demoServer .empty [(dumpMoment, .http (Spec.pushReq (ascii "/app" ++ ascii ".git") (Spec.pushBody appCmd [] (ascii "report-status") pack)))]).web.db.commits,
    r.gitId = appCmd.new ∧ r.data = appCommit.encode ∧ r.repoPath = ascii "/app" := by
  obtain ⟨pack, rep, p, hp, hdec, hf, ha, hpush⟩ := app_pushed app_clean_url appCmd_ok rfl
  refine ⟨pack, (C118_stored_partial demoServer (ascii "/app") appCmd appCmd_ok (ascii "report-status") (by decide) (by decide) pack rep hp dumpMoment dumpSql_schema [] _ hpush p hdec
    (by decide) ?_).1 (metaOf polyExt (.commit, appCommit.encode)) ?_ rfl⟩
  · intro o ho _
    rw [hf] at ho
    have : ∀ o ∈ appObjects, o.data.length ≤ 65535 := by decide +kernel
    exact this o ((app_found _ _).1 ho).1
  · rw [hf]
    exact (app_found _ _).2 ⟨by simp [appObjects, appThin], rfl⟩

/-! ## A project with one file -/

/-- A hash that only depends on the kind of the object, which is enough for a project with one object of each kind. -/
def kindSha1 (b : Bytes) : Hash := ⟨b.headD 0 :: List.replicate 19 0, rfl⟩

def kindExt : Ext := { demoExt with sha1 := kindSha1 }

def kindServer : ServerExt := { demoServer with X := kindExt }

def kindId (x : UInt8) : Hash := ⟨x :: List.replicate 19 0, rfl⟩

/-- The directory with one file called `name`. -/
def oneItems (name : Bytes) : List TreeItem := [{ mode := ascii "100644", itemType := .blob, id := kindId 0x62, filename := name }]

/-- The commit with this message. -/
def oneCommit (message : Bytes) : Commit := { exampleCommit [] with treeId := kindId 0x74, message := message }

theorem oneCommit_decode {message : Bytes} (h : utf8Valid message = true) : Commit.decode (oneCommit message).encode = .ok (oneCommit message) :=
  commit_decode_encode _ ⟨(exampleCommit_ok []).author, (exampleCommit_ok []).author_line, (exampleCommit_ok []).author_role, (exampleCommit_ok []).committer,
    (exampleCommit_ok []).committer_line, h⟩

def oneTreeObj (name : Bytes) : MetaData := metaOf kindExt (.tree, encodeTree (oneItems name))
def oneCommitObj (message : Bytes) : MetaData := metaOf kindExt (.commit, (oneCommit message).encode)
def oneBlobObj (content : Bytes) : MetaData := metaOf kindExt (.blob, content)

theorem oneTreeObj_id (name : Bytes) : (oneTreeObj name).id = kindId 0x74 := rfl
theorem oneCommitObj_id (message : Bytes) : (oneCommitObj message).id = kindId 0x63 := rfl
theorem oneBlobObj_id (content : Bytes) : (oneBlobObj content).id = kindId 0x62 := rfl

/-- The three objects, in some order. -/
structure OneFile (name message content : Bytes) (ms : List MetaData) : Prop where
  mem : ∀ m, m ∈ ms ↔ m = oneTreeObj name ∨ m = oneCommitObj message ∨ m = oneBlobObj content
  three : ms.length = 3
  name_ok : (0x00 : UInt8) ∉ name ∧ utf8Valid name = true
  message_ok : utf8Valid message = true
  size : ∀ m ∈ ms, m.data.length < 2 ^ 61
  offsets : ∀ p ∈ entriesAt kindExt 12 ms, p.1 < 2 ^ 32

namespace OneFile

variable {name message content : Bytes} {ms : List MetaData} (h : OneFile name message content ms)
include h

theorem new : ∀ m ∈ ms, MetaData.new kindExt m.t m.data = .ok m := by
  intro m hm
  rcases (h.mem m).1 hm with rfl | rfl | rfl
  · exact new_metaOf kindExt (.tree, _) rfl
  · exact new_metaOf kindExt (.commit, _) rfl
  · exact new_metaOf kindExt (.blob, _) rfl

theorem inj : ∀ a ∈ ms, ∀ b ∈ ms, a.id = b.id → a = b := by
  intro a ha b hb e
  rcases (h.mem a).1 ha with rfl | rfl | rfl <;> rcases (h.mem b).1 hb with rfl | rfl | rfl <;> first | rfl | (simp only [oneTreeObj_id, oneCommitObj_id, oneBlobObj_id] at e; exact absurd e (by decide))

theorem ids : Spec.NoCollision (idOf kindExt) (objectsAt kindExt 12 ms) := noCollision_objectsAt h.new h.inj 12

theorem found (x : Hash) (m : MetaData) : Spec.found kindExt (objectsAt kindExt 12 ms) x = some m ↔ m ∈ ms ∧ m.id = x := by
  rw [found_iff h.ids]
  constructor
  · rintro ⟨p, hp, rfl, e⟩
    obtain ⟨a, m, b, e1, rfl⟩ := mem_objectsAt.1 hp
    have hm : m ∈ ms := by rw [e1]; simp
    have e2 := (metaOf_of_new (h.new m hm)).2
    simp only at e ⊢
    rw [e2] at e ⊢
    exact ⟨hm, e⟩
  · rintro ⟨hm, e⟩
    obtain ⟨a, b, hs⟩ := List.append_of_mem hm
    exact ⟨_, mem_objectsAt.2 ⟨a, m, b, hs, rfl⟩, (metaOf_of_new (h.new m hm)).2, e⟩

theorem items : decodeTree (oneTreeObj name).data = .ok (oneItems name) := by
  refine C08_tree_roundtrip _ ?_
  intro i hi
  rw [List.mem_singleton.1 hi]
  exact ⟨.inr (.inl rfl), h.name_ok⟩

theorem project : Spec.Project kindExt (objectsAt kindExt 12 ms) := by
  have mem : ∀ o, Spec.found kindExt (objectsAt kindExt 12 ms) o.id = some o → o = oneTreeObj name ∨ o = oneCommitObj message ∨ o = oneBlobObj content :=
    fun o ho => (h.mem o).1 ((h.found _ _).1 ho).1
  have tree : Spec.found kindExt (objectsAt kindExt 12 ms) (kindId 0x74) = some (oneTreeObj name) := (h.found _ _).2 ⟨(h.mem _).2 (.inl rfl), rfl⟩
  have blob : Spec.found kindExt (objectsAt kindExt 12 ms) (kindId 0x62) = some (oneBlobObj content) := (h.found _ _).2 ⟨(h.mem _).2 (.inr (.inr rfl)), rfl⟩
  refine ⟨⟨?_, ?_, ?_, ?_, ?_, ?_⟩, noCycles_of_rank (fun x => if x = kindId 0x74 then 1 else 0) ?_⟩
  · intro o ho
    rcases mem o ho with rfl | rfl | rfl <;> simp [oneTreeObj, oneCommitObj, oneBlobObj, metaOf]
  · intro o ho ht
    rcases mem o ho with rfl | rfl | rfl
    · cases ht
    · exact ⟨oneCommit message, oneCommit_decode h.message_ok, oneTreeObj name, tree, rfl, rfl⟩
    · cases ht
  · intro o ho ht
    rcases mem o ho with rfl | rfl | rfl
    · exact ⟨_, h.items⟩
    all_goals cases ht
  · intro o ho ht
    rcases mem o ho with rfl | rfl | rfl <;> cases ht
  · intro o items i _ ho ht hd hi
    rcases mem o ho with rfl | rfl | rfl
    · rw [h.items] at hd
      cases hd
      rw [List.mem_singleton.1 hi]
      exact ⟨oneBlobObj content, blob, rfl, rfl⟩
    all_goals cases ht
  · intro o items _ ho ht hd
    rcases mem o ho with rfl | rfl | rfl
    · rw [h.items] at hd
      cases hd
      simp [oneItems]
    all_goals cases ht
  · intro o items i ho ht hd hi
    rcases mem o ho with rfl | rfl | rfl
    · rw [h.items] at hd
      cases hd
      rw [List.mem_singleton.1 hi, oneTreeObj_id]
      show (if kindId 0x62 = kindId 0x74 then 1 else 0) < _
      decide
    all_goals cases ht

theorem packOf (fold : Bytes → Bytes) (db : Db) : ∃ pack, Spec.PackOf kindExt fold db pack (objectsAt kindExt 12 ms) := by
  have hne : ms ≠ [] := by intro e; have := h.three; rw [e] at this; cases this
  obtain ⟨hd, h1, h2, h3⟩ := packFile_written h.new h.size hne (by rw [h.three]; decide) (⟨List.replicate 20 7, rfl⟩ : Hash)
  refine ⟨_, ⟨_, _, fun _ => none, h3, h.offsets, (fun _ _ e => by cases e), resolves_written (fun m hm => (new_ok (h.new m hm)).1) 12 []⟩, h.ids, ?_⟩
  intro p hp
  obtain ⟨a, m, b, e, rfl⟩ := mem_objectsAt.1 hp
  have := h.size m (by rw [e]; simp)
  simp only
  omega

theorem decodes : ∃ (pack : Bytes) (p : Pack), Spec.PackOf kindExt kindServer.D.fold Db.empty pack (objectsAt kindExt 12 ms) ∧ (ascii "PACK").isPrefixOf pack = true ∧
    decodePack kindExt (getHashObject kindExt dumpSql Db.empty) 6 pack = .ok p ∧ p.result.hashObject = Spec.found kindExt (objectsAt kindExt 12 ms) := by
  obtain ⟨pack, hpack⟩ := h.packOf kindServer.D.fold Db.empty
  have hun0 : UniqueIds kindServer.X (runServer kindServer .empty []).db := by
    intro a b ha
    rcases ha with ⟨n, hn, _⟩ | ⟨n, hn, _⟩ <;> cases hn
  obtain ⟨p, d1, d2⟩ := packOf_decodes kindServer demoFold_hash hun0 (E := dumpSql) rfl hpack (fuel := 6) (by decide)
  exact ⟨pack, p, hpack, decodePack_magic d1, d1, d2⟩

theorem reach_blob : Spec.PackReach (Spec.found kindExt (objectsAt kindExt 12 ms)) (kindId 0x62) := by
  have tree : Spec.found kindExt (objectsAt kindExt 12 ms) (kindId 0x74) = some (oneTreeObj name) := (h.found _ _).2 ⟨(h.mem _).2 (.inl rfl), rfl⟩
  have commit : Spec.found kindExt (objectsAt kindExt 12 ms) (kindId 0x63) = some (oneCommitObj message) := (h.found _ _).2 ⟨(h.mem _).2 (.inr (.inl rfl)), rfl⟩
  exact .item (oneTreeObj name) (oneItems name) _ (.commit (oneCommitObj message) (oneCommit message) commit rfl (oneCommit_decode h.message_ok)) tree rfl h.items (List.mem_singleton.2 rfl)

end OneFile

/-! ## Commits of more than 65535 bytes -/

/-- The command that creates `master` from the commit of a project with one file. -/
def oneCmd : Spec.PushCmd := { old := zeroId, new := Hash.toPlainStr (kindId 0x63), name := ascii "refs/heads/master" }

theorem oneCmd_ok : oneCmd.Ok := by
  refine ⟨by decide, by decide, by decide +kernel, by decide +kernel, by decide, by decide, by decide⟩

/-- A message of `n` characters. -/
def longMessage (n : Nat) : Bytes := List.replicate n 0x61

theorem longMessage_ok (n : Nat) : utf8Valid (longMessage n) = true :=
  utf8Valid_ascii _ (by intro x hx; rw [(List.mem_replicate.1 hx).2]; decide)

/-- A file called `a`, a commit with a message of 70000 characters. -/
def chattyObjects : List MetaData := [oneTreeObj (ascii "a"), oneBlobObj (ascii "one"), oneCommitObj (longMessage 70000)]

theorem oneCommit_length (message : Bytes) : message.length ≤ (oneCommitObj message).data.length ∧ (oneCommitObj message).data.length ≤ 1000 + message.length := by
  have e : (oneCommitObj message).data = (oneCommit []).encode ++ message := by
    show (oneCommit message).encode = _
    simp only [Commit.encode, oneCommit, List.append_nil]
  have h : (oneCommit []).encode.length ≤ 1000 := by decide +kernel
  rw [e, List.length_append]
  omega

theorem chatty_one : OneFile (ascii "a") (longMessage 70000) (ascii "one") chattyObjects where
  mem := by
    intro m
    simp only [chattyObjects, List.mem_cons, List.not_mem_nil, or_false]
    tauto
  three := rfl
  name_ok := ⟨by decide, utf8Valid_ascii _ (by decide)⟩
  message_ok := longMessage_ok _
  size := by
    intro m hm
    simp only [chattyObjects, List.mem_cons, List.not_mem_nil, or_false] at hm
    rcases hm with rfl | rfl | rfl
    · decide +kernel
    · decide +kernel
    · have := (oneCommit_length (longMessage 70000)).2
      rw [show (longMessage 70000).length = 70000 from List.length_replicate] at this
      omega
  offsets := by
    intro p hp
    simp only [chattyObjects, entriesAt, List.mem_cons, List.not_mem_nil, or_false] at hp
    rcases hp with rfl | rfl | rfl <;> decide +kernel

/-- The push of any of these projects that fits is answered. -/
theorem OneFile.pushed {name message content : Bytes} {ms : List MetaData} (h : OneFile name message content ms) (h1 : chars name ≤ 128) (h2 : name.length < 1000000)
    (h3 : content.length < 16 * 1024 * 1024) : ∃ (pack rep : Bytes) (p : Pack), (ascii "PACK").isPrefixOf pack = true ∧
      decodePack kindExt (getHashObject kindExt dumpSql Db.empty) 6 pack = .ok p ∧ p.result.hashObject = Spec.found kindExt (objectsAt kindExt 12 ms) ∧
      (serve kindServer dumpMoment .empty (Spec.pushReq (ascii "/app" ++ ascii ".git") (Spec.pushBody oneCmd [] (ascii "report-status") pack))).1 = .reply (.ok (.bytes rep)) ∧
      Spec.PushedAny kindServer (ascii "/app") oneCmd (ascii "report-status") pack rep dumpMoment []
        [(dumpMoment, .http (Spec.pushReq (ascii "/app" ++ ascii ".git") (Spec.pushBody oneCmd [] (ascii "report-status") pack)))] := by
  obtain ⟨pack, p, hpack, hp, d1, d2⟩ := h.decodes
  obtain ⟨m, hm⟩ : ∃ m : Moment, m = dumpMoment := ⟨_, rfl⟩
  have hlen : (objectsAt kindExt 12 ms).length = 3 := (objectsAt_length kindExt 12 ms).trans h.three
  have hsql : m.sql = dumpSql := by rw [hm]; rfl
  have hfuel : m.fuel = 6 := by rw [hm]; rfl
  have hun0 : UniqueIds kindServer.X (runServer kindServer .empty []).db := by
    intro a b ha
    rcases ha with ⟨n, hn, _⟩ | ⟨n, hn, _⟩ <;> cases hn
  have mem : ∀ o, Spec.found kindExt (objectsAt kindExt 12 ms) o.id = some o → o = oneTreeObj name ∨ o = oneCommitObj message ∨ o = oneBlobObj content :=
    fun o ho => (h.mem o).1 ((h.found _ _).1 ho).1
  have hroom : Spec.Roomy (Spec.found kindExt (objectsAt kindExt 12 ms)) := by
    refine ⟨?_, ?_, ?_⟩
    · intro o ho ht
      rcases mem o ho with rfl | rfl | rfl
      · cases ht
      · cases ht
      · exact h3
    · intro o ho ht
      rcases mem o ho with rfl | rfl | rfl
      · show (encodeTree (oneItems name)).length < _
        simp only [oneItems, encodeTree, encodeTreeItem, List.flatMap_cons, List.flatMap_nil, List.length_append, List.append_nil, List.length_cons, List.length_nil]
        have : (kindId 0x62).1.length = 20 := rfl
        have : (ascii "100644").length = 6 := rfl
        omega
      all_goals cases ht
    · intro o items i ho ht hd hi
      rcases mem o ho with rfl | rfl | rfl
      · rw [h.items] at hd
        cases hd
        rw [List.mem_singleton.1 hi]
        exact h1
      all_goals cases ht
  obtain ⟨rep, r1, _⟩ := C119_accepted_partial kindServer demoFold_hash (ascii "/app") (ascii ".git") app_clean_url (.inr rfl) [] m hun0 (by rw [hsql]; rfl)
    (by rw [hsql]; exact dumpSql_schema) oneCmd oneCmd_ok (ascii "report-status") (by decide) (by decide) (.inl rfl) _ pack hpack h.project hroom (by rw [hlen, hfuel]; decide)
  rw [← hm]
  exact ⟨pack, rep, p, hp, d1, d2, r1, .http [] (ascii ".git") app_clean_url (.inr rfl) r1⟩

/-- **C118 is false**: a project with one file and a commit whose message has 70000 characters is pushed to an empty server with the tables of the dump; the push is answered with `ok` and the ref
is stored, but the commit is not. -/
theorem C118_message_false : ∃ pack rep s,
    serve kindServer dumpMoment .empty (Spec.pushReq (ascii "/app.git") (Spec.pushBody oneCmd [] (ascii "report-status") pack)) = (.reply (.ok (.bytes rep)), s) ∧
    Spec.reportLines false rep = some [ascii "unpack ok\n", ascii "ok refs/heads/master" ++ [0]] ∧
    s.db.refs = [{ repoPath := ascii "/app", refName := ascii "refs/heads/master" ++ [0], refGitId := oneCmd.new }] ∧ s.db.commits = [] := by
  obtain ⟨pack, rep, p, hp, hdec, hf, ha, hpush⟩ := chatty_one.pushed (by decide) (by decide) (by decide)
  have r1 := C118_big_false kindServer (ascii "/app") oneCmd oneCmd_ok (ascii "report-status") (by decide) (by decide) pack rep hp dumpMoment dumpSql_schema.toSchema [] _ hpush p hdec
    (.inr ⟨⟨oneCommitObj (longMessage 70000), by rw [hf]; exact (chatty_one.found _ _).2 ⟨(chatty_one.mem _).2 (.inr (.inl rfl)), rfl⟩, rfl, by
      have := (oneCommit_length (longMessage 70000)).1
      rw [show (longMessage 70000).length = 70000 from List.length_replicate] at this
      omega⟩, chattyObjects, by decide, by
      intro o ho _
      rw [hf] at ho
      exact ((chatty_one.found _ _).1 ho).1⟩)
  have r2 := C117_created_partial kindServer (ascii "/app") oneCmd oneCmd_ok rfl (ascii "report-status") (by decide) (by decide) pack rep hp dumpMoment dumpSql_schema [] _ hpush
    (by decide) (by decide)
  obtain ⟨r3, _⟩ := created_effect oneCmd_ok rfl (by decide) (by decide) hp hpush
  have hside : decide (Capability.sideBand ∈ parseCapabilities (ascii "report-status") ∨ Capability.sideBand64k ∈ parseCapabilities (ascii "report-status")) = false := by
    decide +kernel
  rw [hside, show Spec.statusLine (oneCmd.name ++ [0]) none = ascii "ok refs/heads/master" ++ [0] by decide] at r3
  rw [show ascii "/app.git" = ascii "/app" ++ ascii ".git" by decide]
  refine ⟨pack, rep, (serve kindServer dumpMoment .empty (Spec.pushReq (ascii "/app" ++ ascii ".git") (Spec.pushBody oneCmd [] (ascii "report-status") pack))).2, ?_, r3, r2, r1⟩
  generalize serve kindServer dumpMoment .empty (Spec.pushReq (ascii "/app" ++ ascii ".git") (Spec.pushBody oneCmd [] (ascii "report-status") pack)) = q at ha
  cases q
  exact Prod.ext ha rfl

/-- C118: no commit of more than 65535 bytes is there after a push like that and whatever follows. -/
example (pack : Bytes) (m : Moment) (hm : Spec.Schema m.sql) (i : Visit) : ∀ r ∈ (runBoth kindServer .empty [(dumpMoment, .http (Spec.pushReq (ascii "/app.git")
    (Spec.pushBody oneCmd [] (ascii "report-status") pack))), (m, i)]).web.db.commits, r.data.length ≤ 65535 ∧ overlong 128 r.repoPath = false :=
  C118_never_stored kindServer _ (by
    intro q hq
    rcases List.mem_cons.1 hq with rfl | hq
    · exact dumpSql_schema.toSchema
    · rw [List.mem_singleton.1 hq]
      exact hm)

/-! ## C119 -/

/-- A file of 16 MiB. -/
def bigFile : Bytes := List.replicate (16 * 1024 * 1024) 0

theorem bigFile_length : bigFile.length = 16 * 1024 * 1024 := List.length_replicate

def bigObjects : List MetaData := [oneTreeObj (ascii "a"), oneCommitObj (ascii "add"), oneBlobObj bigFile]

theorem big_one : OneFile (ascii "a") (ascii "add") bigFile bigObjects where
  mem := by
    intro m
    simp only [bigObjects, List.mem_cons, List.not_mem_nil, or_false]
  three := rfl
  name_ok := ⟨by decide, utf8Valid_ascii _ (by decide)⟩
  message_ok := utf8Valid_ascii _ (by decide)
  size := by
    intro m hm
    simp only [bigObjects, List.mem_cons, List.not_mem_nil, or_false] at hm
    rcases hm with rfl | rfl | rfl
    · decide +kernel
    · decide +kernel
    · show bigFile.length < 2 ^ 61
      rw [bigFile_length]
      decide
  offsets := by
    intro p hp
    simp only [bigObjects, entriesAt, List.mem_cons, List.not_mem_nil, or_false] at hp
    rcases hp with rfl | rfl | rfl <;> decide +kernel

/-- **C119 is false**: there is a well-formed pack of a complete project, a commit with one file of 16 MiB, that the empty server with the tables of the dump never answers. -/
theorem C119_file_false : ∃ (os : List (Nat × Spec.Obj)) (pack : Bytes), Spec.PackOf kindExt kindServer.D.fold Db.empty pack os ∧ Spec.Project kindExt os ∧
    ∀ rep, (serve kindServer dumpMoment .empty (Spec.pushReq (ascii "/app.git") (Spec.pushBody oneCmd [] (ascii "report-status") pack))).1 ≠ .reply (.ok (.bytes rep)) := by
  obtain ⟨pack, p, hpack, hp, d1, d2⟩ := big_one.decodes
  refine ⟨_, pack, hpack, big_one.project, ?_⟩
  intro rep hrep
  rw [show ascii "/app.git" = ascii "/app" ++ ascii ".git" by decide] at hrep
  have hblob : p.result.hashObject (kindId 0x62) = some (oneBlobObj bigFile) := by
    rw [d2]
    exact (big_one.found _ _).2 ⟨(big_one.mem _).2 (.inr (.inr rfl)), rfl⟩
  refine C119_big_false kindServer (ascii "/app") oneCmd oneCmd_ok (ascii "report-status") (by decide) (by decide) pack hp dumpMoment dumpSql_schema.toSchema [] p d1
    (kindId 0x62) (by rw [d2]; exact big_one.reach_blob) (oneBlobObj bigFile) hblob ?_ rep _ (.http [] (ascii ".git") app_clean_url (.inr rfl) hrep)
  show _ ≤ bigFile.length
  rw [bigFile_length]

/-- A name of 129 characters. -/
def longName : Bytes := List.replicate 129 0x61

def namedObjects : List MetaData := [oneTreeObj longName, oneCommitObj (ascii "add"), oneBlobObj (ascii "one")]

theorem named_one : OneFile longName (ascii "add") (ascii "one") namedObjects where
  mem := by
    intro m
    simp only [namedObjects, List.mem_cons, List.not_mem_nil, or_false]
  three := rfl
  name_ok := ⟨by decide +kernel, utf8Valid_ascii _ (by decide +kernel)⟩
  message_ok := utf8Valid_ascii _ (by decide)
  size := by decide +kernel
  offsets := by decide +kernel

/-- **C119 is false**: likewise for a file whose name has 129 characters. -/
theorem C119_long_name_false : ∃ (os : List (Nat × Spec.Obj)) (pack : Bytes), Spec.PackOf kindExt kindServer.D.fold Db.empty pack os ∧ Spec.Project kindExt os ∧
    ∀ rep, (serve kindServer dumpMoment .empty (Spec.pushReq (ascii "/app.git") (Spec.pushBody oneCmd [] (ascii "report-status") pack))).1 ≠ .reply (.ok (.bytes rep)) := by
  obtain ⟨pack, p, hpack, hp, d1, d2⟩ := named_one.decodes
  refine ⟨_, pack, hpack, named_one.project, ?_⟩
  intro rep hrep
  rw [show ascii "/app.git" = ascii "/app" ++ ascii ".git" by decide] at hrep
  refine C119_name_false kindServer (ascii "/app") oneCmd oneCmd_ok (ascii "report-status") (by decide) (by decide) pack hp dumpMoment dumpSql_schema.toSchema [] p d1
    (kindId 0x62) (by rw [d2]; exact named_one.reach_blob) ?_ ?_ rep _ (.http [] (ascii ".git") app_clean_url (.inr rfl) hrep)
  · intro o c ho ht hd
    rw [d2] at ho
    rcases (named_one.mem o).1 ((named_one.found _ _).1 ho).1 with rfl | rfl | rfl
    · cases ht
    · rw [show Commit.decode (oneCommitObj (ascii "add")).data = .ok (oneCommit (ascii "add")) from oneCommit_decode named_one.message_ok] at hd
      cases hd
      decide
    · cases ht
  · intro o items i ho ht hd hi _
    rw [d2] at ho
    rcases (named_one.mem o).1 ((named_one.found _ _).1 ho).1 with rfl | rfl | rfl
    · rw [named_one.items] at hd
      cases hd
      rw [List.mem_singleton.1 hi]
      decide +kernel
    all_goals cases ht

end Gust

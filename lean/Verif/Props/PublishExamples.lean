import Verif.Props.Publish
import Verif.Props.CheckoutExamples

/-! # C111 on a concrete run -/

namespace Gust

open Spec (commitsAt)

theorem noCycles_of_rank {find : Hash → Option MetaData} (rank : Hash → Nat)
    (h : ∀ o items i, find o.id = some o → o.t = .tree → decodeTree o.data = .ok items → i ∈ items → rank i.id < rank o.id) : Spec.NoCycles find := by
  have down : ∀ {a b}, Spec.PackBelow find a b → rank b ≤ rank a := by
    intro a b hb
    induction hb with
    | refl => exact Nat.le_refl _
    | item o items i _ h1 h2 h3 h4 ih => exact Nat.le_trans (Nat.le_of_lt (h o items i h1 h2 h3 h4)) ih
  intro o items i h1 h2 h3 h4 hb
  have h5 := h o items i h1 h2 h3 h4
  have h6 := down hb
  omega

/-- The five objects of the examples, at the places where the encoder of the server puts them. -/
def appEntries : List (Nat × Spec.Obj) := objectsAt polyExt 12 appObjects

theorem appEntries_ids : Spec.NoCollision (idOf polyExt) appEntries :=
  noCollision_objectsAt appObjects_new (fun _ ha _ hb e => List.inj_on_of_nodup_map appObjects_ids ha hb e) 12

theorem app_found (h : Hash) (m : MetaData) : Spec.found polyExt appEntries h = some m ↔ m ∈ appObjects ∧ m.id = h := by
  rw [found_iff appEntries_ids]
  constructor
  · rintro ⟨p, hp, rfl, e⟩
    obtain ⟨a, m, b, e1, rfl⟩ := mem_objectsAt.1 hp
    have hm : m ∈ appObjects := by rw [e1]; simp
    have e2 := (metaOf_of_new (appObjects_new m hm)).2
    simp only at e ⊢
    rw [e2] at e ⊢
    exact ⟨hm, e⟩
  · rintro ⟨hm, e⟩
    obtain ⟨a, b, hs⟩ := List.append_of_mem hm
    exact ⟨_, mem_objectsAt.2 ⟨a, m, b, hs, rfl⟩, (metaOf_of_new (appObjects_new m hm)).2, e⟩

/-- How deep directories are. -/
def appDepth (h : Hash) : Nat := if h = idOf polyExt (.tree, encodeTree appItems) then 2 else if h = idOf polyExt (.tree, encodeTree srcA) then 1 else 0

theorem app_project : Spec.Project polyExt appEntries := by
  refine ⟨app_selfContained app_found, noCycles_of_rank appDepth ?_⟩
  intro o items i ho ht hd hi
  have := ((app_found _ _).1 ho).1
  simp only [appObjects, appThin, List.mem_append, List.mem_cons, List.not_mem_nil, or_false] at this
  rcases this with (rfl | rfl | rfl | rfl) | rfl
  · cases ht
  · rw [show decodeTree (metaOf polyExt (.tree, encodeTree appItems)).data = .ok appItems from appItems_decode] at hd
    cases hd
    simp only [appItems, List.mem_cons, List.not_mem_nil, or_false] at hi
    rcases hi with rfl | rfl <;> decide +kernel
  · rw [show decodeTree (metaOf polyExt (.tree, encodeTree srcA)).data = .ok srcA from srcA_decode] at hd
    cases hd
    simp only [srcA, List.mem_cons, List.not_mem_nil, or_false] at hi
    subst hi
    decide +kernel
  all_goals cases ht

theorem app_packOf (fold : Bytes → Bytes) (db : Db) : ∃ pack, Spec.PackOf polyExt fold db pack appEntries := by
  have small : ∀ m ∈ appObjects, m.data.length < 2 ^ 61 := by decide +kernel
  obtain ⟨hd, h1, h2, h3⟩ := packFile_written appObjects_new small (by decide) (by decide) (⟨List.replicate 20 7, rfl⟩ : Hash)
  refine ⟨_, ⟨_, _, fun _ => none, h3, by decide +kernel, (fun _ _ e => by cases e), resolves_written (fun m hm => (new_ok (appObjects_new m hm)).1) 12 []⟩, appEntries_ids, ?_⟩
  intro p hp
  obtain ⟨a, m, b, e, rfl⟩ := mem_objectsAt.1 hp
  have := small m (by rw [e]; simp)
  simp only
  omega

/-- C111: publish the five objects to `/app.git` on an empty server and clone `/app`; both are answered, and the file `src/a` is there. -/
example : ∃ (m1 m2 : Moment) (pack rep out file : Bytes) (q : Pack), 
    (serve demoServer m1 .empty (Spec.pushReq (ascii "/app" ++ ascii ".git") (Spec.pushBody appCmd [] (ascii "report-status") pack))).1 = .reply (.ok (.bytes rep)) ∧
    Spec.reportLines false rep = some [ascii "unpack ok\n", ascii "ok refs/heads/master" ++ [0]] ∧
    (serve demoServer m2 (serve demoServer m1 .empty (Spec.pushReq (ascii "/app" ++ ascii ".git") (Spec.pushBody appCmd [] (ascii "report-status") pack))).2
      (Spec.fetchReq (ascii "/app") (doneBody cloneLines (ascii "\n") []))).1 = .reply (.ok (.bytes out)) ∧
    Spec.readClone out = some file ∧ decodePack polyExt (fun _ => none) 1 file = .ok q ∧
    Spec.CheckedOut q.result.hashObject (idOf polyExt (.commit, appCommit.encode)) [ascii "src", ascii "a"] (ascii "100644") (ascii "one") := by
  obtain ⟨pack, hpack⟩ := app_packOf demoServer.D.fold Db.empty
  obtain ⟨m1, hm1⟩ : ∃ m1 : Moment, m1 = { demoMoment with fuel := 6 } := ⟨_, rfl⟩
  have hlen : appEntries.length = 5 := objectsAt_length polyExt 12 appObjects
  have hsql : m1.sql = demoSql := by rw [hm1]; rfl
  have hacc : Spec.Accepts m1.sql := by rw [hsql]; exact ⟨fun _ _ => rfl, fun _ _ => rfl, fun _ _ => rfl, fun _ _ => rfl⟩
  obtain ⟨push, hpush⟩ : ∃ push, push = Spec.pushReq (ascii "/app" ++ ascii ".git") (Spec.pushBody appCmd [] (ascii "report-status") pack) := ⟨_, rfl⟩
  have hun0 : UniqueIds polyExt (runServer demoServer .empty []).db := by
    intro a b ha
    rcases ha with ⟨n, hn, _⟩ | ⟨n, hn, _⟩ <;> cases hn
  have hroute : route push.method push.path push.service = .receivePack (ascii "/app") := by rw [hpush]; exact route_push app_clean_url (.inr rfl)
  -- what is stored after the push
  have objs : ∀ o, StoredObj (runServer demoServer .empty ([] ++ [(m1, push)] ++ [])).db o → metaOf polyExt o ∈ appObjects := by
    obtain ⟨p, d1, d2⟩ := packOf_decodes demoServer demoFold_hash hun0 (E := m1.sql) (by rw [hsql]; rfl) hpack (fuel := m1.fuel) (by rw [hm1]; decide)
    obtain ⟨rep, r1, _⟩ := C111_accepted_partial demoServer demoFold_hash (ascii "/app") (ascii ".git") app_clean_url (.inr rfl) [] m1 hun0 (by rw [hsql]; rfl) hacc appCmd appCmd_ok
      (ascii "report-status") (by decide) (by decide) (.inl rfl) appEntries pack hpack app_project (by rw [hlen, hm1]; decide)
    rw [← hpush] at r1
    have e0 : (serve demoServer m1 .empty push).1 = .reply (.ok (.bytes rep)) := r1
    unfold serve at e0
    rw [hroute] at e0
    obtain ⟨⟨_, st'⟩, e1, _⟩ := Res.outcome_ok e0
    have edb : (runServer demoServer .empty ([] ++ [(m1, push)] ++ [])).db = st'.db := by
      show (serve demoServer m1 .empty push).2.db = _
      rw [serve_db, hroute]
      exact httpReceiveDb_ok _ _ _ _ _ e1
    rw [edb]
    rw [hpush] at e1
    obtain ⟨p', db1, q1, q2, q3, q4, _⟩ := push_run (path := ascii "/app") .empty appCmd_ok (by decide) (by decide) (decodePack_magic d1) e1
    have : p' = p := Res.ok.inj (q1.symm.trans d1)
    subst this
    intro o ho
    apply app_stored_objs d1 (fun h m => by rw [d2]; exact app_found h m) m1.sql m1.fuel (ascii "/app") o
    rw [q2]
    rcases ho with ⟨n, hn, e⟩ | ⟨n, hn, e⟩
    · exact .inl ⟨n, by rw [← q3]; exact hn, e⟩
    · exact .inr ⟨n, by rw [← q4]; exact hn, e⟩
  obtain ⟨m2, hm2⟩ : ∃ m2 : Moment, m2 = { demoMoment with fuel := (runServer demoServer .empty ([] ++ [(m1, push)] ++ [])).db.nodes.length } := ⟨_, rfl⟩
  have hrepo : ∀ q ∈ [] ++ [(m1, push)] ++ [], ∀ a, q.2.repo = some a → a = ascii "/app" := by
    intro q hq a ha
    simp only [List.nil_append, List.append_nil, List.mem_singleton] at hq
    subst hq
    rw [HttpReq.repo, hroute] at ha
    exact (Option.some.inj ha).symm
  obtain ⟨rep, out, file, r1, r2, r3, r4, r5⟩ := C111_published_partial demoServer demoFold_hash (ascii "/app") (ascii ".git") [] app_clean_url (.inr rfl) (.inl rfl) [] [] m1 m2 appCmd appCmd_ok
    (ascii "report-status") (by decide) (by decide) (.inl rfl) appEntries pack hpack app_project ⟨_, .head _, rfl⟩ push hpush hacc (by rw [hlen, hm1]; decide)
    (by
      intro q hq
      simp only [List.nil_append, List.append_nil, List.mem_singleton] at hq
      subst hq
      rw [hsql]
      rfl) (by rw [hm2]; rfl)
    (by
      intro a ha b hb x y hx hy _ _
      rw [hrepo a ha x hx, hrepo b hb y hy]) (app_unique objs) (app_fits objs) (by rw [hm2]) (by rw [hm2]; exact fun _ _ => .rfl) (by rw [hm2]; exact demoCut_ok)
    cloneLines (ascii "\n") [] cloneLines_ok
  obtain ⟨q, q1, q2⟩ := r5 (fun _ => none) 0
  subst hpush
  have hside : decide (Capability.sideBand ∈ parseCapabilities (ascii "report-status") ∨ Capability.sideBand64k ∈ parseCapabilities (ascii "report-status")) = false := by
    decide +kernel
  rw [hside, show Spec.statusLine (appCmd.name ++ [0]) none = ascii "ok refs/heads/master" ++ [0] by decide] at r2
  refine ⟨m1, m2, pack, rep, out, file, q, r1, r2, r3, r4, q1, (q2 _ (.head _) rfl _ _ _).1 ?_⟩
  show Spec.CheckedOut (Spec.found polyExt appEntries) (metaOf polyExt (.commit, appCommit.encode)).id _ _ _
  have find : ∀ m ∈ appObjects, Spec.found polyExt appEntries m.id = some m := fun m hm => (app_found _ _).2 ⟨hm, rfl⟩
  refine ⟨metaOf polyExt (.commit, appCommit.encode), appCommit, rfl, find _ (by simp [appObjects, appThin]), rfl, appCommit_decode, ?_⟩
  refine .dir (metaOf polyExt (.tree, encodeTree appItems)) appItems (dirItem "src" (idOf polyExt (.tree, encodeTree srcA))) _ _ _
    (find _ (by simp [appObjects, appThin])) rfl appItems_decode (by simp [appItems]) rfl ?_
  exact .file (metaOf polyExt (.tree, encodeTree srcA)) appBlob srcA (fileItem "a" (polyId .blob (ascii "one"))) (find _ (by simp [appObjects, appThin])) rfl srcA_decode
    (by simp [srcA]) (by decide) rfl (find _ (by simp [appObjects])) rfl

/-- C111 fails: a pack with nothing but a commit, whose directory the server may well have, is not answered, whatever happened before. -/
example (h : List (Moment × HttpReq)) (hun : UniqueIds polyExt (runServer demoServer .empty h).db) : ∃ pack,
    (serve demoServer demoMoment (runServer demoServer .empty h) (Spec.pushReq (ascii "/app" ++ []) (Spec.pushBody appCmd [] (ascii "report-status") pack))).1 = .reply .panic ∨
    (serve demoServer demoMoment (runServer demoServer .empty h) (Spec.pushReq (ascii "/app" ++ []) (Spec.pushBody appCmd [] (ascii "report-status") pack))).1 = .hang := by
  have hnew : ∀ m ∈ [metaOf polyExt (.commit, appCommit.encode)], MetaData.new polyExt m.t m.data = .ok m := by
    intro m hm
    rw [List.mem_singleton.1 hm]
    exact new_metaOf polyExt (.commit, _) rfl
  have small : ∀ m ∈ [metaOf polyExt (.commit, appCommit.encode)], m.data.length < 2 ^ 61 := by decide +kernel
  obtain ⟨hd, h1, h2, h3⟩ := packFile_written hnew small (by decide) (by decide) (⟨List.replicate 20 7, rfl⟩ : Hash)
  have hcol : Spec.NoCollision (idOf polyExt) (objectsAt polyExt 12 [metaOf polyExt (.commit, appCommit.encode)]) := by
    intro a ha b hb _
    simp only [objectsAt, List.mem_singleton] at ha hb
    rw [ha, hb]
  refine ⟨_, C111_update_false demoServer demoFold_hash (ascii "/app") [] app_clean_url (.inl rfl) h demoMoment hun rfl appCmd appCmd_ok (ascii "report-status") (by decide) (by decide)
    (objectsAt polyExt 12 [metaOf polyExt (.commit, appCommit.encode)]) _
    ⟨⟨_, _, fun _ => none, h3, by decide +kernel, (fun _ _ e => by cases e), resolves_written (fun m hm => (new_ok (hnew m hm)).1) 12 []⟩, hcol, ?_⟩ (by decide)
    appCommit.treeId (.commit (metaOf polyExt (.commit, appCommit.encode)) appCommit ((found_iff hcol _ _).2 ⟨_, .head _, rfl, rfl⟩) rfl appCommit_decode) (by decide +kernel)⟩
  intro p hp
  simp only [objectsAt, List.mem_singleton] at hp
  rw [hp]
  decide +kernel

end Gust

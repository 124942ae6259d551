import Verif.Props.Again
import Verif.Props.RefsBothExamples

/-! # C151 on concrete runs -/

namespace Gust

/-- Pushing the two commits adds no other objects, whatever is stored of them already. -/
theorem lib_adds {c : Spec.PushCmd} (hc : c.Ok) {u pack rep : Bytes} {h h' : BothHist} (hpack : Spec.PackOf polyExt demoFold (runBoth demoServer .empty h).web.db pack libEntries)
    (objs : ∀ o, StoredObj (runBoth demoServer .empty h).web.db o → metaOf polyExt o ∈ libObjects)
    (hp : Spec.PushedAny demoServer u c (ascii "report-status") pack rep backMoment h h') :
    ∀ o, StoredObj (runBoth demoServer .empty h').web.db o → metaOf polyExt o ∈ libObjects := by
  obtain ⟨p, d1, d2⟩ := packOf_read demoFold_hash (both_nodes demoServer h) (few_unique libObjects_ids objs) (E := demoSql) rfl hpack (fuel := 7) (by decide)
  obtain ⟨st', e1, e2, _⟩ := pushedAny_http hc (by decide) (by decide) hp
  rw [e2]
  rw [push_answer _ u _ c hc (ascii "report-status") (by decide) (by decide) pack (decodePack_magic d1)] at e1
  obtain ⟨p', db1, h1, h2, h3, _⟩ := receiveData_ok rfl (Res.unwrap_eq_ok.1 e1)
  have : p' = p := Res.ok.inj (h1.symm.trans d1)
  subst this
  simp only at h2 h3
  obtain ⟨g1, g2⟩ := handleRefs_only backMoment.sql { RefCommand.new c.old c.new (c.name ++ [0]) with ok := true } u db1
  rw [h3] at g1 g2
  intro o ho
  obtain ⟨rows, k1, k2, _, k4⟩ := push_effect h1 backMoment.sql backMoment.fuel u (runBoth demoServer .empty h).web.db
  have e : (savePackfile backMoment.sql backMoment.fuel p' u (runBoth demoServer .empty h).web.db).2 = db1 := congrArg Prod.snd h2
  rw [e] at k1 k4
  have hf : ∀ h m, p'.result.hashObject h = some m → m ∈ libObjects := fun h m hm => by
    rw [d2] at hm
    exact ((lib_found _ _).1 hm).1
  rcases ho with ⟨n, hn, rfl⟩ | ⟨r, hr, rfl⟩
  · rw [g1, k1] at hn
    rcases List.mem_append.1 hn with hn | hn
    · exact objs _ (.inl ⟨n, hn, rfl⟩)
    · obtain ⟨m, hm, e, _⟩ := k2 n hn
      exact e ▸ hf _ _ hm
  · rw [g2] at hr
    rcases k4 r hr with h | ⟨_, _, m, _, hm, ht, hd, _⟩
    · exact objs _ (.inr ⟨r, h, rfl⟩)
    · have hmem := hf _ _ hm
      have := (metaOf_of_new (libObjects_new m hmem)).2
      rw [hd, ← ht, this]
      exact hmem

theorem lib_again {u pack rep : Bytes} {h h' : BothHist} (hpack : Spec.PackOf polyExt demoFold (runBoth demoServer .empty h).web.db pack libEntries)
    (objs : ∀ o, StoredObj (runBoth demoServer .empty h).web.db o → metaOf polyExt o ∈ libObjects)
    (hp : Spec.PushedAny demoServer u appCmd (ascii "report-status") pack rep backMoment h h') :
    ∀ o, StoredObj (runBoth demoServer .empty h').web.db o → metaOf polyExt o ∈ libObjects := lib_adds appCmd_ok hpack objs hp

/-- The first push and its repetition, over HTTP. -/
def onceHist (pack : Bytes) : BothHist := [(backMoment, .http (bothCommits pack))]
def twiceHist (pack : Bytes) : BothHist := [(backMoment, .http (bothCommits pack)), (backMoment, .http (bothCommits pack))]

theorem back_accepts : Spec.Accepts backMoment.sql := ⟨fun _ _ => rfl, fun _ _ => rfl, fun _ _ => rfl, fun _ _ => rfl⟩

/-- Both are answered. -/
theorem twice_pushed : ∃ pack rep rep2, (ascii "PACK").isPrefixOf pack = true ∧ Spec.PackOf polyExt demoFold Db.empty pack libEntries ∧
    Spec.PushedAny demoServer (ascii "/app") appCmd (ascii "report-status") pack rep backMoment [] (onceHist pack) ∧
    Spec.PushedAny demoServer (ascii "/app") appCmd (ascii "report-status") pack rep2 backMoment (onceHist pack) (twiceHist pack) ∧
    Spec.PackOf polyExt demoFold (runBoth demoServer .empty (onceHist pack)).web.db pack libEntries ∧
    (∀ o, StoredObj (runBoth demoServer .empty (twiceHist pack)).web.db o → metaOf polyExt o ∈ libObjects) ∧
    (runBoth demoServer .empty (onceHist pack)).web.db.refs = [bothRow] ∧ (runBoth demoServer .empty (twiceHist pack)).web.db.refs = [bothRow, bothRow] := by
  obtain ⟨pack, hpack⟩ := lib_packOf demoFold Db.empty
  have hlen : libEntries.length = 6 := objectsAt_length polyExt 12 libObjects
  have hun0 : UniqueIds polyExt Db.empty := by
    intro a b ha
    rcases ha with ⟨n, hn, _⟩ | ⟨n, hn, _⟩ <;> cases hn
  obtain ⟨rep, hpush, _⟩ := C111_both_partial demoServer demoFold_hash (ascii "/app") [] (onceHist pack) backMoment hun0 rfl back_accepts appCmd appCmd_ok (ascii "report-status") (by decide)
    (by decide) (.inl rfl) libEntries pack hpack lib_project (by rw [hlen]; decide) (.http [] [] app_clean_url (.inl rfl))
  obtain ⟨objs, hrefs⟩ := back_stored hpack hpush
  have ext : Extends Db.empty (runBoth demoServer .empty (onceHist pack)).web.db := ⟨fun _ h => (nomatch h), fun _ h => (nomatch h)⟩
  have hpack2 := packOf_mono ext hpack
  obtain ⟨rep2, hpush2, _⟩ := C111_both_partial demoServer demoFold_hash (ascii "/app") (onceHist pack) (twiceHist pack) backMoment (few_unique libObjects_ids objs) rfl back_accepts appCmd appCmd_ok
    (ascii "report-status") (by decide) (by decide) (.inl rfl) libEntries pack hpack2 lib_project (by rw [hlen]; decide) (.http (onceHist pack) [] app_clean_url (.inl rfl))
  obtain ⟨p, d1, _⟩ := packOf_read demoFold_hash (both_nodes demoServer []) hun0 (E := demoSql) rfl hpack (fuel := 7) (by decide)
  refine ⟨pack, rep, rep2, decodePack_magic d1, hpack, hpush, hpush2, hpack2, lib_again hpack2 objs hpush2, hrefs, ?_⟩
  rcases pushedAny_refs appCmd_ok (by decide +kernel) (by decide) (by decide) (decodePack_magic d1) hpush2 rfl (fun _ _ => rfl) with ⟨_, e⟩ | ⟨e, _⟩
  · rw [e, hrefs]
    rfl
  · exact absurd rfl e

theorem twice_names (pack : Bytes) : ∀ x ∈ twiceHist pack, x.1.sql.fold = demoFold ∧ ∀ a, x.2.repo = some a → a = ascii "/app" := by
  intro x hx
  have : x = (backMoment, .http (bothCommits pack)) := by
    simp only [twiceHist, List.mem_cons, List.not_mem_nil, or_false, or_self] at hx
    exact hx
  subst this
  refine ⟨rfl, fun a e => ?_⟩
  simp only [Visit.repo, HttpReq.repo, bothCommits, Spec.pushReq, route_push app_clean_url (.inl rfl)] at e
  exact (Option.some.inj e).symm

/-- C151: both pushes are answered with `ok`, and so are the clones before and after the second one; they have the same objects. -/
example : ∃ (pack rep2 : Bytes) (m3 m4 : Moment) (out out' file file' : Bytes) (ms ms' : List MetaData),
    (serve demoServer backMoment (runBoth demoServer .empty (onceHist pack)).web (bothCommits pack)).1 = .reply (.ok (.bytes rep2)) ∧
    Spec.reportLines false rep2 = some [ascii "unpack ok\n", ascii "ok refs/heads/master" ++ [0]] ∧
    (serve demoServer m3 (runBoth demoServer .empty (onceHist pack)).web (Spec.fetchReq (ascii "/app" ++ []) (doneBody cloneLines (ascii "\n") []))).1 = .reply (.ok (.bytes out)) ∧
    (serve demoServer m4 (runBoth demoServer .empty (twiceHist pack)).web (Spec.fetchReq (ascii "/app" ++ []) (doneBody cloneLines (ascii "\n") []))).1 = .reply (.ok (.bytes out')) ∧
    Spec.readClone out = some file ∧ Spec.readClone out' = some file' ∧ PackHas polyExt file ms ∧ PackHas polyExt file' ms' ∧ ms.Perm ms' := by
  obtain ⟨pack, rep, _, hmag, hpack, hpush, _, hpack2, objs, _⟩ := twice_pushed
  have hlen : libEntries.length = 6 := objectsAt_length polyExt 12 libObjects
  have hsent : Spec.SentAny demoServer (ascii "/app") appCmd (ascii "report-status") pack backMoment [] (onceHist pack) := .http [] [] app_clean_url (.inl rfl)
  have hsent2 : Spec.SentAny demoServer (ascii "/app") appCmd (ascii "report-status") pack backMoment (onceHist pack ++ []) (twiceHist pack) := .http (onceHist pack) [] app_clean_url (.inl rfl)
  have hbig : ∀ m ∈ libObjects, m.data.length < 2 ^ 61 ∧ (MetaData.convertToVec polyExt m).length ≤ 10000 := by decide +kernel
  have hun := few_unique libObjects_ids objs
  have hfit := few_fits (by decide) hbig objs
  have hab : Spec.NoneAboveAny demoFold (ascii "/app") (twiceHist pack) := fun a ha b hb x y hx hy _ _ => by rw [(twice_names pack a ha).2 x hx, (twice_names pack b hb).2 y hy]
  have ext : Extends (runBoth demoServer .empty (onceHist pack)).web.db (runBoth demoServer .empty (twiceHist pack)).web.db :=
    runBoth_extends demoServer [(backMoment, .http (bothCommits pack))] (runBoth demoServer .empty (onceHist pack))
  have sub : ∀ x ∈ onceHist pack, x ∈ twiceHist pack := fun x hx => by
    rw [List.mem_singleton.1 hx]
    exact .head _
  obtain ⟨⟨rep2, r1, r2⟩, k⟩ := C151_again_partial demoServer demoFold_hash (ascii "/app") [] (onceHist pack) [] (twiceHist pack) backMoment backMoment rfl back_accepts back_accepts appCmd appCmd_ok rfl
    (ascii "report-status") (ascii "report-status") (by decide) (by decide) (by decide) (by decide) libEntries pack hpack lib_project (by rw [hlen]; decide) (by rw [hlen]; decide) hsent hsent2
    (fun x hx => (twice_names pack x hx).1) hab hun
  obtain ⟨m3, hm3⟩ : ∃ m3 : Moment, m3 = { demoMoment with fuel := (runBoth demoServer .empty (onceHist pack)).web.db.nodes.length } := ⟨_, rfl⟩
  obtain ⟨m4, hm4⟩ : ∃ m4 : Moment, m4 = { demoMoment with fuel := (runBoth demoServer .empty (twiceHist pack)).web.db.nodes.length } := ⟨_, rfl⟩
  obtain ⟨_, out, _, _, o1, _⟩ := C111_both_published_partial demoServer demoFold_hash (ascii "/app") [] (onceHist pack) [] backMoment m3 appCmd appCmd_ok (ascii "report-status") (by decide)
    (by decide) (.inl rfl) libEntries pack hpack lib_project ⟨_, .head _, rfl⟩ hsent back_accepts (by rw [hlen]; decide) (fun x hx => (twice_names pack x (sub x (by rwa [List.append_nil] at hx))).1) (by rw [hm3]; rfl)
    (fun a ha b hb => hab a (sub a (by rwa [List.append_nil] at ha)) b (sub b (by rwa [List.append_nil] at hb))) (ext.unique hun) (FitsPack.mono ext hfit) (by rw [hm3, List.append_nil])
    (by rw [hm3]; exact fun _ _ => .rfl) (by rw [hm3]; exact demoCut_ok) cloneLines (ascii "\n") [] cloneLines_ok
  have hle : ∀ H, H = twiceHist pack → (runBoth demoServer .empty H).web.db.nodes.length ≤ m4.fuel := fun H e => by rw [e, hm4]
  obtain ⟨_, out', _, _, o2, _⟩ := C111_both_published_partial demoServer demoFold_hash (ascii "/app") [] (onceHist pack) [(backMoment, .http (bothCommits pack))] backMoment m4 appCmd appCmd_ok
    (ascii "report-status") (by decide) (by decide) (.inl rfl) libEntries pack hpack lib_project ⟨_, .head _, rfl⟩ hsent back_accepts (by rw [hlen]; decide) (fun x hx => (twice_names pack x hx).1)
    (by rw [hm4]; rfl) hab hun hfit (hle _ rfl) (by rw [hm4]; exact fun _ _ => .rfl) (by rw [hm4]; exact demoCut_ok) cloneLines (ascii "\n") [] cloneLines_ok
  have o1 := o1 [] app_clean_url (.inl rfl)
  have o2 := o2 [] app_clean_url (.inl rfl)
  rw [List.append_nil] at o1
  obtain ⟨file, file', ms, ms', f1, f2, f3, f4, f5⟩ := k m3 m4 cloneLines cloneLines (ascii "\n") [] (ascii "\n") [] out out' (by rw [hm3]; rfl) (by rw [hm4]; rfl) hfit (by rw [hm3]; exact fun _ _ => .rfl)
    (by rw [hm3]; exact demoCut_ok) (by rw [hm4]; exact fun _ _ => .rfl) (by rw [hm4]; exact demoCut_ok) cloneLines_ok cloneLines_ok
    (by rw [List.append_nil]; exact .http [] app_clean_url (.inl rfl) o1) (.http [] app_clean_url (.inl rfl) o2)
  rw [show decide (Capability.sideBand ∈ parseCapabilities (ascii "report-status") ∨ Capability.sideBand64k ∈ parseCapabilities (ascii "report-status")) = false by decide +kernel,
    show Spec.statusLine (appCmd.name ++ [0]) none = ascii "ok refs/heads/master" ++ [0] by decide] at r2
  rw [List.append_nil] at r1
  exact ⟨pack, rep2, m3, m4, out, out', file, file', ms, ms', pushed_serve r1 rfl, r2, o1, o2, f1, f2, f3, f4, f5⟩

theorem once_master {refs : List RefRow} (h : bothRow ∈ refs) : ∃ r ∈ refs, r.repoPath = ascii "/app" ∧ Spec.isMaster demoFold r :=
  ⟨bothRow, h, rfl, show demoFold bothRow.refName = demoFold (ascii "refs/heads/master") by decide +kernel⟩

/-- C151: both servers tell of one branch, before and after the repetition. -/
example : ∃ (pack head head' : Bytes) (refs refs' : List (Bytes × Bytes)), Spec.ToldBoth demoServer (ascii "/app") .uploadPack demoMoment (onceHist pack) head refs ∧
    Spec.ToldBoth demoServer (ascii "/app") .uploadPack demoMoment (twiceHist pack) head' refs' ∧ refs.Perm refs' ∧ (appCmd.new, ascii "refs/heads/master" ++ [0]) ∈ refs' ∧ head = head' := by
  obtain ⟨pack, rep, rep2, hmag, _, hpush, hpush2, _, _, e1, _⟩ := twice_pushed
  obtain ⟨head, head', refs, refs', k1, k2, k3, k4, k5⟩ := C151_told_partial demoServer (ascii "/app") (by decide) [] (onceHist pack) [] (twiceHist pack) backMoment backMoment demoMoment demoMoment
    rfl rfl rfl rfl (fun _ _ => rfl) (fun _ _ => rfl) appCmd appCmd_ok rfl (by decide +kernel) (ascii "report-status") (ascii "report-status") (by decide) (by decide) (by decide) (by decide) pack hmag
    rep rep2 hpush trivial (by rw [List.append_nil]; exact hpush2) (by rw [List.append_nil]; exact once_master (by rw [e1]; simp)) (bothRow_tell (by rw [List.append_nil, e1]; decide +kernel)) .uploadPack
  rw [List.append_nil] at k1
  refine ⟨pack, head, head', refs, refs', k1, k2, k3, k4, k5 ?_⟩
  rw [List.append_nil, e1]
  intro r hr r' hr' _ _ _ _
  rw [List.mem_singleton.1 hr, List.mem_singleton.1 hr']

theorem unique_refs {X : Ext} {db : Db} {refs : List RefRow} (h : UniqueIds X db) : UniqueIds X { db with refs := refs } := h

/-- A pack without objects. -/
theorem noObjects_packOf (fold : Bytes → Bytes) (db : Db) : Spec.PackOf polyExt fold db noObjects [] :=
  ⟨⟨[], Hash.zero, fun _ => none, noObjects_pack _, fun _ h => (nomatch h), fun _ _ h => (nomatch h), .nil _⟩, fun _ h => (nomatch h), fun _ h => (nomatch h)⟩

theorem noObjects_project : Spec.Project polyExt [] := by
  exact ⟨⟨fun _ h => (nomatch h), fun _ h => (nomatch h), fun _ h => (nomatch h), fun _ h => (nomatch h), fun _ _ _ _ h => (nomatch h), fun _ _ _ h => (nomatch h)⟩, fun _ _ _ h => (nomatch h)⟩

/-- C151 fails: `master` is set back, which is answered; the same request again is not answered, and the connection is dropped. -/
example : ∃ (pack rep : Bytes), (serve demoServer backMoment (runBoth demoServer .empty (onceHist pack)).web setBack).1 = .reply (.ok (.bytes rep)) ∧
    Spec.LostAny demoServer (ascii "/app") backCmd (ascii "report-status") noObjects backMoment (onceHist pack ++ [(backMoment, .http setBack)])
      (onceHist pack ++ [(backMoment, .http setBack), (backMoment, .http setBack)]) := by
  obtain ⟨pack, _, _, _, _, _, _, _, objs, e1, _⟩ := twice_pushed
  have ext : Extends (runBoth demoServer .empty (onceHist pack)).web.db (runBoth demoServer .empty (twiceHist pack)).web.db :=
    runBoth_extends demoServer [(backMoment, .http (bothCommits pack))] (runBoth demoServer .empty (onceHist pack))
  have hun := ext.unique (few_unique libObjects_ids objs)
  have hsent : Spec.SentAny demoServer (ascii "/app") backCmd (ascii "report-status") noObjects backMoment (onceHist pack) (onceHist pack ++ [(backMoment, .http setBack)]) :=
    .http (onceHist pack) [] app_clean_url (.inl rfl)
  obtain ⟨rep, r1, r2, _⟩ := C126_both_moved_partial demoServer (ascii "/app") (onceHist pack) (onceHist pack ++ [(backMoment, .http setBack)]) backMoment backCmd backCmd_ok (by decide +kernel) (by decide +kernel)
    (ascii "report-status") (by decide) (by decide) noObjects Hash.zero (noObjects_pack _) [] [] e1 (fun _ h => nomatch h) rfl hsent
  have hun2 : UniqueIds polyExt (runBoth demoServer .empty (onceHist pack ++ [(backMoment, .http setBack)] ++ [])).web.db := by
    rw [List.append_nil, r2]
    exact unique_refs hun
  refine ⟨pack, rep, pushed_serve r1 rfl, ?_⟩
  have := C151_update_false demoServer demoFold_hash (ascii "/app") (by decide) (onceHist pack) (onceHist pack ++ [(backMoment, .http setBack)]) [] (onceHist pack ++ [(backMoment, .http setBack)] ++ [] ++ [(backMoment, .http setBack)])
    backMoment backMoment rfl rfl (fun _ _ => rfl) back_accepts backCmd backCmd_ok (by decide +kernel) (by decide +kernel) (by decide +kernel) (ascii "report-status") (ascii "report-status") (by decide)
    (by decide) (by decide) (by decide) [] noObjects (noObjects_packOf _ _) noObjects_project (by decide) (by rw [e1]; decide +kernel) rep r1 trivial (fun _ h => nomatch h)
    (by
      rw [r2]
      exact ⟨{ repoPath := ascii "/app", refName := backCmd.name ++ [0], refGitId := backCmd.new }, .head _, rfl, show demoFold (backCmd.name ++ [0]) = demoFold (ascii "refs/heads/master") by decide +kernel⟩)
    hun2 (.http _ [] app_clean_url (.inl rfl))
  rw [List.append_nil] at this
  exact this

/-- C151 fails: the project is pushed twice, then `master` is set back; all three pushes are answered. Whoever asks is told of two branches `master`. -/
example : ∃ (pack rep rep2 rep3 head : Bytes) (refs : List (Bytes × Bytes)),
    Spec.PushedAny demoServer (ascii "/app") appCmd (ascii "report-status") pack rep backMoment [] (onceHist pack) ∧
    Spec.PushedAny demoServer (ascii "/app") appCmd (ascii "report-status") pack rep2 backMoment (onceHist pack) (twiceHist pack) ∧
    Spec.PushedAny demoServer (ascii "/app") backCmd (ascii "report-status") noObjects rep3 backMoment (twiceHist pack) (twiceHist pack ++ [(backMoment, .http setBack)]) ∧
    Spec.ToldBoth demoServer (ascii "/app") .uploadPack demoMoment (twiceHist pack ++ [(backMoment, .http setBack)]) head refs ∧
    (appCmd.new, ascii "refs/heads/master" ++ [0]) ∈ refs ∧ (backCmd.new, ascii "refs/heads/master" ++ [0]) ∈ refs ∧ appCmd.new ≠ backCmd.new := by
  obtain ⟨pack, rep, rep2, hmag, _, hpush, hpush2, _, objs, e1, e2⟩ := twice_pushed
  obtain ⟨rep3, hpush3, _⟩ := C111_both_partial demoServer demoFold_hash (ascii "/app") (twiceHist pack) (twiceHist pack ++ [(backMoment, .http setBack)]) backMoment (few_unique libObjects_ids objs) rfl
    back_accepts backCmd backCmd_ok (ascii "report-status") (by decide) (by decide) (.inr ⟨by decide +kernel, bothRow, by rw [e2]; exact .head _, rfl, rfl⟩) [] noObjects (noObjects_packOf _ _)
    noObjects_project (by decide) (.http (twiceHist pack) [] app_clean_url (.inl rfl))
  have hrefs : (runBoth demoServer .empty (twiceHist pack ++ [(backMoment, .http setBack)])).web.db.refs = [{ bothRow with refGitId := backCmd.new }, bothRow] ∨
      (runBoth demoServer .empty (twiceHist pack ++ [(backMoment, .http setBack)])).web.db.refs = [bothRow, { bothRow with refGitId := backCmd.new }] := by
    rcases pushedAny_refs backCmd_ok (by decide +kernel) (by decide) (by decide) (by decide) hpush3 rfl (fun _ _ => rfl) with ⟨e, _⟩ | ⟨_, pre, r, post, q1, _, _, q4⟩
    · exact absurd e (by decide +kernel)
    · rw [e2] at q1
      rw [q4]
      match pre, q1 with
      | [], q1 =>
        simp only [List.nil_append, List.cons.injEq] at q1
        obtain ⟨rfl, rfl⟩ := q1
        exact .inl rfl
      | [a], q1 =>
        simp only [List.cons_append, List.nil_append, List.cons.injEq] at q1
        obtain ⟨rfl, rfl, rfl⟩ := q1
        exact .inr rfl
      | a :: b :: pre, q1 => simp at q1
  have hm : Spec.HasMaster demoFold (runBoth demoServer .empty (twiceHist pack ++ [(backMoment, .http setBack)])).web.db (ascii "/app") :=
    once_master (by rcases hrefs with e | e <;> rw [e] <;> simp)
  have htell : Spec.Tellable demoFold (runBoth demoServer .empty (twiceHist pack ++ [(backMoment, .http setBack)])).web.db.refs (ascii "/app") := by
    refine ⟨?_, ?_⟩
    · rcases hrefs with e | e <;> rw [e] <;> decide +kernel
    · intro r hr
      have : r = bothRow ∨ r = { bothRow with refGitId := backCmd.new } := by
        have := (refsAt_mem.1 hr).1
        rcases hrefs with e | e <;> rw [e] at this <;> simp only [List.mem_cons, List.not_mem_nil, or_false] at this
        · exact this.symm
        · exact this
      rcases this with rfl | rfl
      · exact ⟨⟨by decide +kernel, by decide +kernel, by decide +kernel, by decide +kernel⟩, by decide +kernel, by decide +kernel⟩
      · exact ⟨⟨by decide +kernel, by decide +kernel, by decide +kernel, by decide +kernel⟩, by decide +kernel, by decide +kernel⟩
  obtain ⟨head, refs, k1, k2, k3⟩ := C151_two_values_false demoServer (ascii "/app") (by decide) [] (onceHist pack) [] (twiceHist pack) [] (twiceHist pack ++ [(backMoment, .http setBack)]) []
    backMoment backMoment backMoment demoMoment rfl rfl rfl rfl (fun _ _ => rfl) (fun _ _ => rfl) (fun _ _ => rfl) appCmd appCmd_ok rfl (by decide +kernel) (ascii "report-status") (ascii "report-status")
    (by decide) (by decide) (by decide) (by decide) pack hmag rep rep2 backCmd backCmd_ok rfl rfl (by decide +kernel) (ascii "report-status") (by decide) (by decide) noObjects (by decide) rep3
    hpush trivial (fun _ h => nomatch h) (by rw [List.append_nil]; exact hpush2) trivial (fun _ h => nomatch h) (by rw [List.append_nil]; exact hpush3) trivial
    (once_master (by rw [e1]; simp)) (fun _ h => nomatch h) (by rw [List.append_nil]; exact hm) (by rw [List.append_nil]; exact htell) .uploadPack
  rw [List.append_nil] at k1
  exact ⟨pack, rep, rep2, rep3, head, refs, hpush, hpush2, hpush3, k1, k2, k3, by decide +kernel⟩

end Gust

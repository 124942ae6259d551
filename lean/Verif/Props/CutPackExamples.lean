import Verif.Props.RefinedExamples
import Verif.Props.CopiedExamples
import Verif.Props.PublishBothExamples

/-! # C154 on concrete runs -/

namespace Gust

/-- A pack without its last byte. -/
theorem last_byte {pack : Bytes} (h : (ascii "PACK").isPrefixOf pack = true) : ∃ b, pack.dropLast ≠ [] ∧ pack = pack.dropLast ++ [b] := by
  obtain ⟨t, rfl⟩ := List.isPrefixOf_iff_prefix.1 h
  have hne : ascii "PACK" ++ t ≠ [] := by simp [ascii]
  refine ⟨(ascii "PACK" ++ t).getLast hne, ?_, (List.dropLast_append_getLast hne).symm⟩
  intro e
  have := congrArg List.length e
  have hl : (ascii "PACK").length = 4 := by decide
  simp only [List.length_dropLast, List.length_append, hl, List.length_nil] at this
  omega

theorem lost_serve {P : ServerExt} {u : Bytes} {c : Spec.PushCmd} {caps pack : Bytes} {m : Moment} {h h' : BothHist} (hp : Spec.LostAny P u c caps pack m h h') {r : HttpReq}
    (e : h' = h ++ [(m, .http r)]) : (serve P m (runBoth P .empty h).web r).1 = .reply .panic ∨ (serve P m (runBoth P .empty h).web r).1 = .hang := by
  cases hp with
  | http g ha =>
    cases List.append_cancel_left e
    exact ha
  | ssh i ch ha => cases List.append_cancel_left e

theorem served_web (P : ServerExt) (m : Moment) (h : BothHist) (r : HttpReq) {h' : BothHist} (e : h' = h ++ [(m, .http r)]) :
    (serve P m (runBoth P .empty h).web r).2 = (runBoth P .empty h').web := by
  rw [e, runBoth_concat]
  rfl

/-- A push of which the last byte is missing. -/
def cutPush (pack : Bytes) : HttpReq := Spec.pushReq (ascii "/app" ++ []) (Spec.pushBody backCmd [] (ascii "report-status") pack.dropLast)
def cutHist (pack pack' : Bytes) : BothHist := askHist pack ++ [(backMoment, .http (cutPush pack'))]

/-- Whoever has published the project pushes it again, and the last byte does not arrive. -/
theorem cut_fails : ∃ pack pack' b, Spec.Published demoServer (ascii "/app") (askHist pack) [libEntries] [(appCmd.new, ascii "refs/heads/master")] ∧
    (∀ o, StoredObj (runBoth demoServer .empty (askHist pack)).web.db o → metaOf polyExt o ∈ libObjects) ∧
    Spec.PackOf polyExt demoFold (runBoth demoServer .empty (askHist pack)).web.db (pack'.dropLast ++ [b]) libEntries ∧ pack'.dropLast ≠ [] ∧
    Spec.SentAny demoServer (ascii "/app") backCmd (ascii "report-status") pack'.dropLast backMoment (askHist pack) (cutHist pack pack') := by
  obtain ⟨pack, p1, _, objs, _⟩ := set_published
  obtain ⟨pack', hpack⟩ := lib_packOf demoFold (runBoth demoServer .empty (askHist pack)).web.db
  obtain ⟨p, d1, _⟩ := packOf_read demoFold_hash (both_nodes demoServer (askHist pack)) (few_unique libObjects_ids objs) (E := demoSql) rfl hpack (fuel := 7) (by decide)
  obtain ⟨b, h1, h2⟩ := last_byte (decodePack_magic d1)
  exact ⟨pack, pack', b, p1, objs, h2 ▸ hpack, h1, .http (askHist pack) [] app_clean_url (.inl rfl)⟩

/-- C154: the last byte of the pack is missing; there is no answer, and nothing is changed. -/
example : ∃ pack pack' b, Spec.PackOf polyExt demoFold (runBoth demoServer .empty (askHist pack)).web.db (pack'.dropLast ++ [b]) libEntries ∧
    ((serve demoServer backMoment (runBoth demoServer .empty (askHist pack)).web (cutPush pack')).1 = .reply .panic ∨
      (serve demoServer backMoment (runBoth demoServer .empty (askHist pack)).web (cutPush pack')).1 = .hang) ∧
    (serve demoServer backMoment (runBoth demoServer .empty (askHist pack)).web (cutPush pack')).2 = (runBoth demoServer .empty (askHist pack)).web := by
  obtain ⟨pack, pack', b, _, objs, hpack, hne, hsent⟩ := cut_fails
  obtain ⟨k1, k2⟩ := C154_cut demoServer demoFold_hash (ascii "/app") (askHist pack) (cutHist pack pack') backMoment (few_unique libObjects_ids objs) rfl backCmd backCmd_ok (ascii "report-status")
    (by decide) (by decide) libEntries pack'.dropLast [b] hpack hne (by simp) hsent
  exact ⟨pack, pack', b, hpack, lost_serve k1 rfl, (served_web demoServer backMoment (askHist pack) (cutPush pack') rfl).trans k2⟩

/-- C154: of the whole request only the first hundred bytes arrive, which is in the middle of the command. -/
example : ∃ pack, Spec.PackOf polyExt demoFold Db.empty pack libEntries ∧
    (serve demoServer backMoment .empty (Spec.pushReq (ascii "/app" ++ []) ((Spec.pushBody appCmd [] (ascii "report-status") pack).take 100))).1 = .reply .panic ∧
    (serve demoServer backMoment .empty (Spec.pushReq (ascii "/app" ++ []) ((Spec.pushBody appCmd [] (ascii "report-status") pack).take 100))).2 = .empty := by
  obtain ⟨pack, hpack⟩ := lib_packOf demoFold Db.empty
  have hun : UniqueIds polyExt Db.empty := by
    intro a b ha
    rcases ha with ⟨n, hn, _⟩ | ⟨n, hn, _⟩ <;> cases hn
  have hlen : 120 ≤ (Spec.pushBody appCmd [] (ascii "report-status") []).length := by decide +kernel
  have e0 : Spec.pushBody appCmd [] (ascii "report-status") pack = Spec.pushBody appCmd [] (ascii "report-status") [] ++ pack := by simp [Spec.pushBody]
  obtain ⟨_, k⟩ := C154_request demoServer demoFold_hash (ascii "/app") [] app_clean_url (.inl rfl) [] backMoment hun rfl appCmd appCmd_ok (ascii "report-status") (by decide) (by decide) libEntries pack hpack
    _ _ (List.take_append_drop 100 _).symm (by
      intro e
      have := congrArg List.length e
      rw [e0, List.length_drop, List.length_append, List.length_nil] at this
      omega)
  refine ⟨pack, hpack, ?_, k⟩
  rw [e0, List.take_append_of_le_length (by omega)]
  decide +kernel

/-- C152 and C154: the clone after that has the two commits, and nothing that is not of the project. -/
example : ∃ (pack pack' : Bytes) (b : UInt8) (m2 : Moment) (out file : Bytes) (ms : List MetaData),
    Spec.PackOf polyExt demoFold (runBoth demoServer .empty (askHist pack)).web.db (pack'.dropLast ++ [b]) libEntries ∧
    (serve demoServer m2 (runBoth demoServer .empty (cutHist pack pack')).web (Spec.fetchReq (ascii "/app" ++ []) (doneBody cloneLines (ascii "\n") []))).1 = .reply (.ok (.bytes out)) ∧
    Spec.readClone out = some file ∧ PackHas polyExt file ms ∧ (∀ m ∈ libObjects, m.t = .commit → m ∈ ms) ∧ ∀ m ∈ ms, m ∈ libObjects := by
  obtain ⟨pack, pack', b, p1, objs, hpack, hne, hsent⟩ := cut_fails
  have hfails : Spec.Fails demoServer (ascii "/app") (askHist pack) (cutHist pack pack') backMoment backCmd (ascii "report-status") pack'.dropLast (pack'.dropLast ++ [b]) libEntries :=
    ⟨backCmd_ok, by decide, by decide, hpack, .inl ⟨hne, [b], by simp, rfl⟩, hsent⟩
  have p2 := Spec.Published.fails _ _ _ _ _ _ _ _ _ _ p1 hfails
  have same := (fails_same demoFold_hash hfails (few_unique libObjects_ids objs) rfl).2
  have objs2 : ∀ o, StoredObj (runBoth demoServer .empty (cutHist pack pack')).web.db o → metaOf polyExt o ∈ libObjects := by
    rw [same]
    exact objs
  have names : ∀ x ∈ cutHist pack pack', x.1.sql.fold = demoFold ∧ ∀ a, x.2.repo = some a → a = ascii "/app" ∨ a = ascii "/lib" := by
    intro x hx
    rcases List.mem_append.1 hx with hx | hx
    · exact set_names pack x (List.mem_append_left _ hx)
    · rw [List.mem_singleton.1 hx]
      refine ⟨rfl, fun a e => .inl ?_⟩
      simp only [Visit.repo, HttpReq.repo, cutPush, Spec.pushReq, route_push app_clean_url (.inl rfl)] at e
      exact (Option.some.inj e).symm
  have above : Spec.NoneAboveAny demoFold (ascii "/app") (cutHist pack pack') := by
    intro x hx y hy a b ha hb e hp
    rcases (names y hy).2 b hb with rfl | rfl
    · rcases (names x hx).2 a ha with rfl | rfl
      · rfl
      · exact absurd hp (by decide +kernel)
    · exact absurd e (by decide +kernel)
  obtain ⟨m2, hm2⟩ : ∃ m2 : Moment, m2 = { demoMoment with fuel := (runBoth demoServer .empty (cutHist pack pack')).web.db.nodes.length } := ⟨_, rfl⟩
  obtain ⟨out, file, ms, k1, _, k3, k4, k5⟩ := C152_exact_partial demoServer demoFold_hash (ascii "/app") (cutHist pack pack') _ _ p2 (fun x hx => (names x hx).1) above
    (few_unique libObjects_ids objs2) (few_fits (by decide) lib_big objs2) ⟨libEntries, by simp, _, lib_given⟩ m2 (by rw [hm2]; rfl) (by rw [hm2]) (by rw [hm2]; exact fun _ _ => .rfl)
    (by rw [hm2]; exact demoCut_ok) cloneLines (ascii "\n") [] cloneLines_ok
  refine ⟨pack, pack', b, m2, out, file, ms, hpack, k1 [] app_clean_url (.inl rfl), k3, k4, fun m hm ht => ?_, fun m hm => ?_⟩
  · exact (k5 m).2 ⟨libEntries, by simp, (lib_found _ _).2 ⟨hm, rfl⟩, .inl ht⟩
  · obtain ⟨os, h1, h2⟩ := (k5 m).1 hm
    rw [List.mem_singleton.1 h1] at h2
    exact ((lib_found _ _).1 h2.1).1

/-- C30: the pack of the project without its last byte, and without the last eleven. -/
example : ∃ file, (∃ p, decodePack polyExt (fun _ => none) 7 file = .ok p) ∧ (∀ p, decodePack polyExt (fun _ => none) 7 (file.take (file.length - 1)) ≠ .ok p) ∧
    ∀ p, decodePack polyExt (fun _ => none) 7 (file.take (file.length - 11)) ≠ .ok p := by
  have small : ∀ m ∈ libObjects, m.data.length < 2 ^ 61 := by decide +kernel
  obtain ⟨hd, h1, h2, h3⟩ := packFile_written libObjects_new small (by decide) (by decide) (⟨List.replicate 20 7, rfl⟩ : Hash)
  have hr := resolves_written (X := polyExt) (known := fun _ => none) (fun m hm => (new_ok (libObjects_new m hm)).1) 12 []
  have hcap : ∀ p ∈ objectsAt polyExt 12 libObjects, p.2.2.length < 2 ^ 63 := fun p hp => by
    obtain ⟨a, m, b, e, rfl⟩ := mem_objectsAt.1 hp
    have := small m (by rw [e]; simp)
    simp only
    omega
  have hs : Supplies (fun _ => none) (fun _ => none) := fun _ _ _ e => nomatch e
  refine ⟨_, ?_, fun p => C30_cut_partial hs h3 hr libEntries_ids hcap (by decide +kernel) (List.take_append_drop _ _).symm ?_ 7 p,
    fun p => C30_cut_partial hs h3 hr libEntries_ids hcap (by decide +kernel) (List.take_append_drop _ _).symm ?_ 7 p⟩
  · obtain ⟨p, hp, _⟩ := C64_decode_wellformed hs h3 hr libEntries_ids hcap (by decide +kernel) 6
    exact ⟨p, hp⟩
  · intro e
    have := congrArg List.length e
    simp only [List.length_drop, List.length_append, h2, List.length_nil] at this
    omega
  · intro e
    have := congrArg List.length e
    simp only [List.length_drop, List.length_append, h2, List.length_nil] at this
    omega

/-! ## A commit without its directory -/

def bareObjects : List MetaData := [metaOf polyExt (.commit, appCommit.encode)]
def bareEntries : List (Nat × Spec.Obj) := objectsAt polyExt 12 bareObjects

theorem bareObjects_new : ∀ m ∈ bareObjects, MetaData.new polyExt m.t m.data = .ok m := fun m hm =>
  libObjects_new m (by rw [List.mem_singleton.1 hm]; decide +kernel)

theorem bareEntries_ids : Spec.NoCollision (idOf polyExt) bareEntries :=
  noCollision_objectsAt bareObjects_new (fun a ha b hb _ => by rw [List.mem_singleton.1 ha, List.mem_singleton.1 hb]) 12

theorem bare_packOf (fold : Bytes → Bytes) (db : Db) : ∃ pack, Spec.PackOf polyExt fold db pack bareEntries := by
  have small : ∀ m ∈ bareObjects, m.data.length < 2 ^ 61 := by decide +kernel
  obtain ⟨hd, h1, h2, h3⟩ := packFile_written bareObjects_new small (by decide) (by decide) (⟨List.replicate 20 7, rfl⟩ : Hash)
  refine ⟨_, ⟨_, _, fun _ => none, h3, by decide +kernel, (fun _ _ e => by cases e), resolves_written (fun m hm => (new_ok (bareObjects_new m hm)).1) 12 []⟩, bareEntries_ids, ?_⟩
  intro p hp
  obtain ⟨a, m, b, e, rfl⟩ := mem_objectsAt.1 hp
  have := small m (by rw [e]; simp)
  simp only
  omega

theorem bare_tree : idOf polyExt (.commit, appCommit.encode) ≠ appCommit.treeId := by decide +kernel

/-- C154: only the commit is pushed. There is no answer, and nothing is stored. -/
example : ∃ pack, Spec.PackOf polyExt demoFold Db.empty pack bareEntries ∧ (serve demoServer backMoment .empty (bothCommits pack)).2 = .empty ∧
    ((serve demoServer backMoment .empty (bothCommits pack)).1 = .reply .panic ∨ (serve demoServer backMoment .empty (bothCommits pack)).1 = .hang) := by
  obtain ⟨pack, hpack⟩ := bare_packOf demoFold Db.empty
  have hun : UniqueIds polyExt Db.empty := by
    intro a b ha
    rcases ha with ⟨n, hn, _⟩ | ⟨n, hn, _⟩ <;> cases hn
  have e0 : metaOf polyExt (.commit, appCommit.encode) ∈ bareObjects := .head _
  have hf : Spec.found polyExt bareEntries (metaOf polyExt (.commit, appCommit.encode)).id = some (metaOf polyExt (.commit, appCommit.encode)) := by
    rw [found_iff bareEntries_ids]
    exact ⟨_, mem_objectsAt.2 ⟨[], _, [], rfl, rfl⟩, rfl, rfl⟩
  have hsent : Spec.SentAny demoServer (ascii "/app") appCmd (ascii "report-status") pack backMoment [] (onceHist pack) := .http [] [] app_clean_url (.inl rfl)
  obtain ⟨k1, k2⟩ := C154_lacking demoServer demoFold_hash (ascii "/app") [] (onceHist pack) backMoment hun rfl appCmd appCmd_ok (ascii "report-status") (by decide) (by decide) bareEntries pack hpack
    appCommit.treeId (.commit _ appCommit hf rfl appCommit_decode) (by
      intro q hq
      obtain ⟨a, m, b, e, rfl⟩ := mem_objectsAt.1 hq
      have : m ∈ bareObjects := by rw [e]; simp
      rw [List.mem_singleton.1 this]
      exact bare_tree) hsent
  exact ⟨pack, hpack, (served_web demoServer backMoment [] (bothCommits pack) rfl).trans k2, lost_serve k1 rfl⟩

/-! ## A branch that has moved -/

/-- The project is pushed by somebody who thinks that `master` is at a commit at which it is not. -/
def latePush (pack : Bytes) : HttpReq := Spec.pushReq (ascii "/app" ++ []) (Spec.pushBody backCmd [] (ascii "report-status") pack)
def lateHist (pack : Bytes) : BothHist := [(backMoment, .http (latePush pack))]

theorem late_names (pack : Bytes) : ∀ x ∈ lateHist pack ++ [], x.1.sql.fold = demoFold ∧ ∀ a, x.2.repo = some a → a = ascii "/app" := by
  intro x hx
  rw [List.append_nil] at hx
  rw [List.mem_singleton.1 hx]
  refine ⟨rfl, fun a e => ?_⟩
  simp only [Visit.repo, HttpReq.repo, latePush, Spec.pushReq, route_push app_clean_url (.inl rfl)] at e
  exact (Option.some.inj e).symm

/-- C154 is false for such pushes: there is no branch in the empty repository; the push gets no answer, and there is no branch afterwards; but the clone has both commits. -/
example : ∃ (pack : Bytes) (m2 : Moment) (out file : Bytes) (ms : List MetaData),
    ((serve demoServer backMoment .empty (latePush pack)).1 = .reply .panic ∨ (serve demoServer backMoment .empty (latePush pack)).1 = .hang) ∧
    (serve demoServer backMoment .empty (latePush pack)).2.db.refs = [] ∧
    (serve demoServer m2 (serve demoServer backMoment .empty (latePush pack)).2 (Spec.fetchReq (ascii "/app" ++ []) (doneBody cloneLines (ascii "\n") []))).1 = .reply (.ok (.bytes out)) ∧
    Spec.readClone out = some file ∧ PackHas polyExt file ms ∧ ∀ m ∈ libObjects, m ∈ ms := by
  obtain ⟨pack, hpack⟩ := lib_packOf demoFold Db.empty
  have hun : UniqueIds polyExt Db.empty := by
    intro a b ha
    rcases ha with ⟨n, hn, _⟩ | ⟨n, hn, _⟩ <;> cases hn
  have hpub : Spec.Publishes demoServer (ascii "/app") [] (lateHist pack) backMoment backCmd (ascii "report-status") pack libEntries :=
    ⟨backCmd_ok, by decide, by decide, back_accepts, hpack, lib_project, by rw [show libEntries.length = 6 from objectsAt_length polyExt 12 libObjects]; decide, .http [] [] app_clean_url (.inl rfl)⟩
  have hst : Spec.Stale demoFold backCmd [] := ⟨by decide +kernel, .inr fun _ h => nomatch h⟩
  obtain ⟨_, p, db1, d1, d2, d3, d4, d5⟩ := stale_saved demoFold_hash hpub hst rfl hun rfl
  have objs : ∀ o, StoredObj (runBoth demoServer .empty (lateHist pack ++ [])).web.db o → metaOf polyExt o ∈ libObjects := by
    rw [List.append_nil, d4]
    intro o ho
    obtain ⟨rows, k1, k2, _, k4⟩ := push_effect d1 backMoment.sql backMoment.fuel (ascii "/app") Db.empty
    have e : (savePackfile backMoment.sql backMoment.fuel p (ascii "/app") Db.empty).2 = db1 := congrArg Prod.snd d3
    rw [e] at k1 k4
    have hf : ∀ h m, p.result.hashObject h = some m → m ∈ libObjects := fun h m hm => by
      rw [d2] at hm
      exact ((lib_found _ _).1 hm).1
    rcases ho with ⟨n, hn, rfl⟩ | ⟨r, hr, rfl⟩
    · rw [k1] at hn
      obtain ⟨m, hm, e, _⟩ := k2 n hn
      exact e ▸ hf _ _ hm
    · rcases k4 r hr with h | ⟨_, _, m, c, hm, ht, hd, _⟩
      · cases h
      · have hmem := hf _ _ hm
        have := (metaOf_of_new (libObjects_new m hmem)).2
        rw [hd, ← ht, this]
        exact hmem
  have above : Spec.NoneAboveAny demoFold (ascii "/app") (lateHist pack ++ []) := fun a ha b hb x y hx hy _ _ => by rw [(late_names pack a ha).2 x hx, (late_names pack b hb).2 y hy]
  have hfl : Spec.SameFoldAny demoFold (lateHist pack ++ []) := fun x hx => (late_names pack x hx).1
  have un := few_unique libObjects_ids objs
  have fit := few_fits (by decide) lib_big objs
  obtain ⟨k1, k2, k3⟩ := C154_stale_false demoServer demoFold_hash (ascii "/app") [] (lateHist pack) [] [] [] .nothing hfl above un fit backMoment backCmd (ascii "report-status") pack libEntries hpub hst trivial
  obtain ⟨m2, hm2⟩ : ∃ m2 : Moment, m2 = { demoMoment with fuel := (runBoth demoServer .empty (lateHist pack ++ [])).web.db.nodes.length } := ⟨_, rfl⟩
  obtain ⟨out, _, _, q1, _⟩ := C152_exact_partial demoServer demoFold_hash (ascii "/app") (lateHist pack ++ []) _ _ k2 hfl above un fit ⟨libEntries, .head _, _, lib_given⟩ m2 (by rw [hm2]; rfl)
    (by rw [hm2]) (by rw [hm2]; exact fun _ _ => .rfl) (by rw [hm2]; exact demoCut_ok) cloneLines (ascii "\n") [] cloneLines_ok
  have q2 := q1 [] app_clean_url (.inl rfl)
  obtain ⟨file, ms, r1, r2, r3⟩ := k3 m2 cloneLines (ascii "\n") [] out (by rw [hm2]; rfl) (by rw [hm2]; exact fun _ _ => .rfl) (by rw [hm2]; exact demoCut_ok) cloneLines_ok
    (.http [] app_clean_url (.inl rfl) q2)
  have hweb := served_web demoServer backMoment [] (latePush pack) (h' := lateHist pack) rfl
  refine ⟨pack, m2, out, file, ms, lost_serve k1 rfl, ?_, ?_, r1, r2, fun m hm => r3 m (lib_all_given m hm)⟩
  · rw [show (serve demoServer backMoment .empty (latePush pack)).2 = _ from hweb, d4, d5]
    rfl
  · rw [show (serve demoServer backMoment .empty (latePush pack)).2 = _ from hweb]
    rw [List.append_nil] at q2
    exact q2

/-! ## A pack in two messages over SSH -/

/-- C154: connection 0 has sent the command section of a push, and then sends something else, or nothing. -/
example (bytes : Bytes) (h : (ascii "PACK").isPrefixOf bytes = false) (m : Moment) :
    (runBoth demoServer .empty (bothBefore ++ [(m, .ssh 0 (.data 0 bytes))])).web = (runBoth demoServer .empty bothBefore).web ∧ (runBoth demoServer .empty bothBefore).web.db = .empty :=
  ⟨C154_session demoServer bothBefore 0 _ (fun x hx => by rw [List.mem_singleton.1 hx]; exact ⟨0, bytes, rfl, h⟩), bothBefore_db⟩

/-- C63 is false: the last byte of the pack comes in a message of its own. Nothing is stored, and there is no answer to either of the two messages. -/
example : ∃ pack b, Spec.PackOf polyExt demoFold (runBoth demoServer .empty bothBefore).web.db (pack ++ [b]) appEntries ∧
    (runBoth demoServer .empty (bothBefore ++ [(roomMoment, .ssh 0 (.data 0 pack))] ++ [] ++ [(roomMoment, .ssh 0 (.data 0 [b]))])).web = (runBoth demoServer .empty bothBefore).web ∧
    (sshStep polyExt roomMoment (runBoth demoServer .empty (bothBefore ++ [(roomMoment, .ssh 0 (.data 0 pack))] ++ [])).ssh 0 (.data 0 [b])).1 = [] := by
  obtain ⟨pack, hpack⟩ := app_packOf demoServer.D.fold (runBoth demoServer .empty bothBefore).web.db
  have hlen : appEntries.length = 5 := objectsAt_length polyExt 12 appObjects
  obtain ⟨p, d1, _⟩ := packOf_read demoFold_hash (both_nodes demoServer bothBefore) bothBefore_unique (E := demoSql) rfl hpack (fuel := 6) (by decide)
  obtain ⟨b, h1, h2⟩ := last_byte (decodePack_magic d1)
  rw [h2] at hpack
  obtain ⟨k1, k2⟩ := C63_pieces_false demoServer demoFold_hash (ascii "/app") (by decide) (by decide)
    [(demoMoment, .ssh 1 logIn), (demoMoment, .ssh 1 (askFor .uploadPack 0 (ascii "/app"))), (demoMoment, .ssh 0 logIn)] [] [] demoMoment demoMoment roomMoment 0 0 0 0 (fun _ h => nomatch h)
    (fun _ h => nomatch h) appCmd appCmd_ok (ascii "report-status") (by decide) (by decide) bothBefore rfl bothBefore_unique rfl appEntries pack.dropLast [b] hpack h1 (by simp)
  obtain ⟨k3, k4⟩ := k2 [] roomMoment (.data 0 [b])
  refine ⟨pack.dropLast, b, hpack, ?_, k3⟩
  rw [k4, List.append_nil, k1]

end Gust

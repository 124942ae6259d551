import Verif.Lemmas.Server
import Verif.Props.Protocol
import Verif.Props.CloneExamples

/-! # C75–C79: the whole HTTP server -/

namespace Gust

open Spec (nodeObj StoreReach commitsAt InRepo)

/-! ## C75: repositories, locks and LFS objects do not influence each other -/

theorem gitUrl_of_repo {r : HttpReq} {a : Bytes} (h : r.repo = some a) : Spec.GitUrl r := by
  unfold HttpReq.repo at h
  have hne : ¬ Spec.Refused (route r.method r.path r.service) := by
    rintro (e | e | e | e) <;> rw [e] at h <;> cases h
  obtain ⟨Q, hQ, hq⟩ := C57_only_partial hne (by intro id e; rw [e] at h; cases h)
  generalize hm : r.method = me at hQ hq h
  generalize hp : r.path = pa at hQ hq h
  generalize hs : r.service = sv at hQ hq h
  unfold Spec.GitUrl
  rw [hp]
  cases hQ with
  | infoRefs pre t => exact .inl ⟨pre, rfl⟩
  | uploadPack pre s => exact .inr (.inl ⟨pre, rfl⟩)
  | receivePack pre s => exact .inr (.inr ⟨pre, rfl⟩)
  | _ => rw [hq] at h; cases h

theorem serve_db_other {P : ServerExt} {m : Moment} {s : ServerState} {r : HttpReq} (h : ¬ Spec.GitUrl r) : (serve P m s r).2.db = s.db := by
  rw [serve_db]
  cases e : route r.method r.path r.service <;> simp only
  · exact absurd (gitUrl_of_repo (by rw [HttpReq.repo, e]; rfl)) h
  · exact absurd (gitUrl_of_repo (by rw [HttpReq.repo, e]; rfl)) h

/-- The locks after one request. -/
theorem serve_locks (P : ServerExt) (m : Moment) (s : ServerState) (r : HttpReq) :
    (serve P m s r).2.locks = match route r.method r.path r.service with
      | .createLock =>
        match P.J.lock r.body with
        | none => s.locks
        | some (ref, path) => (createLock P.D s.locks ref path m.lockId m.now).2
      | .deleteLock id =>
        if id = [] ∨ r.body = [] then s.locks
        else
          match P.J.unlock r.body with
          | none => s.locks
          | some (ref, force) => (deleteLock P.D s.locks ref id force).2
      | _ => s.locks := by
  unfold serve
  cases h : route r.method r.path r.service <;> simp only <;> (try rfl)
  · split <;> rfl
  · cases P.J.lock r.body <;> rfl
  · split
    · rfl
    · cases P.J.unlock r.body <;> rfl
  · split <;> rfl

/-- The LFS objects after one request. -/
theorem serve_lfs (P : ServerExt) (m : Moment) (s : ServerState) (r : HttpReq) :
    (serve P m s r).2.lfs = match route r.method r.path r.service with
      | .download oid => (downloadObject P.D P.S s.lfs oid).2
      | .batch =>
        match P.J.batch r.body with
        | none => s.lfs
        | some (operation, objects) => (processBatch P.D P.S s.lfs operation objects).2
      | .upload oid => (uploadObject P.D P.S s.lfs oid r.body).2
      | _ => s.lfs := by
  unfold serve
  cases h : route r.method r.path r.service <;> simp only <;> (try rfl)
  · split <;> rfl
  · split <;> rfl
  · split
    · rfl
    · split <;> rfl
  · cases P.J.batch r.body <;> rfl

theorem lockUrl_of_route {r : HttpReq} (h : route r.method r.path r.service = .createLock ∨ (∃ id, route r.method r.path r.service = .deleteLock id) ∨
    route r.method r.path r.service = .listLocks ∨ route r.method r.path r.service = .verifyLocks) : Spec.LockUrl r := by
  by_cases hd : ∃ id, route r.method r.path r.service = .deleteLock id
  · obtain ⟨id, hd⟩ := hd
    obtain ⟨_, _, pre, e, _⟩ := C57_unlock_partial hd
    exact .inr (.inr ⟨pre ++ id, e.symm⟩)
  · have hne : ¬ Spec.Refused (route r.method r.path r.service) := by
      rcases h with h | h | h | h
      · rw [h]; rintro (e | e | e | e) <;> cases e
      · exact absurd h hd
      · rw [h]; rintro (e | e | e | e) <;> cases e
      · rw [h]; rintro (e | e | e | e) <;> cases e
    obtain ⟨Q, hQ, hq⟩ := C57_only_partial hne (fun id e => hd ⟨id, e⟩)
    generalize hm : r.method = me at hQ hq h hd
    generalize hp : r.path = pa at hQ hq h hd
    generalize hs : r.service = sv at hQ hq h hd
    unfold Spec.LockUrl
    rw [hp]
    cases hQ with
    | listLocks pre s => exact .inl ⟨pre, rfl⟩
    | verifyLocks pre s => exact .inr (.inl ⟨pre, rfl⟩)
    | createLock pre s => exact .inl ⟨pre, rfl⟩
    | deleteLock pre id s => exact .inr (.inr ⟨_, rfl⟩)
    | infoRefs pre t => obtain ⟨_, hq⟩ := hq; rw [hq] at h; rcases h with h | ⟨_, h⟩ | h | h <;> cases h
    | uploadPack pre t => obtain ⟨_, hq⟩ := hq; rw [hq] at h; rcases h with h | ⟨_, h⟩ | h | h <;> cases h
    | receivePack pre t => obtain ⟨_, hq⟩ := hq; rw [hq] at h; rcases h with h | ⟨_, h⟩ | h | h <;> cases h
    | _ => rw [hq] at h; rcases h with h | ⟨_, h⟩ | h | h <;> cases h

theorem objectUrl_of_route {r : HttpReq} (h : (∃ oid, route r.method r.path r.service = .download oid) ∨ route r.method r.path r.service = .batch ∨
    ∃ oid, route r.method r.path r.service = .upload oid) : Spec.ObjectUrl r := by
  have hne : ¬ Spec.Refused (route r.method r.path r.service) := by
    rcases h with ⟨_, h⟩ | h | ⟨_, h⟩ <;> rw [h] <;> rintro (e | e | e | e) <;> cases e
  obtain ⟨Q, hQ, hq⟩ := C57_only_partial hne (by rintro id e; rw [e] at h; rcases h with ⟨_, h⟩ | h | ⟨_, h⟩ <;> cases h)
  generalize hm : r.method = me at hQ hq h
  generalize hp : r.path = pa at hQ hq h
  generalize hs : r.service = sv at hQ hq h
  unfold Spec.ObjectUrl
  rw [hp]
  cases hQ with
  | download pre oid s ho => exact ⟨pre, oid, rfl, routeOid_noSlash ho⟩
  | upload pre oid s ho => exact ⟨pre, oid, rfl, routeOid_noSlash ho⟩
  | batch pre s => exact ⟨pre, ascii "batch", by simp [ascii], by decide⟩
  | infoRefs pre t => obtain ⟨_, hq⟩ := hq; rw [hq] at h; rcases h with ⟨_, h⟩ | h | ⟨_, h⟩ <;> cases h
  | uploadPack pre t => obtain ⟨_, hq⟩ := hq; rw [hq] at h; rcases h with ⟨_, h⟩ | h | ⟨_, h⟩ <;> cases h
  | receivePack pre t => obtain ⟨_, hq⟩ := hq; rw [hq] at h; rcases h with ⟨_, h⟩ | h | ⟨_, h⟩ <;> cases h
  | _ => rw [hq] at h; rcases h with ⟨_, h⟩ | h | ⟨_, h⟩ <;> cases h

theorem serve_locks_other {P : ServerExt} {m : Moment} {s : ServerState} {r : HttpReq} (h : ¬ Spec.LockUrl r) : (serve P m s r).2.locks = s.locks := by
  rw [serve_locks]
  cases e : route r.method r.path r.service <;> simp only
  · exact absurd (lockUrl_of_route (.inl e)) h
  · exact absurd (lockUrl_of_route (.inr (.inl ⟨_, e⟩))) h

theorem serve_lfs_other {P : ServerExt} {m : Moment} {s : ServerState} {r : HttpReq} (h : ¬ Spec.ObjectUrl r) : (serve P m s r).2.lfs = s.lfs := by
  rw [serve_lfs]
  cases e : route r.method r.path r.service <;> simp only
  · exact absurd (objectUrl_of_route (.inl ⟨_, e⟩)) h
  · exact absurd (objectUrl_of_route (.inr (.inl e))) h
  · exact absurd (objectUrl_of_route (.inr (.inr ⟨_, e⟩))) h

/-- Replies and effects of git requests depend on the repositories only. -/
theorem serve_git_congr {P : ServerExt} {m : Moment} {s t : ServerState} {r : HttpReq} {a : Bytes} (h : r.repo = some a) (e : s.db = t.db) :
    (serve P m s r).1 = (serve P m t r).1 ∧ (serve P m s r).2.db = (serve P m t r).2.db := by
  refine ⟨?_, by rw [serve_db, serve_db, e]⟩
  unfold HttpReq.repo at h
  unfold serve
  cases h' : route r.method r.path r.service <;> rw [h'] at h <;> (first | (cases h; done) | skip) <;> simp only [e]

theorem serve_locks_congr {P : ServerExt} {m : Moment} {s t : ServerState} {r : HttpReq} (e : s.locks = t.locks) :
    (serve P m s r).2.locks = (serve P m t r).2.locks := by rw [serve_locks, serve_locks, e]

theorem serve_lfs_congr {P : ServerExt} {m : Moment} {s t : ServerState} {r : HttpReq} (e : s.lfs = t.lfs) :
    (serve P m s r).2.lfs = (serve P m t r).2.lfs := by rw [serve_lfs, serve_lfs, e]

theorem serve_db_congr {P : ServerExt} {m : Moment} {s t : ServerState} {r : HttpReq} (e : s.db = t.db) :
    (serve P m s r).2.db = (serve P m t r).2.db := by rw [serve_db, serve_db, e]

open Classical in
/-- Leaving out requests that do not change what is looked at. -/
theorem run_filter {α : Type} (P : ServerExt) (f : ServerState → α) (K : HttpReq → Prop)
    (hk : ∀ m s r, ¬ K r → f (serve P m s r).2 = f s) (hc : ∀ m s t r, f s = f t → f (serve P m s r).2 = f (serve P m t r).2) :
    ∀ (h : List (Moment × HttpReq)) (s t : ServerState), f s = f t → f (runServer P s h) = f (runServer P t (h.filter (fun p => K p.2)))
  | [], _, _, e => e
  | (m, r) :: h, s, t, e => by
    by_cases hr : K r
    · rw [List.filter_cons_of_pos (by simpa using hr)]
      exact run_filter P f K hk hc h _ _ (hc m s t r e)
    · rw [List.filter_cons_of_neg (by simpa using hr)]
      exact run_filter P f K hk hc h _ _ ((hk m s r hr).trans e)

open Classical in
/-- **C75** Every git request (discovery, fetch, push) in every history is answered as if there had been no requests about locks or LFS objects. -/
theorem C75_git (P : ServerExt) (s : ServerState) (h : List (Moment × HttpReq)) (m : Moment) (r : HttpReq) (a : Bytes) (hr : r.repo = some a) :
    (serve P m (runServer P s h) r).1 = (serve P m (runServer P s (h.filter (fun p => Spec.GitUrl p.2))) r).1 :=
  (serve_git_congr hr (run_filter P (·.db) Spec.GitUrl (fun _ _ _ h => serve_db_other h) (fun _ _ _ _ e => serve_db_congr e) h s s rfl)).1

open Classical in
/-- **C75** Every lock request in every history is answered as if there had been no requests of git or about LFS objects. -/
theorem C75_locks (P : ServerExt) (s : ServerState) (h : List (Moment × HttpReq)) (m : Moment) (r : HttpReq)
    (hr : route r.method r.path r.service = .createLock ∨ (∃ id, route r.method r.path r.service = .deleteLock id) ∨
      route r.method r.path r.service = .listLocks ∨ route r.method r.path r.service = .verifyLocks) :
    (serve P m (runServer P s h) r).1 = (serve P m (runServer P s (h.filter (fun p => Spec.LockUrl p.2))) r).1 := by
  have e : (runServer P s h).locks = (runServer P s (h.filter (fun p => Spec.LockUrl p.2))).locks :=
    run_filter P (·.locks) Spec.LockUrl (fun _ _ _ h => serve_locks_other h) (fun _ _ _ _ e => serve_locks_congr e) h s s rfl
  unfold serve
  rcases hr with h | ⟨id, h⟩ | h | h <;> rw [h] <;> simp only [e]
  · split <;> rfl
  · split
    · rfl
    · split <;> rfl
  · split <;> rfl

open Classical in
/-- **C75** Every request about LFS objects in every history is answered as if there had been no requests of git or about locks. -/
theorem C75_objects (P : ServerExt) (s : ServerState) (h : List (Moment × HttpReq)) (m : Moment) (r : HttpReq)
    (hr : (∃ oid, route r.method r.path r.service = .download oid) ∨ route r.method r.path r.service = .batch ∨
      ∃ oid, route r.method r.path r.service = .upload oid) :
    (serve P m (runServer P s h) r).1 = (serve P m (runServer P s (h.filter (fun p => Spec.ObjectUrl p.2))) r).1 := by
  have e : (runServer P s h).lfs = (runServer P s (h.filter (fun p => Spec.ObjectUrl p.2))).lfs :=
    run_filter P (·.lfs) Spec.ObjectUrl (fun _ _ _ h => serve_lfs_other h) (fun _ _ _ _ e => serve_lfs_congr e) h s s rfl
  unfold serve
  rcases hr with ⟨oid, h⟩ | h | ⟨oid, h⟩ <;> rw [h] <;> simp only [e]
  split <;> rfl

/-! ## C76: an error status means that nothing was changed -/

theorem Res.outcome_status {α : Type} {f : α → Payload} {x : Res α} {c : Nat} : x.outcome f ≠ .reply (.status c) := by
  cases x <;> simp [Res.outcome]

theorem Reply.outcome_status {α : Type} {f : α → Payload} {x : Reply α} {c : Nat} (h : x.outcome f = .reply (.status c)) : x = .status c := by
  cases x <;> simp [Reply.outcome] at h
  rw [h]

theorem createLock_status {D : DbExt} {t : LockTable} {ref path id now : Bytes} {c : Nat} (h : (createLock D t ref path id now).1 = .status c) :
    (createLock D t ref path id now).2 = t := by
  unfold createLock at h ⊢
  cases hl : lfsGetFilteredLocks D t ref path [] (ascii "1") with
  | ok p =>
    obtain ⟨locks, next⟩ := p
    rw [hl] at h
    simp only at h ⊢
    split
    · rfl
    · rename_i hn
      rw [if_neg hn] at h
      split
      · rename_i ha
        rw [ha] at h
        cases h
      · rfl
  | _ => rfl

theorem deleteLockWrite_id {D : DbExt} {t : LockTable} {repo : Bytes} {row : Option (List Lock)} {id : Bytes} {force : Bool} {l : Lock} {t' : LockTable}
    (h : deleteLockWrite D t repo row id force = some (l, t')) : l.id ≠ [] := by
  unfold deleteLockWrite at h
  split at h
  · cases h
  · split at h
    · cases h
    · split at h
      · cases h
      · rename_i hid
        split at h
        · cases h
          exact hid
        · split at h
          · cases h
            exact hid
          · cases h

theorem deleteLock_status {D : DbExt} {t : LockTable} {ref id : Bytes} {force : Option Bool} {c : Nat} (h : (deleteLock D t ref id force).1 = .status c) :
    (deleteLock D t ref id force).2 = t := by
  unfold deleteLock at h ⊢
  split
  · rfl
  · rename_i hid
    split
    · rename_i h2
      rw [if_neg hid, h2] at h
      simp only [deleteReply] at h
      rw [if_neg (fun hh => deleteLockWrite_id h2 hh.1)] at h
      cases h
    · rfl

theorem toReply_status {α : Type} {x : Res α} {c : Nat} : x.toReply ≠ .status c := by
  cases x <;> simp [Res.toReply]

/-- **C76 (partial)** A request answered with an error status other than 406 has changed nothing: refused and unknown requests, conflicts and failed
lookups of locks. (Missing from the full claim: a rejected LFS upload, see `C76_upload_false`; requests that end with a dropped connection, see
`C76_dropped_false`.) -/
theorem C76_status_partial (P : ServerExt) (m : Moment) (s : ServerState) (r : HttpReq) (c : Nat) (hc : c ≠ 406)
    (h : (serve P m s r).1 = .reply (.status c)) : (serve P m s r).2 = s := by
  unfold serve at h ⊢
  cases e : route r.method r.path r.service <;> simp only [e] at h ⊢
  · have := Reply.outcome_status h
    unfold downloadObject at this
    simp only at this
    split at this
    · cases this
    · split at this
      · cases this
      · exact absurd this toReply_status
  · exact absurd h Res.outcome_status
  · split <;> rfl
  · split
    · rfl
    · rename_i h1
      rw [h1] at h
      rw [createLock_status (Reply.outcome_status h)]
  · split
    · rfl
    · rename_i h0
      rw [if_neg h0] at h
      split
      · rfl
      · rename_i h1
        rw [h1] at h
        rw [deleteLock_status (Reply.outcome_status h)]
  · split
    · rfl
    · rename_i h1
      rw [h1] at h
      have := Reply.outcome_status h
      unfold processBatch at this
      simp only at this
      split at this
      · cases this
      · exact absurd this toReply_status
  · exact absurd h Res.outcome_status
  · have := Reply.outcome_status h
    unfold uploadObject at this
    simp only at this
    split at this
    · cases this
    · split at this
      · cases this
      · split at this
        · cases this
        · simp only [Reply.status.injEq] at this
          exact absurd this.symm hc
        · cases this

/-! ## C77: every stored commit is complete, whatever requests came -/

/-- **C77 (partial)** After any history of HTTP requests of any kind, with any bodies, crashing or not, and whatever the database does: every commit stored for a path can
be read, and everything reachable from it is stored, readable and under its own id. (Missing from the full claim: paths below another repository, see C55.) -/
theorem C77_complete_partial (P : ServerExt) (path : Bytes) (h : List (Moment × HttpReq)) (hf : Spec.SameFold P.D.fold h) (hab : Spec.NoneAbove P.D.fold path h)
    (hu : UniqueIds P.X (runServer P .empty h).db) :
    ∀ r ∈ commitsAt P.D.fold (runServer P .empty h).db.commits path, ∃ c, Commit.decode r.data = .ok c ∧
      (∃ n ∈ (runServer P .empty h).db.nodes, n.gitId = Hash.toPlainStr c.treeId ∧ n.nodeType = ascii "tree") ∧
      ∀ x, StoreReach (runServer P .empty h).db.nodes c.treeId x → ∃ n ∈ (runServer P .empty h).db.nodes, n.gitId = Hash.toPlainStr x ∧
        idOf P.X (nodeObj n) = x ∧ (n.nodeType = ascii "tree" ∧ (∃ items, decodeTree n.data = .ok items) ∨ n.nodeType = ascii "blob") :=
  C71_complete (run_store P path _ h rfl hf hab) hu

/-! ## C78: from the request of a push to the reply to a clone -/

theorem route_push {u g : Bytes} (hu : Spec.CleanUrl u) (hg : g = [] ∨ g = ascii ".git") :
    route .post (u ++ g ++ ascii "/git-receive-pack") none = .receivePack u := by
  obtain ⟨repo, h⟩ := C57_routed_partial (.receivePack (u ++ g) none) (by intro e; cases e)
  have h2 := C56_http_partial hu hg (.push none)
  rw [h] at h2 ⊢
  exact congrArg Route.receivePack (Option.some.inj h2)

theorem route_fetch {u g : Bytes} (hu : Spec.CleanUrl u) (hg : g = [] ∨ g = ascii ".git") :
    route .post (u ++ g ++ ascii "/git-upload-pack") none = .uploadPack u := by
  obtain ⟨repo, h⟩ := C57_routed_partial (.uploadPack (u ++ g) none) (by intro e; cases e)
  have h2 := C56_http_partial hu hg (.fetch none)
  rw [h] at h2 ⊢
  exact congrArg Route.uploadPack (Option.some.inj h2)

theorem Res.outcome_ok {α : Type} {f : α → Payload} {x : Res α} {p : Payload} (h : x.outcome f = .reply (.ok p)) : ∃ a, x = .ok a ∧ f a = p := by
  cases x with
  | ok a => simp [Res.outcome] at h; exact ⟨a, rfl, h⟩
  | _ => simp [Res.outcome] at h

/-- The body of a clone request (no `have` lines) that asks for `side-band-64k`. -/
structure Spec.CloneReq (ls : List Spec.ReqLine) (t : Bytes) : Prop where
  ok : ∀ l ∈ ls, l.Ok
  short : t.length ≤ 65000
  none : Spec.haveIds ls = []
  band : ∃ tail words, Spec.firstTail ls = some tail ∧ Spec.SpaceSeparated (tail.drop 1) words ∧
    (ascii "side-band-64k" ∈ words ∨ ascii "side-band-64k\n" ∈ words)

/-- How the pack may be cut: as `read_buf` does it. -/
def Spec.CutOk (cut : Bytes → List Bytes) : Prop := ∀ pack, (cut pack).flatten = pack ∧ ∀ p ∈ cut pack, p.length ≤ 65500

theorem doneBody_length (ls : List Spec.ReqLine) (t rest : Bytes) : ls.length ≤ (doneBody ls t rest).length := by
  have key : ∀ p : Spec.Pkt, 1 ≤ (Spec.frame p).length := by
    intro p
    cases p with
    | flush => simp [Spec.frame]
    | line p => simp [Spec.frame, Spec.len4]
  have : ∀ ps : List Spec.Pkt, ps.length ≤ (Spec.stream ps).length := by
    intro ps
    induction ps with
    | nil => simp
    | cons p ps ih =>
      rw [stream_cons, List.length_append, List.length_cons]
      have := key p
      omega
  have h := this (ls.map Spec.ReqLine.pkt)
  rw [List.length_map] at h
  unfold doneBody
  rw [List.length_append]
  omega

/-- What a clone request gets. -/
theorem httpUploadPack_clone {St : FetchStore} {ord : List Bytes → List Bytes} (hord : ∀ l x, x ∈ ord l ↔ x ∈ l) {cut : Bytes → List Bytes}
    (hcut : Spec.CutOk cut) {ls : List Spec.ReqLine} {t rest out : Bytes} (hr : Spec.CloneReq ls t)
    (h : httpUploadPack St ord cut (doneBody ls t rest) = .ok out) :
    ∃ file, St.fullPack = .ok file ∧ Spec.readClone out = some file := by
  have hlen := doneBody_length ls t rest
  obtain ⟨k, hk⟩ : ∃ k, (doneBody ls t rest).length + 1 = ls.length + (k + 1) := ⟨(doneBody ls t rest).length - ls.length, by omega⟩
  unfold httpUploadPack at h
  rw [hk, fetchLoop_done ls hr.ok t rest hr.short] at h
  obtain ⟨s, hs, hw, hh, hc⟩ := C19_fetch_negotiation ls hr.ok t rest hr.short
  have hs' := fetchLoop_done ls hr.ok t rest hr.short fetchInit 0
  rw [hs, Res.ok.injEq, Prod.mk.injEq] at hs'
  have e0 : ls.foldl reqStep { want := [], have_ := [], caps := [], firstLine := true } = s := hs'.1.symm
  rw [Res.bind_ok] at h
  simp only [e0] at h
  have hno : ord s.have_ = [] := by
    rw [List.eq_nil_iff_forall_not_mem]
    intro x hx
    have := (hh x).1 ((hord _ x).1 hx)
    rw [hr.none] at this
    cases this
  rw [fetchAnswer, hno, if_pos rfl] at h
  simp only [Res.bind_eq_ok, Res.pure_eq, Res.unwrap_eq_ok, Res.ok.injEq] at h
  obtain ⟨⟨pack, buf⟩, ⟨file, h1, h2⟩, h3⟩ := h
  simp only [Prod.mk.injEq] at h2
  obtain ⟨rfl, rfl⟩ := h2
  simp only at h3
  obtain ⟨tail, words, b1, b2, b3⟩ := hr.band
  have hcap : Capability.sideBand64k ∈ s.caps := by
    rw [hc, b1]
    rcases b3 with b3 | b3
    · exact (C21_capabilities_iff _ _ b2 _).2 ⟨_, b3, [], [], .nil, .nil, by rfl⟩
    · exact (C21_capabilities_iff _ _ b2 _).2 ⟨_, b3, [], [10], .nil, .cons (.tab_to_cr 10 (by decide) (by decide)) .nil, by rfl⟩
  refine ⟨file, h1, ?_⟩
  obtain ⟨c1, _⟩ := C17_sideband s.caps (.inr hcap) file (cut file) (hcut file).1 (hcut file).2
  obtain ⟨f1, f2⟩ := C15_pkt_format [] (ascii "NAK\n") (sendPack s.caps (cut file)) (by decide)
  rw [← h3, f1, List.nil_append, Spec.readClone, f2]
  simp only [if_true, c1]

/-- **C78 (partial)** What is pushed over HTTP comes back over HTTP: take a server that started empty and has handled any requests at all; a push of one ref to a URL that
is answered; then any requests that do not push to the same path; then a clone request to the same URL (either may be given with `.git`) that is answered. A client reading
the reply by the rules of the protocol gets a pack with exactly: what the repository contained before, the pushed commits, and the pushed trees and blobs
reachable from a pushed commit. (Missing from the full claim: annotated tags and failing inserts of commits, see C72, C26; other repositories above the path, see C55.) -/
theorem C78_push_then_clone_partial (P : ServerExt) (hfold : ∀ a b : Hash, P.D.fold (Hash.toPlainStr a) = P.D.fold (Hash.toPlainStr b) → a = b)
    (u g g' : Bytes) (hu : Spec.CleanUrl u) (hg : g = [] ∨ g = ascii ".git") (hg' : g' = [] ∨ g' = ascii ".git")
    (h1 h2 : List (Moment × HttpReq)) (m1 m2 : Moment)
    (c : Spec.PushCmd) (hc : c.Ok) (caps : Bytes) (hcaps : caps.length ≤ 4000) (hascii : ∀ x ∈ caps, x.toNat < 128)
    (pack : Bytes) (hpack : (ascii "PACK").isPrefixOf pack = true)
    (push : HttpReq) (hreq : push = Spec.pushReq (u ++ g) (Spec.pushBody c [] caps pack))
    (hfl : Spec.SameFold P.D.fold (h1 ++ [(m1, push)] ++ h2)) (hm2 : m2.sql.fold = P.D.fold)
    (hab : Spec.NoneAbove P.D.fold u (h1 ++ [(m1, push)] ++ h2))
    (hac : ∀ n rows, m1.sql.acceptCommits n rows = true)
    (rep : Bytes) (hpush : (serve P m1 (runServer P .empty h1) push).1 = .reply (.ok (.bytes rep)))
    (hno : ∀ p ∈ h2, ∀ a, route p.2.method p.2.path p.2.service = .receivePack a → P.D.fold a ≠ P.D.fold u)
    (hun : UniqueIds P.X (runServer P .empty (h1 ++ [(m1, push)] ++ h2)).db)
    (hfit : FitsPack P.X (runServer P .empty (h1 ++ [(m1, push)] ++ h2)).db)
    (hord : ∀ l x, x ∈ m2.ord l ↔ x ∈ l) (hcut : Spec.CutOk m2.cut) (ls : List Spec.ReqLine) (t rest : Bytes) (hr : Spec.CloneReq ls t)
    (out : Bytes) (hclone : (serve P m2 (runServer P .empty (h1 ++ [(m1, push)] ++ h2))
      (Spec.fetchReq (u ++ g') (doneBody ls t rest))).1 = .reply (.ok (.bytes out))) :
    ∃ p file ms, decodePack P.X (getHashObject P.X m1.sql (runServer P .empty h1).db) m1.fuel pack = .ok p ∧
      Spec.readClone out = some file ∧ PackHas P.X file ms ∧
      ∀ m, m ∈ ms ↔ (∃ o, InRepo P.D.fold (runServer P .empty h1).db u o ∧ m = metaOf P.X o) ∨
        (p.result.hashObject m.id = some m ∧ (m.t = .commit ∨ Spec.PackReach p.result.hashObject m.id)) := by
  generalize hs1 : runServer P .empty h1 = s1 at *
  have hf1 : m1.sql.fold = P.D.fold := hfl (m1, push) (by simp)
  have hrun1 : StoreRun P.X P.D.fold u s1.db := by
    rw [← hs1]
    exact run_store P u _ h1 rfl (fun p hp => hfl p (by simp [hp])) (fun p hp q hq => hab p (by simp [hp]) q (by simp [hq]))
  -- the push
  have hroute := route_push hu hg
  obtain ⟨st', hst, hdb⟩ : ∃ st', httpReceivePack (mysqlPush P.X m1.sql m1.fuel) { caps := [], commands := [], path := u, db := s1.db }
      (Spec.pushBody c [] caps pack) = .ok (rep, st') ∧
      (serve P m1 s1 push).2.db = st'.db := by
    rw [serve_db]
    simp only [serve, hreq, Spec.pushReq, hroute] at hpush ⊢
    obtain ⟨⟨out, st'⟩, e1, e2⟩ := Res.outcome_ok hpush
    cases e2
    exact ⟨st', e1, httpReceiveDb_ok _ _ _ _ _ e1⟩
  -- the requests in between
  have hin := run_inRepo P u (h1 ++ [(m1, push)]) h2 hfl hab hno hun
  have hend := run_store P u _ _ rfl hfl hab
  have hx := run_extends P h2 (runServer P .empty (h1 ++ [(m1, push)]))
  rw [← runServer_append] at hx
  have hun1 := hx.unique hun
  rw [runServer_concat, hs1, hdb] at hin hun1
  -- the clone
  have hroute' := route_fetch hu hg'
  generalize hs3 : runServer P .empty (h1 ++ [(m1, push)] ++ h2) = s3 at *
  obtain ⟨file, hfull, hread⟩ : ∃ file, getFullPack P.X m2.sql m2.fuel s3.db u = .ok file ∧ Spec.readClone out = some file := by
    simp only [serve, Spec.fetchReq, hroute'] at hclone
    obtain ⟨o', e1, e2⟩ := Res.outcome_ok hclone
    cases e2
    exact httpUploadPack_clone hord hcut hr e1
  obtain ⟨ms, k1, k2⟩ := clone_has hend hun hfold hfit hm2 hfull
  -- what was pushed
  have hrun1' : StoreRun P.X m1.sql.fold u s1.db := by rw [hf1]; exact hrun1
  obtain ⟨p, db1, d1, d2, d3, d4, r1, r2⟩ := push_run hrun1' hc hcaps hascii hpack hst
  have hu1 : UniqueIds P.X db1 := Extends.unique ⟨fun n hn => by rw [d3]; exact hn, fun n hn => by rw [d4]; exact hn⟩ hun1
  obtain ⟨hist, ehist, hok'⟩ := decodePack_hist d1
  have objs : ∀ o, p.result.hashObject o.id = some o → metaOf P.X (o.t, o.data) = o := by
    intro o ho
    rw [ehist, PackCache.hashObject_run] at ho
    obtain ⟨q, hq, rfl⟩ := Option.map_eq_some_iff.1 ho
    exact (metaOf_of_new (hok' q (PackCache.lastWith_some hq).1).2).2
  have key := push_inRepo hrun1' m1.sql rfl hac m1.fuel pack p d1 d2 hu1
  rw [hf1] at key
  refine ⟨p, file, ms, d1, hread, k1, fun m => ?_⟩
  rw [k2]
  constructor
  · rintro ⟨o, ho, rfl⟩
    rcases (key o).1 ((inRepo_congr d3 d4).1 ((hin o).1 ho)) with h | ⟨m, a, e, b⟩
    · exact .inl ⟨o, h, rfl⟩
    · subst e
      exact .inr ⟨a, b⟩
  · rintro (⟨o, ho, rfl⟩ | ⟨a, b⟩)
    · exact ⟨o, (hin o).2 ((inRepo_congr d3 d4).2 ((key o).2 (.inl ho))), rfl⟩
    · exact ⟨(m.t, m.data), (hin _).2 ((inRepo_congr d3 d4).2 ((key _).2 (.inr ⟨m, a, (objs m a).symm, b⟩))), (objs m a).symm⟩

end Gust

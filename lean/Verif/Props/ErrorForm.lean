import Verif.Model.ErrorText
import Verif.Lemmas.Json
import Verif.Props.LfsShared

/-! # The form of errors of the LFS API (C134) -/

namespace Gust

/-- An error in the form of the LFS API: a JSON object whose `message` is a text. -/
def Spec.LfsError (body : Bytes) : Prop := ∃ ms raw, Spec.JsonDoc (.obj ms) body ∧ (ascii "message", Json.str raw) ∈ ms

/-- The form of the reply to a request for a lock that somebody has already (LFS locking API, status 409): it also carries the lock. -/
def Spec.LfsConflict (body : Bytes) : Prop := ∃ ms l, Spec.JsonDoc (.obj ms) body ∧ (ascii "lock", Json.obj l) ∈ ms

/-- The texts the LFS handlers can send. -/
def lfsErrorTexts : List Bytes :=
  [ascii "Lookup operation failed!", ascii "Lock already exist", ascii "Failed when adding locks!", ascii "Failed when filtering locks!", ascii "Invalid lock id!",
    ascii "Deserialize operation failed!", ascii "Delete operation failed!", ascii "Unable to find lock!", ascii "Header not acceptable!"]

theorem lfsErrorTexts_json : ∀ t ∈ lfsErrorTexts, (parseJson t).isNone = true ∧ t ≠ [] := by decide +kernel

theorem not_json {t : Bytes} (h : t ∈ lfsErrorTexts) (v : Json) : ¬ Spec.JsonDoc v t := by
  intro hv
  have := (lfsErrorTexts_json t h).1
  rw [(parseJson_iff t v).2 hv] at this
  cases this

theorem createLockText_mem (D : DbExt) (t : LockTable) (ref path : Bytes) : createLockText D t ref path ∈ lfsErrorTexts := by
  unfold createLockText
  split
  · split <;> simp [lfsErrorTexts]
  · simp [lfsErrorTexts]

theorem deleteLockText_mem (D : DbExt) (t : LockTable) (id body ref : Bytes) (force : Option Bool) : deleteLockText D t id body ref force ∈ lfsErrorTexts := by
  unfold deleteLockText
  split
  · simp [lfsErrorTexts]
  · split
    · simp [lfsErrorTexts]
    · split <;> simp [lfsErrorTexts]

theorem outcome_status {α : Type} {f : α → Payload} {r : Reply α} {c : Nat} (h : r.outcome f = .reply (.status c)) : r = .status c := by
  cases r <;> simp_all [Reply.outcome]

/-- An error of an LFS route has one of the texts of the handlers. -/
theorem error_mem (P : ServerExt) (m : Moment) (s : ServerState) (u : Bytes) (a : Spec.LfsAsk) (ha : a.Ok) (t : Bytes) (h : errorText P m s (a.to u) = some t) : t ∈ lfsErrorTexts := by
  have hr := lfs_route u a ha
  unfold errorText at h
  split at h
  · rename_i c hc
    cases h
    unfold serve at hc
    unfold errorBody
    rw [hr] at hc ⊢
    cases a with
    | lock body =>
      simp only [Spec.LfsAsk.handler, Spec.LfsAsk.to] at hc ⊢
      cases hb : P.J.lock body with
      | none => rw [hb] at hc; cases hc
      | some p => exact createLockText_mem _ _ _ _
    | unlock id body =>
      simp only [Spec.LfsAsk.handler, Spec.LfsAsk.to] at hc ⊢
      cases hb : P.J.unlock body <;> exact deleteLockText_mem _ _ _ _ _ _
    | verify body => simp [Spec.LfsAsk.handler, lfsErrorTexts]
    | list q => simp [Spec.LfsAsk.handler, lfsErrorTexts]
    | upload oid body => simp [Spec.LfsAsk.handler, lfsErrorTexts]
    | batch body =>
      simp only [Spec.LfsAsk.handler, Spec.LfsAsk.to] at hc
      split at hc
      · cases hc
      · have := outcome_status hc
        unfold processBatch at this
        simp only at this
        split at this
        · cases this
        · exact (toReply_status this).elim
    | download oid =>
      simp only [Spec.LfsAsk.handler, Spec.LfsAsk.to] at hc
      have := outcome_status hc
      unfold downloadObject at this
      simp only at this
      split at this
      · cases this
      · split at this
        · cases this
        · exact (toReply_status this).elim
  · cases h

/-- **C134 is false**, always: whatever a request to the LFS API is refused for, in whatever state, the reply is not JSON, let alone an object with a message; and its type is not that of the API. -/
theorem C134_form_false (P : ServerExt) (m : Moment) (s : ServerState) (u : Bytes) (a : Spec.LfsAsk) (ha : a.Ok) (t : Bytes) (h : errorText P m s (a.to u) = some t) :
    (∀ v, ¬ Spec.JsonDoc v t) ∧ ¬ Spec.LfsError t ∧
      ∀ head, replyHead (a.to u) (serve P m s (a.to u)).1 = some head → (ascii "Content-Type", ascii "application/vnd.git-lfs+json") ∉ head.headers := by
  have hn := not_json (error_mem P m s u a ha t h)
  refine ⟨hn, fun ⟨ms, _, hd, _⟩ => hn _ hd, ?_⟩
  intro head hh
  unfold errorText at h
  split at h
  · rename_i c hc
    rw [hc] at hh
    unfold replyHead at hh
    rw [lfs_route u a ha] at hh
    have : head = ⟨c, [(ascii "Content-Type", ascii "text/plain; charset=utf-8")]⟩ := by
      cases a <;> · simp only [Spec.LfsAsk.handler] at hh; exact (Option.some.inj hh).symm
    rw [this]
    simp only [List.mem_singleton]
    exact (by decide : (ascii "Content-Type", ascii "application/vnd.git-lfs+json") ≠ (ascii "Content-Type", ascii "text/plain; charset=utf-8"))
  · cases h

/-- **C134 is false** for locks: who asks for a lock that was given to somebody before is told neither by whom it is held nor since when. The reply is the same three words, whatever the lock. -/
theorem C134_conflict_false (P : ServerExt) (m m' : Moment) (s : ServerState) (u v body body' ref path : Bytes) (l : Lock) (hb : P.J.lock body = some (ref, path))
    (hb' : P.J.lock body' = some (ref, path)) (hok : (serve P m s ((Spec.LfsAsk.lock body).to u)).1 = .reply (.ok (.lock l)))
    (h : List (Moment × HttpReq)) (hh : ∀ p ∈ h, ∀ id, route p.2.method p.2.path p.2.service ≠ .deleteLock id) :
    (serve P m' (runServer P (serve P m s ((Spec.LfsAsk.lock body).to u)).2 h) ((Spec.LfsAsk.lock body').to v)).1 = .reply (.status 409) ∧
      errorText P m' (runServer P (serve P m s ((Spec.LfsAsk.lock body).to u)).2 h) ((Spec.LfsAsk.lock body').to v) = some (ascii "Lock already exist") ∧
      ¬ Spec.LfsConflict (ascii "Lock already exist") := by
  have h1 := C124_lock_false P m m' s u v body body' ref path l hb hb' hok h hh
  generalize runServer P (serve P m s ((Spec.LfsAsk.lock body).to u)).2 h = s' at h1
  refine ⟨by rw [h1], ?_, fun ⟨_, _, hd, _⟩ => not_json (by simp [lfsErrorTexts]) _ hd⟩
  unfold errorText
  rw [h1]
  simp only
  unfold errorBody
  unfold serve at h1
  rw [lfs_route v (.lock body') trivial] at h1 ⊢
  simp only [Spec.LfsAsk.handler, Spec.LfsAsk.to, hb'] at h1 ⊢
  have hc := outcome_status (congrArg Prod.fst h1)
  unfold createLock at hc
  unfold createLockText
  split at hc
  · split at hc
    · rename_i e hl; rw [e]; simp only; rw [if_pos hl]
    · split at hc <;> cases hc
  · cases hc
  · cases hc

/-- **C134, partial**: an error of the LFS API says in words what failed, never nothing, and its status is one of five that tell a client whether the request (4xx) or the server (500) is at fault. Missing: the form. -/
theorem C134_told_partial (P : ServerExt) (m : Moment) (s : ServerState) (u : Bytes) (a : Spec.LfsAsk) (ha : a.Ok) (c : Nat) (h : (serve P m s (a.to u)).1 = .reply (.status c)) :
    c ∈ [400, 404, 406, 409, 500] ∧ ∃ t, errorText P m s (a.to u) = some t ∧ t ≠ [] := by
  have ht : errorText P m s (a.to u) = some (errorBody P s (a.to u)) := by unfold errorText; rw [h]
  refine ⟨?_, _, ht, (lfsErrorTexts_json _ (error_mem P m s u a ha _ ht)).2⟩
  unfold serve at h
  rw [lfs_route u a ha] at h
  cases a with
  | lock body =>
    simp only [Spec.LfsAsk.handler, Spec.LfsAsk.to] at h
    split at h
    · cases h
    · have e := outcome_status h
      unfold createLock at e
      repeat' split at e
      all_goals first | cases e; decide | cases e
  | unlock id body =>
    simp only [Spec.LfsAsk.handler] at h
    by_cases hz : id = [] ∨ ((Spec.LfsAsk.unlock id body).to u).body = []
    · rw [if_pos hz] at h; cases h; decide
    · rw [if_neg hz] at h
      split at h
      · cases h
      · have e := outcome_status h
        unfold deleteLock deleteReply at e
        repeat' split at e
        all_goals first | cases e; decide | cases e
  | verify body =>
    simp only [Spec.LfsAsk.handler, Spec.LfsAsk.to] at h
    split at h
    · cases h
    · have e := outcome_status h
      unfold verifyLock at e
      simp only at e
      repeat' split at e
      all_goals first | cases e; decide | cases e
  | list q =>
    simp only [Spec.LfsAsk.handler, Spec.LfsAsk.to] at h
    have e := outcome_status h
    unfold retrieveLock at e
    simp only at e
    repeat' split at e
    all_goals first | cases e; decide | cases e
  | batch body => exact absurd (error_mem P m s u (.batch body) ha _ ht) (by unfold errorBody; rw [lfs_route u (.batch body) ha]; exact (by decide : ([] : Bytes) ∉ lfsErrorTexts))
  | download oid => exact absurd (error_mem P m s u (.download oid) ha _ ht) (by unfold errorBody; rw [lfs_route u (.download oid) ha]; exact (by decide : ([] : Bytes) ∉ lfsErrorTexts))
  | upload oid body =>
    simp only [Spec.LfsAsk.handler, Spec.LfsAsk.to] at h
    have e := outcome_status h
    unfold uploadObject at e
    simp only at e
    repeat' split at e
    all_goals first | cases e; decide | cases e

/-- The second request for `data.bin`, and a request to give back a lock that nobody has. -/
example : (serve demoServer demoMoment (runServer demoServer (serve demoServer demoMoment .empty ((Spec.LfsAsk.lock (ascii "data.bin")).to (ascii "/app"))).2 [])
      ((Spec.LfsAsk.lock (ascii "data.bin")).to (ascii "/app"))).1 = .reply (.status 409) ∧
    errorText demoServer demoMoment (runServer demoServer (serve demoServer demoMoment .empty ((Spec.LfsAsk.lock (ascii "data.bin")).to (ascii "/app"))).2 [])
      ((Spec.LfsAsk.lock (ascii "data.bin")).to (ascii "/app")) = some (ascii "Lock already exist") :=
  have h := C134_conflict_false demoServer demoMoment demoMoment .empty (ascii "/app") (ascii "/app") (ascii "data.bin") (ascii "data.bin") (ascii "refs/heads/main") (ascii "data.bin")
    (newLock (ascii "data.bin") demoMoment.lockId demoMoment.now) (by decide) (by decide) (by decide +kernel) [] (by simp)
  ⟨h.1, h.2.1⟩

example : errorText demoServer demoMoment .empty ((Spec.LfsAsk.unlock [] (ascii "x")).to (ascii "/app")) = some (ascii "Invalid lock id!") ∧ ¬ Spec.LfsError (ascii "Invalid lock id!") := by
  have e : errorText demoServer demoMoment .empty ((Spec.LfsAsk.unlock [] (ascii "x")).to (ascii "/app")) = some (ascii "Invalid lock id!") := by decide +kernel
  exact ⟨e, (C134_form_false demoServer demoMoment .empty (ascii "/app") (.unlock [] (ascii "x")) (by simp [Spec.LfsAsk.Ok]) _ e).2.1⟩

/-- The messages of an object, as texts. -/
def messagesOf : Option Json → List Bytes
  | some (.obj ms) => ms.filterMap (fun p => match p with | (k, .str raw) => if k = ascii "message" then some raw else none | _ => none)
  | _ => []

/-- A reply in the form of the API would be found to be one. -/
example : Spec.LfsError (ascii "{\"message\":\"no\"}") := by
  have h : messagesOf (parseJson (ascii "{\"message\":\"no\"}")) = [ascii "no"] := by decide +kernel
  generalize hp : parseJson (ascii "{\"message\":\"no\"}") = v at h
  rcases v with _ | v
  · cases h
  · cases v with
    | obj ms =>
      have hm : ascii "no" ∈ messagesOf (some (.obj ms)) := by rw [h]; simp
      obtain ⟨⟨k, j⟩, hk, hj⟩ := List.mem_filterMap.1 hm
      cases j with
      | str raw =>
        simp only at hj
        split at hj
        · rename_i e; cases hj; exact ⟨ms, _, (parseJson_iff _ _).1 hp, e ▸ hk⟩
        · cases hj
      | _ => cases hj
    | _ => cases h

end Gust

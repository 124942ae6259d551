import Verif.Props.Router
import Verif.Props.ServerExamples

/-! # C57: what a client is told on paths that are not served -/

namespace Gust

/-- **C57** (partial). A request that belongs to no documented endpoint and does not remove a lock is told that it cannot be served (403, 404 or 405) or
its connection is dropped; it is answered at once, never with a success, and changes nothing. (Missing: requests on other paths that end in
`/unlock`, see `C57_unlock_false`; the status is not 404 but for one path, see `C57_404_false`.) -/
theorem C57_unserved_partial (P : ServerExt) (m : Moment) (s : ServerState) (r : HttpReq) (hno : ∀ Q, ¬ Spec.Endpoint r.method r.path r.service Q)
    (hun : ¬ (r.method = .post ∧ ascii "/unlock" <:+ r.path)) :
    (serve P m s r).2 = s ∧ ((serve P m s r).1 = .reply .panic ∨ ∃ c, (serve P m s r).1 = .reply (.status c) ∧ (c = 403 ∨ c = 404 ∨ c = 405)) := by
  have hr : Spec.Refused (route r.method r.path r.service) := by
    by_contra h
    obtain ⟨Q, hQ, _⟩ := C57_only_partial h (fun id e => by
      obtain ⟨h1, _, pre, h2, _⟩ := C57_unlock_partial e
      exact hun ⟨h1, pre ++ id, h2.symm⟩)
    exact hno Q hQ
  rcases hr with e | e | e | e <;> simp only [serve, e]
  · exact ⟨trivial, .inr ⟨_, rfl, .inl rfl⟩⟩
  · exact ⟨trivial, .inr ⟨_, rfl, .inr (.inl rfl)⟩⟩
  · exact ⟨trivial, .inr ⟨_, rfl, .inr (.inr rfl)⟩⟩
  · exact ⟨trivial, .inl trivial⟩

/-- **C57** (partial). Which status: 404 for the root with any method, 405 for every other path with a method that is not served. -/
theorem C57_status_partial (P : ServerExt) (m : Moment) (s : ServerState) (r : HttpReq) :
    (r.path = ascii "/" → (serve P m s r).1 = .reply (.status 404)) ∧
      (r.path ≠ ascii "/" → r.method = .other → (serve P m s r).1 = .reply (.status 405)) := by
  constructor
  · intro h
    simp only [serve, (C57_404_false _ _ _).2 h]
  · intro h hm
    simp only [serve, route, if_neg h, hm]

/-- A probe for a file belongs to no endpoint: it is refused and changes nothing, whatever the server contains. -/
example (s : ServerState) : (serve demoServer demoMoment s { method := .get, path := ascii "/app.git/HEAD" }).2 = s := by
  refine (C57_unserved_partial demoServer demoMoment s { method := .get, path := ascii "/app.git/HEAD" } ?_ (fun h => by cases h.1)).1
  show ∀ Q, ¬ Spec.Endpoint .get (ascii "/app.git/HEAD") none Q
  generalize hp : ascii "/app.git/HEAD" = path
  intro Q h
  cases h with
  | download pre oid s ho =>
    have : ascii "/objects/" <:+: ascii "/app.git/HEAD" := ⟨pre, oid, hp.symm⟩
    exact absurd this (by decide)
  | listLocks pre s =>
    have : ascii "/locks" <:+: ascii "/app.git/HEAD" := ⟨pre, [], by rw [hp]; simp⟩
    exact absurd this (by decide)

example (s : ServerState) : (serve demoServer demoMoment s { method := .get, path := ascii "/app.git/HEAD" }).1 = .reply (.status 403) := by
  have h : route .get (ascii "/app.git/HEAD") none = .forbidden := by decide +kernel
  simp only [serve, h]

end Gust

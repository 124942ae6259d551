import Verif.Lemmas.Router

/-! # C56, C57: repository paths and routing -/

namespace Gust

theorem routeOid_noSlash {oid : Bytes} (h : Spec.RouteOid oid) : (0x2f : UInt8) ∉ oid := by
  intro e
  have := h.2 _ e
  simp at this

/-! ## C57 -/

theorem notRoot {pre lit : Bytes} (h : 1 < lit.length) : pre ++ lit ≠ ascii "/" := by
  intro e
  have := congrArg List.length e
  rw [List.length_append] at this
  have h1 : (ascii "/").length = 1 := rfl
  omega

theorem matchObjects_false {path : Bytes} (h : ∀ pre oid, Spec.RouteOid oid → path ≠ pre ++ ascii "/objects/" ++ oid) :
    matchObjects path = false := by
  rw [Bool.eq_false_iff]
  intro e
  obtain ⟨pre, oid, ho, hp⟩ := (matchObjects_iff path).1 e
  exact h pre oid ho hp

theorem objects_split (pre oid : Bytes) (h : (0x2f : UInt8) ∉ oid) :
    splitOn 0x2f (pre ++ ascii "/objects/" ++ oid) = splitOn 0x2f pre ++ [ascii "objects", oid] := by
  have e : pre ++ ascii "/objects/" ++ oid = pre ++ 0x2f :: (ascii "objects" ++ 0x2f :: oid) := by simp [ascii]
  rw [e, splitOn_glue, splitOn_glue, splitOn_plain _ oid h, splitOn_plain _ (ascii "objects") (by decide)]
  rfl

/-- **C57** (partial). Every documented endpoint, under every prefix, reaches its handler with the right oid, lock id or
service, except that the list of locks of a prefix ending in `/objects` is not reachable. -/
theorem C57_routed_partial {m : Method} {path : Bytes} {s : Option Bytes} {P : Route → Prop} (h : Spec.Endpoint m path s P)
    (hl : m = .get → ¬ ascii "/objects/locks" <:+ path) : P (route m path s) := by
  cases h with
  | download pre oid s ho =>
    have e : pre ++ ascii "/objects/" ++ oid = (pre ++ ascii "/objects") ++ 0x2f :: oid := by simp [ascii]
    have hm := (matchObjects_iff _).2 ⟨pre, oid, ho, rfl⟩
    have hr : pre ++ ascii "/objects/" ++ oid ≠ ascii "/" := by rw [List.append_assoc]; exact notRoot (by simp [ascii])
    simp only [route, if_neg hr, getRoute, hm, if_true]
    rw [e]
    exact token_last _ _ (routeOid_noSlash ho) _
  | listLocks pre s =>
    have hm : matchObjects (pre ++ ascii "/locks") = false := by
      refine matchObjects_false fun pre' oid ho hp => ?_
      have e : pre ++ ascii "/locks" = pre ++ 0x2f :: ascii "locks" := rfl
      have h1 := congrArg (splitOn 0x2f) hp
      rw [objects_split _ _ (routeOid_noSlash ho), e, splitOn_glue, splitOn_plain _ (ascii "locks") (by decide)] at h1
      have h2 : splitOn 0x2f pre ++ [ascii "locks"] = (splitOn 0x2f pre' ++ [ascii "objects"]) ++ [oid] := by
        rw [h1, List.append_assoc]; rfl
      have h3 := (List.append_inj' h2 rfl).2
      cases h3
      refine hl rfl ⟨pre', ?_⟩
      rw [hp]
      simp [ascii]
    simp only [route, if_neg (notRoot (pre := pre) (lit := ascii "/locks") (by decide)), getRoute, hm, endsWith_append,
      Bool.false_eq_true, if_true, if_false]
  | infoRefs pre t =>
    have hm : matchObjects (pre ++ ascii "/info/refs") = false := by
      refine matchObjects_false fun pre' oid ho hp => ?_
      have e : pre ++ ascii "/info/refs" = pre ++ 0x2f :: (ascii "info" ++ 0x2f :: ascii "refs") := rfl
      have h1 := congrArg (splitOn 0x2f) hp
      rw [objects_split _ _ (routeOid_noSlash ho), e, splitOn_glue, splitOn_glue, splitOn_plain _ (ascii "info") (by decide),
        splitOn_plain _ (ascii "refs") (by decide)] at h1
      have h3 := (List.append_inj' h1 rfl).2
      revert h3
      simp [ascii]
    refine ⟨removeGitSuffix (pre ++ ascii "/info/refs") (ascii "/info/refs"), ?_⟩
    have ht : ServiceType.fromStr t.display = some t := by cases t <;> decide
    simp only [route, if_neg (notRoot (pre := pre) (lit := ascii "/info/refs") (by decide)), getRoute, hm,
      endsWith_append, endsWith_false (pre := pre) (a := ascii "/locks") (b := ascii "/info/refs") (by decide),
      Bool.false_eq_true, Bool.not_true, if_false, ht]
  | verifyLocks pre s =>
    simp only [route, if_neg (notRoot (pre := pre) (lit := ascii "/locks/verify") (by decide)), postRoute, endsWith_append,
      if_true]
  | createLock pre s =>
    simp only [route, if_neg (notRoot (pre := pre) (lit := ascii "/locks") (by decide)), postRoute, endsWith_append,
      endsWith_false (pre := pre) (a := ascii "/locks/verify") (b := ascii "/locks") (by decide), Bool.false_eq_true, if_true,
      if_false]
  | deleteLock pre id s hi =>
    have e : pre ++ ascii "/locks/" ++ id ++ ascii "/unlock" = (pre ++ ascii "/locks") ++ 0x2f :: (id ++ 0x2f :: ascii "unlock") := by
      simp [ascii]
    simp only [route, if_neg (notRoot (pre := pre ++ ascii "/locks/" ++ id) (lit := ascii "/unlock") (by decide)), postRoute,
      endsWith_append, endsWith_false (pre := pre ++ ascii "/locks/" ++ id) (a := ascii "/locks/verify") (b := ascii "/unlock")
      (by decide), endsWith_false (pre := pre ++ ascii "/locks/" ++ id) (a := ascii "/locks") (b := ascii "/unlock")
      (by decide), Bool.false_eq_true, if_true, if_false]
    rw [e]
    exact token_before _ _ _ (by decide) hi _
  | batch pre s =>
    simp only [route, if_neg (notRoot (pre := pre) (lit := ascii "/objects/batch") (by decide)), postRoute, endsWith_append,
      endsWith_false (pre := pre) (a := ascii "/locks/verify") (b := ascii "/objects/batch") (by decide),
      endsWith_false (pre := pre) (a := ascii "/locks") (b := ascii "/objects/batch") (by decide),
      endsWith_false (pre := pre) (a := ascii "/unlock") (b := ascii "/objects/batch") (by decide), Bool.false_eq_true, if_true,
      if_false]
  | uploadPack pre s =>
    refine ⟨removeGitSuffix (pre ++ ascii "/git-upload-pack") (ascii "/git-upload-pack"), ?_⟩
    simp only [route, if_neg (notRoot (pre := pre) (lit := ascii "/git-upload-pack") (by decide)), postRoute, endsWith_append,
      endsWith_false (pre := pre) (a := ascii "/locks/verify") (b := ascii "/git-upload-pack") (by decide),
      endsWith_false (pre := pre) (a := ascii "/locks") (b := ascii "/git-upload-pack") (by decide),
      endsWith_false (pre := pre) (a := ascii "/unlock") (b := ascii "/git-upload-pack") (by decide),
      endsWith_false (pre := pre) (a := ascii "/objects/batch") (b := ascii "/git-upload-pack") (by decide),
      Bool.false_eq_true, if_true, if_false]
  | receivePack pre s =>
    refine ⟨removeGitSuffix (pre ++ ascii "/git-receive-pack") (ascii "/git-receive-pack"), ?_⟩
    simp only [route, if_neg (notRoot (pre := pre) (lit := ascii "/git-receive-pack") (by decide)), postRoute, endsWith_append,
      endsWith_false (pre := pre) (a := ascii "/locks/verify") (b := ascii "/git-receive-pack") (by decide),
      endsWith_false (pre := pre) (a := ascii "/locks") (b := ascii "/git-receive-pack") (by decide),
      endsWith_false (pre := pre) (a := ascii "/unlock") (b := ascii "/git-receive-pack") (by decide),
      endsWith_false (pre := pre) (a := ascii "/objects/batch") (b := ascii "/git-receive-pack") (by decide),
      endsWith_false (pre := pre) (a := ascii "/git-upload-pack") (b := ascii "/git-receive-pack") (by decide),
      Bool.false_eq_true, if_true, if_false]
  | upload pre oid s ho =>
    have e : pre ++ ascii "/objects/" ++ oid = (pre ++ ascii "/objects") ++ 0x2f :: oid := by simp [ascii]
    have hm := (matchObjects_iff _).2 ⟨pre, oid, ho, rfl⟩
    have hr : pre ++ ascii "/objects/" ++ oid ≠ ascii "/" := by rw [List.append_assoc]; exact notRoot (by simp [ascii])
    simp only [route, if_neg hr, putRoute, hm, if_true]
    rw [e]
    exact token_last _ _ (routeOid_noSlash ho) _

/-- The answers that are no handler's. -/
def Spec.Refused (r : Route) : Prop := r = .forbidden ∨ r = .notFound ∨ r = .methodNotAllowed ∨ r = .crash

/-- A path is what is before its last segment, and the last segment. -/
theorem lastSegment : ∀ x : Bytes, ∃ pre last, x = pre ++ last ∧ (0x2f : UInt8) ∉ last ∧ (pre = [] ∨ ∃ p, pre = p ++ [0x2f])
  | [] => ⟨[], [], rfl, by simp, .inl rfl⟩
  | c :: x => by
    obtain ⟨pre, last, rfl, hl, hp⟩ := lastSegment x
    rcases hp with rfl | ⟨p, rfl⟩
    · by_cases hc : c = 0x2f
      · subst hc
        exact ⟨[0x2f], last, rfl, hl, .inr ⟨[], rfl⟩⟩
      · exact ⟨[], c :: last, rfl, by simp [hl, Ne.symm hc], .inl rfl⟩
    · exact ⟨c :: (p ++ [0x2f]), last, rfl, hl, .inr ⟨c :: p, rfl⟩⟩

/-- **C57** (partial). A request that reaches a handler other than the one deleting locks is one of the documented endpoints,
with the parameters of that endpoint. -/
theorem C57_only_partial {m : Method} {path : Bytes} {s : Option Bytes} (h : ¬ Spec.Refused (route m path s))
    (hu : ∀ id, route m path s ≠ .deleteLock id) : ∃ P, Spec.Endpoint m path s P ∧ P (route m path s) := by
  have key : ∀ P, Spec.Endpoint m path s P → (m = .get → ¬ ascii "/objects/locks" <:+ path) →
      ∃ P, Spec.Endpoint m path s P ∧ P (route m path s) := fun P hP hl => ⟨P, hP, C57_routed_partial hP hl⟩
  by_cases hroot : path = ascii "/"
  · exact absurd (.inr (.inl (by simp only [route, if_pos hroot]))) h
  simp only [route, if_neg hroot] at h hu
  cases m with
  | other => exact absurd (.inr (.inr (.inl rfl))) h
  | put =>
    simp only [putRoute] at h
    cases hm : matchObjects path with
    | false =>
      rw [hm] at h
      exact absurd (.inl rfl) h
    | true =>
      obtain ⟨pre, oid, ho, rfl⟩ := (matchObjects_iff path).1 hm
      exact key _ (.upload pre oid s ho) (fun e => by cases e)
  | get =>
    simp only [getRoute] at h
    cases hm : matchObjects path with
    | true =>
      obtain ⟨pre, oid, ho, rfl⟩ := (matchObjects_iff path).1 hm
      refine ⟨_, .download pre oid s ho, ?_⟩
      have e : pre ++ ascii "/objects/" ++ oid = (pre ++ ascii "/objects") ++ 0x2f :: oid := by simp [ascii]
      simp only [route, if_neg hroot, getRoute, hm, if_true]
      rw [e]
      exact token_last _ _ (routeOid_noSlash ho) _
    | false =>
      have hl : ¬ ascii "/objects/locks" <:+ path := by
        rintro ⟨pre, rfl⟩
        have := (matchObjects_iff _).2 ⟨pre, ascii "locks", ⟨by decide, by decide⟩, rfl⟩
        rw [List.append_assoc] at this
        exact Bool.false_ne_true (hm ▸ this)
      rw [hm] at h
      simp only [Bool.false_eq_true, if_false] at h
      cases h1 : endsWith path (ascii "/locks") with
      | true =>
        obtain ⟨pre, rfl⟩ := (endsWith_iff _ _).1 h1
        exact key _ (.listLocks pre s) (fun _ => hl)
      | false =>
        rw [h1] at h
        simp only [Bool.false_eq_true, if_false] at h
        cases h2 : endsWith path (ascii "/info/refs") with
        | false =>
          rw [h2] at h
          exact absurd (.inl rfl) h
        | true =>
          obtain ⟨pre, rfl⟩ := (endsWith_iff _ _).1 h2
          rw [h2] at h
          cases s with
          | none => exact absurd (.inr (.inr (.inr rfl))) h
          | some s =>
            simp only [Bool.not_true, Bool.false_eq_true, if_false] at h
            cases ht : ServiceType.fromStr s with
            | none =>
              rw [ht] at h
              exact absurd (.inl rfl) h
            | some t =>
              have hs : s = t.display := by
                unfold ServiceType.fromStr at ht
                split at ht
                · cases ht; assumption
                · split at ht
                  · cases ht; assumption
                  · cases ht
              subst hs
              exact key _ (.infoRefs pre t) (fun _ => hl)
  | post =>
    simp only [postRoute] at h hu
    have hg : (Method.post = .get → ¬ ascii "/objects/locks" <:+ path) := fun e => by cases e
    cases h1 : endsWith path (ascii "/locks/verify") with
    | true =>
      obtain ⟨pre, rfl⟩ := (endsWith_iff _ _).1 h1
      exact key _ (.verifyLocks pre s) hg
    | false =>
    cases h2 : endsWith path (ascii "/locks") with
    | true =>
      obtain ⟨pre, rfl⟩ := (endsWith_iff _ _).1 h2
      exact key _ (.createLock pre s) hg
    | false =>
    cases h3 : endsWith path (ascii "/unlock") with
    | true =>
      obtain ⟨x, rfl⟩ := (endsWith_iff _ _).1 h3
      obtain ⟨pre, last, rfl, hla, hp⟩ := lastSegment x
      simp only [h1, h2, h3, Bool.false_eq_true, if_false, if_true] at hu
      exfalso
      refine hu last ?_
      rcases hp with rfl | ⟨p, rfl⟩
      · have e : [] ++ last ++ ascii "/unlock" = last ++ 0x2f :: ascii "unlock" := by simp [ascii]
        rw [e]
        simp only [withToken, token, splitOn_glue, splitOn_plain _ _ hla, splitOn_plain 0x2f (ascii "unlock") (by decide)]
        rfl
      · have e : p ++ [0x2f] ++ last ++ ascii "/unlock" = p ++ 0x2f :: (last ++ 0x2f :: ascii "unlock") := by simp [ascii]
        rw [e]
        exact token_before _ _ _ (by decide) hla _
    | false =>
    cases h4 : endsWith path (ascii "/objects/batch") with
    | true =>
      obtain ⟨pre, rfl⟩ := (endsWith_iff _ _).1 h4
      exact key _ (.batch pre s) hg
    | false =>
    cases h5 : endsWith path (ascii "/git-upload-pack") with
    | true =>
      obtain ⟨pre, rfl⟩ := (endsWith_iff _ _).1 h5
      exact key _ (.uploadPack pre s) hg
    | false =>
    cases h6 : endsWith path (ascii "/git-receive-pack") with
    | true =>
      obtain ⟨pre, rfl⟩ := (endsWith_iff _ _).1 h6
      exact key _ (.receivePack pre s) hg
    | false =>
      rw [h1, h2, h3, h4, h5, h6] at h
      exact absurd (.inl rfl) h

/-- **C57** (partial). What reaches the handler deleting locks: a POST of a path ending in `/unlock`, with the segment before
as the id. -/
theorem C57_unlock_partial {m : Method} {path id : Bytes} {s : Option Bytes} (h : route m path s = .deleteLock id) :
    m = .post ∧ (0x2f : UInt8) ∉ id ∧ ∃ pre, path = pre ++ id ++ ascii "/unlock" ∧ (pre = [] ∨ ∃ p, pre = p ++ [0x2f]) := by
  have hend : m = .post ∧ endsWith path (ascii "/unlock") = true ∧ withToken path 1 .deleteLock = .deleteLock id := by
    simp only [route] at h
    split at h
    · cases h
    · cases m with
      | other => cases h
      | put =>
        simp only [putRoute] at h
        split at h
        · simp only [withToken, token] at h
          split at h
          · cases h
          · rename_i r hr
            split at hr
            · cases hr
            · cases hr
              cases h
        · cases h
      | get =>
        simp only [getRoute] at h
        split at h
        · simp only [withToken, token] at h
          split at h
          · cases h
          · rename_i r hr
            split at hr
            · cases hr
            · cases hr
              cases h
        · split at h
          · cases h
          · split at h
            · cases h
            · split at h
              · cases h
              · split at h
                · cases h
                · cases h
      | post =>
        simp only [postRoute] at h
        split at h
        · cases h
        · split at h
          · cases h
          · split at h
            · exact ⟨rfl, by assumption, h⟩
            · split at h
              · cases h
              · split at h
                · cases h
                · split at h
                  · cases h
                  · cases h
  obtain ⟨hm, he, ht⟩ := hend
  obtain ⟨x, rfl⟩ := (endsWith_iff _ _).1 he
  obtain ⟨pre, last, rfl, hla, hp⟩ := lastSegment x
  have hid : withToken (pre ++ last ++ ascii "/unlock") 1 .deleteLock = .deleteLock last := by
    rcases hp with rfl | ⟨p, rfl⟩
    · have e : [] ++ last ++ ascii "/unlock" = last ++ 0x2f :: ascii "unlock" := by simp [ascii]
      rw [e]
      simp only [withToken, token, splitOn_glue, splitOn_plain _ _ hla, splitOn_plain 0x2f (ascii "unlock") (by decide)]
      rfl
    · have e : p ++ [0x2f] ++ last ++ ascii "/unlock" = p ++ 0x2f :: (last ++ 0x2f :: ascii "unlock") := by simp [ascii]
      rw [e]
      exact token_before _ _ _ (by decide) hla _
  rw [hid] at ht
  cases ht
  exact ⟨hm, hla, pre, rfl, hp⟩

/-- **C57** is false as stated: under a prefix ending in `/objects` the list of locks is not served, the request is taken for
the download of an object called `locks`. -/
theorem C57_objects_locks_false (pre : Bytes) (s : Option Bytes) :
    Spec.Endpoint .get ((pre ++ ascii "/objects") ++ ascii "/locks") s (· = .listLocks) ∧
      route .get ((pre ++ ascii "/objects") ++ ascii "/locks") s = .download (ascii "locks") := by
  refine ⟨.listLocks _ s, ?_⟩
  have hm := (matchObjects_iff _).2 ⟨pre, ascii "locks", ⟨by decide, by decide⟩, rfl⟩
  have e : pre ++ ascii "/objects/" ++ ascii "locks" = pre ++ ascii "/objects" ++ ascii "/locks" := by simp [ascii]
  rw [e] at hm
  simp only [route, if_neg (notRoot (pre := pre ++ ascii "/objects") (lit := ascii "/locks") (by decide)), getRoute, hm, if_true]
  exact token_last _ (ascii "locks") (by decide) _

/-- **C57** is false as stated: a path that is not an endpoint (there is no `locks` before the id) deletes a lock. -/
theorem C57_unlock_false : route .post (ascii "/repo/objects/5/unlock") none = .deleteLock (ascii "5") ∧
    ∀ P, Spec.Endpoint .post (ascii "/repo/objects/5/unlock") none P → ¬ P (.deleteLock (ascii "5")) := by
  refine ⟨by decide, ?_⟩
  generalize hp : ascii "/repo/objects/5/unlock" = path
  intro P h hP
  cases h with
  | deleteLock pre id s hi =>
    have : ascii "/locks/" <:+: ascii "/repo/objects/5/unlock" := ⟨pre, id ++ ascii "/unlock", by rw [hp]; simp⟩
    exact absurd this (by decide)
  | verifyLocks => cases hP
  | createLock => cases hP
  | batch => cases hP
  | uploadPack => obtain ⟨_, h⟩ := hP; cases h
  | receivePack => obtain ⟨_, h⟩ := hP; cases h

theorem withToken_ne (path : Bytes) (k : Nat) (f : Bytes → Route) (r : Route) (h : ∀ t, f t ≠ r) (hc : r ≠ .crash) :
    withToken path k f ≠ r := by
  simp only [withToken, token]
  cases (splitOn 0x2f path).reverse[k]? with
  | none => exact hc.symm
  | some t => exact h t

/-- **C57** is false as stated: no path but `/` is answered 404; a path that is no endpoint is answered 403. -/
theorem C57_404_false (m : Method) (path : Bytes) (s : Option Bytes) : route m path s = .notFound ↔ path = ascii "/" := by
  refine ⟨fun h => ?_, fun h => by simp only [route, if_pos h]⟩
  by_cases hr : path = ascii "/"
  · exact hr
  exfalso
  simp only [route, if_neg hr] at h
  cases m with
  | other => cases h
  | put =>
    simp only [putRoute] at h
    split at h
    · exact withToken_ne _ _ _ _ (fun _ e => by cases e) (by decide) h
    · cases h
  | get =>
    simp only [getRoute] at h
    split at h
    · exact withToken_ne _ _ _ _ (fun _ e => by cases e) (by decide) h
    · split at h
      · cases h
      · split at h
        · cases h
        · split at h
          · cases h
          · split at h
            · cases h
            · cases h
  | post =>
    simp only [postRoute] at h
    split at h
    · cases h
    · split at h
      · cases h
      · split at h
        · exact withToken_ne _ _ _ _ (fun _ e => by cases e) (by decide) h
        · split at h
          · cases h
          · split at h
            · cases h
            · split at h
              · cases h
              · cases h

/-- **C57** is false as stated: without the query parameter the discovery handler panics. -/
theorem C57_service_missing_false (pre : Bytes) : route .get (pre ++ ascii "/info/refs") none = .crash := by
  have h := C57_routed_partial (s := some ServiceType.uploadPack.display) (.infoRefs pre .uploadPack) (fun _ h => by
    rcases List.suffix_or_suffix_of_suffix h (List.suffix_append pre (ascii "/info/refs")) with h | h
    · exact absurd h (by decide)
    · exact absurd h (by decide))
  obtain ⟨repo, h⟩ := h
  have hr := notRoot (pre := pre) (lit := ascii "/info/refs") (by decide)
  simp only [route, if_neg hr, getRoute] at h ⊢
  split
  · rename_i hm
    rw [hm] at h
    exact absurd h (withToken_ne _ _ _ _ (fun _ e => by cases e) (by intro e; cases e))
  · simp only [endsWith_append, endsWith_false (pre := pre) (a := ascii "/locks") (b := ascii "/info/refs") (by decide),
      Bool.false_eq_true, Bool.not_true, if_false]

example : route .get (ascii "/org/app.git/info/refs") (some (ascii "git-upload-pack")) = .infoRefs (ascii "/org/app") .uploadPack ∧
    route .post (ascii "/org/app.git/git-receive-pack") none = .receivePack (ascii "/org/app") ∧
    route .get (ascii "/org/objects/0a1b") none = .download (ascii "0a1b") ∧
    route .put (ascii "/org/objects/0A1B") none = .forbidden ∧
    route .post (ascii "/org/locks/17/unlock") none = .deleteLock (ascii "17") := by decide

/-! ## C56 -/

/-- What the server does to the URL of a repository in a request that ends in `lit`. -/
theorem removeGitSuffix_append (u g lit : Bytes) (hg : g = [] ∨ g = ascii ".git") (h1 : NoStraddle (ascii ".git") lit)
    (h2 : NoStraddle lit lit) (h3 : ¬ ascii ".git" <:+: lit) (h4 : lit ≠ []) :
    removeGitSuffix (u ++ g ++ lit) lit = removeAll lit (removeAll (ascii ".git") u) := by
  have e : removeAll (ascii ".git") (u ++ g ++ lit) = removeAll (ascii ".git") u ++ lit := by
    rw [removeAll_append _ _ (by decide) h1 _ _ (Nat.le_refl _), removeAll_none _ _ h3]
    rcases hg with rfl | rfl
    · rw [List.append_nil]
    · rw [removeAll_append _ _ (by decide) (by decide) _ _ (Nat.le_refl _), removeAll_self _ (by decide), List.append_nil]
  unfold removeGitSuffix
  rw [e, removeAll_append _ _ h4 h2 _ _ (Nat.le_refl _), removeAll_self _ h4, List.append_nil]

/-- The repository path of each request, for every URL. -/
theorem repoOf_request {u g path : Bytes} {m : Method} {s : Option Bytes} (hg : g = [] ∨ g = ascii ".git")
    (h : Spec.GitRequest (u ++ g) m path s) : ∃ lit ∈ [ascii "/info/refs", ascii "/git-upload-pack", ascii "/git-receive-pack"],
      path = u ++ g ++ lit ∧ Spec.RepoOf (route m path s) = some (removeAll lit (removeAll (ascii ".git") u)) := by
  cases h with
  | discover t =>
    have hr := notRoot (pre := u ++ g) (lit := ascii "/info/refs") (by decide)
    obtain ⟨repo, h⟩ := C57_routed_partial (.infoRefs (u ++ g) t) (fun _ h => by
      rcases List.suffix_or_suffix_of_suffix h (List.suffix_append (u ++ g) (ascii "/info/refs")) with h | h
      · exact absurd h (by decide)
      · exact absurd h (by decide))
    refine ⟨_, .head _, rfl, ?_⟩
    have hm : matchObjects (u ++ g ++ ascii "/info/refs") = false := by
      rw [Bool.eq_false_iff]
      intro hm
      simp only [route, if_neg hr, getRoute, hm, if_true] at h
      exact withToken_ne _ _ _ _ (fun _ e => by cases e) (by intro e; cases e) h
    have ht : ServiceType.fromStr t.display = some t := by cases t <;> decide
    simp only [route, if_neg hr, getRoute, hm, endsWith_append, endsWith_false (pre := u ++ g) (a := ascii "/locks")
      (b := ascii "/info/refs") (by decide), Bool.false_eq_true, Bool.not_true, if_false, ht, Spec.RepoOf]
    exact congrArg some (removeGitSuffix_append u g _ hg (by decide) (by decide) (by decide) (by decide))
  | fetch =>
    refine ⟨_, .tail _ (.head _), rfl, ?_⟩
    simp only [route, if_neg (notRoot (pre := u ++ g) (lit := ascii "/git-upload-pack") (by decide)), postRoute, endsWith_append,
      endsWith_false (pre := u ++ g) (a := ascii "/locks/verify") (b := ascii "/git-upload-pack") (by decide),
      endsWith_false (pre := u ++ g) (a := ascii "/locks") (b := ascii "/git-upload-pack") (by decide),
      endsWith_false (pre := u ++ g) (a := ascii "/unlock") (b := ascii "/git-upload-pack") (by decide),
      endsWith_false (pre := u ++ g) (a := ascii "/objects/batch") (b := ascii "/git-upload-pack") (by decide),
      Bool.false_eq_true, if_true, if_false, Spec.RepoOf]
    exact congrArg some (removeGitSuffix_append u g _ hg (by decide) (by decide) (by decide) (by decide))
  | push =>
    refine ⟨_, .tail _ (.tail _ (.head _)), rfl, ?_⟩
    simp only [route, if_neg (notRoot (pre := u ++ g) (lit := ascii "/git-receive-pack") (by decide)), postRoute, endsWith_append,
      endsWith_false (pre := u ++ g) (a := ascii "/locks/verify") (b := ascii "/git-receive-pack") (by decide),
      endsWith_false (pre := u ++ g) (a := ascii "/locks") (b := ascii "/git-receive-pack") (by decide),
      endsWith_false (pre := u ++ g) (a := ascii "/unlock") (b := ascii "/git-receive-pack") (by decide),
      endsWith_false (pre := u ++ g) (a := ascii "/objects/batch") (b := ascii "/git-receive-pack") (by decide),
      endsWith_false (pre := u ++ g) (a := ascii "/git-upload-pack") (b := ascii "/git-receive-pack") (by decide),
      Bool.false_eq_true, if_true, if_false, Spec.RepoOf]
    exact congrArg some (removeGitSuffix_append u g _ hg (by decide) (by decide) (by decide) (by decide))

/-- **C56** (partial). For a URL without the texts the server cuts out, given with or without `.git`, discovery, fetch and
push all use exactly that URL path as the repository. -/
theorem C56_http_partial {u g path : Bytes} {m : Method} {s : Option Bytes} (hu : Spec.CleanUrl u) (hg : g = [] ∨ g = ascii ".git")
    (h : Spec.GitRequest (u ++ g) m path s) : Spec.RepoOf (route m path s) = some u := by
  obtain ⟨lit, hl, _, h⟩ := repoOf_request hg h
  rw [h, removeAll_none _ _ hu.git]
  simp only [List.mem_cons, List.not_mem_nil, or_false] at hl
  rcases hl with rfl | rfl | rfl
  · rw [removeAll_none _ _ hu.refs]
  · rw [removeAll_none _ _ hu.upload]
  · rw [removeAll_none _ _ hu.receive]

/-- **C56** (partial). Hence requests for two different such URLs never use the same repository. -/
theorem C56_http_distinct_partial {u u' g g' path path' : Bytes} {m m' : Method} {s s' : Option Bytes} (hu : Spec.CleanUrl u)
    (hu' : Spec.CleanUrl u') (hg : g = [] ∨ g = ascii ".git") (hg' : g' = [] ∨ g' = ascii ".git")
    (h : Spec.GitRequest (u ++ g) m path s) (h' : Spec.GitRequest (u' ++ g') m' path' s') (hne : u ≠ u') :
    Spec.RepoOf (route m path s) ≠ Spec.RepoOf (route m' path' s') := by
  rw [C56_http_partial hu hg h, C56_http_partial hu' hg' h']
  exact fun e => hne (Option.some.inj e)

/-- **C56** is false as stated: `.git` is cut out anywhere, so for every such URL and every place in it there is a different
URL for the same repository. -/
theorem C56_http_false {p q : Bytes} (hu : Spec.CleanUrl (p ++ q)) : p ++ ascii ".git" ++ q ≠ p ++ q ∧
      Spec.RepoOf (route .post (p ++ ascii ".git" ++ q ++ ascii "/git-receive-pack") none) = some (p ++ q) ∧
      Spec.RepoOf (route .post (p ++ q ++ ascii "/git-receive-pack") none) = some (p ++ q) := by
  refine ⟨fun e => ?_, ?_, ?_⟩
  · have := congrArg List.length e
    simp only [List.length_append] at this
    have h4 : (ascii ".git").length = 4 := rfl
    omega
  · obtain ⟨lit, hl, he, h⟩ := repoOf_request (u := p ++ ascii ".git" ++ q) (g := []) (.inl rfl) (.push none)
    rw [List.append_nil] at h he
    rw [h]
    have hlit : lit = ascii "/git-receive-pack" := (List.append_cancel_left he).symm
    subst hlit
    have hgp : ¬ ascii ".git" <:+: p := fun h => hu.git (h.trans (List.prefix_append p q).isInfix)
    have hgq : ¬ ascii ".git" <:+: q := fun h => hu.git (h.trans (List.suffix_append p q).isInfix)
    have e1 : removeAll (ascii ".git") (p ++ ascii ".git" ++ q) = p ++ q := by
      have hs : NoStraddle (ascii ".git") (ascii ".git" ++ q) := by
        intro k hk h0 hpre
        have hk : k < 4 := hk
        have hc : k = 1 ∨ k = 2 ∨ k = 3 := by omega
        rcases hc with rfl | rfl | rfl <;> (obtain ⟨t, ht⟩ := hpre; simp [ascii] at ht)
      rw [List.append_assoc, removeAll_append _ _ (by decide) hs _ _ (Nat.le_refl _), removeAll_none _ _ hgp]
      congr 1
      show removeGo _ 0 _ = _
      rw [removeGo_match _ _ (by decide)]
      exact removeAll_none _ _ hgq
    rw [e1, removeAll_none _ _ hu.receive]
  · have := C56_http_partial (g := []) hu (.inl rfl) (.push none)
    rwa [List.append_nil] at this

/-- **C56** is false as stated: for a URL containing `/info/refs`, discovery and push use different repositories. -/
theorem C56_discovery_false : Spec.RepoOf (route .get (ascii "/x/info/refs/y/info/refs") (some (ascii "git-receive-pack"))) =
      some (ascii "/x/y") ∧
    Spec.RepoOf (route .post (ascii "/x/info/refs/y/git-receive-pack") none) = some (ascii "/x/info/refs/y") := by decide

/-- Two different URLs, neither with `.git` at the end, for one repository. -/
example : Spec.RepoOf (route .post (ascii "/a.github/git-receive-pack") none) = some (ascii "/ahub") ∧
    Spec.RepoOf (route .post (ascii "/ahub/git-receive-pack") none) = some (ascii "/ahub") := by decide

theorem app_clean : Spec.CleanUrl (ascii "/org1/apps/App2") := ⟨by decide, by decide, by decide, by decide⟩

example : Spec.RepoOf (route .get (ascii "/org1/apps/App2.git/info/refs") (some (ascii "git-receive-pack"))) =
    some (ascii "/org1/apps/App2") :=
  C56_http_partial app_clean (.inr rfl) (.discover .receivePack)

/-- The words of a command line whose repository path has no spaces. -/
theorem sshLine_words (t : ServiceType) (path : Bytes) (h : (0x20 : UInt8) ∉ path) :
    splitOn 0x20 (Spec.sshLine t path) = [t.display, ascii "'" ++ path ++ ascii "'"] := by
  have e : Spec.sshLine t path = t.display ++ 0x20 :: (ascii "'" ++ path ++ ascii "'") := by simp [Spec.sshLine, ascii]
  have ht : (0x20 : UInt8) ∉ t.display := by cases t <;> decide
  have hp : (0x20 : UInt8) ∉ ascii "'" ++ path ++ ascii "'" := by simp [h, ascii]
  rw [e, splitOn_append _ _ _ ht, splitOn_plain _ _ hp]

theorem fromStr_display (t : ServiceType) : ServiceType.fromStr t.display = some t := by cases t <;> decide

/-- What the SSH server makes of the repository path `/q` followed by at least four more bytes: it drops the slash and the
last four bytes. -/
theorem ssh_cut (t : ServiceType) (q x : Bytes) (hx : x.length = 4) (hq : (0x20 : UInt8) ∉ q) (hs : (0x20 : UInt8) ∉ x)
    (hb : isBoundary (q ++ x) 0 = true) (hb' : isBoundary x 0 = true) :
    sshCommand (Spec.sshLine t (0x2f :: (q ++ x))) = .ok (q, t) := by
  have hp : (0x20 : UInt8) ∉ 0x2f :: (q ++ x) := by simp [hq, hs]
  have hlen : (ascii "'" ++ 0x2f :: (q ++ x) ++ ascii "'").length = q.length + 7 := by
    simp [ascii, hx]
  have h5 : (ascii ".git'").length = 5 := rfl
  have hslice : strSlice (ascii "'" ++ 0x2f :: (q ++ x) ++ ascii "'") 2 (q.length + 2) = .ok q := by
    have e : ascii "'" ++ 0x2f :: (q ++ x) ++ ascii "'" = 0x27 :: 0x2f :: (q ++ (x ++ [0x27])) := by simp [ascii]
    rw [e]
    have c1 : isBoundary (0x27 :: 0x2f :: (q ++ (x ++ [0x27]))) 2 = true := by
      rw [← hb]
      simp only [isBoundary, List.getElem?_cons_succ]
      cases q with
      | cons c q => rfl
      | nil =>
        cases x with
        | nil => cases hx
        | cons c x => rfl
    have c2 : isBoundary (0x27 :: 0x2f :: (q ++ (x ++ [0x27]))) (q.length + 2) = true := by
      rw [← hb']
      simp only [isBoundary, List.getElem?_cons_succ, List.getElem?_append_right (Nat.le_refl _), Nat.sub_self]
      cases x with
      | nil => cases hx
      | cons c x => rfl
    simp only [strSlice]
    rw [if_pos ⟨by omega, by simp, c1, c2⟩]
    simp
  simp only [sshCommand, sshLine_words _ _ hp, List.getElem?_cons_succ, List.getElem?_cons_zero, Res.unwrapOpt, fromStr_display,
    Res.bind_ok, hlen, h5, show q.length + 7 - 5 = q.length + 2 by omega, if_neg (show ¬ q.length + 7 < 5 by omega)]
  rw [hslice]
  rfl

/-- **C56** (partial). Over SSH the path `/q.git` (no spaces, valid text) is the repository `q`, for both services. -/
theorem C56_ssh_partial (t : ServiceType) (q : Bytes) (hq : (0x20 : UInt8) ∉ q) (hb : isBoundary q 0 = true) :
    sshCommand (Spec.sshLine t (0x2f :: (q ++ ascii ".git"))) = .ok (q, t) := by
  refine ssh_cut t q _ rfl hq (by decide) ?_ (by decide)
  cases q with
  | nil => decide
  | cons c q => exact hb

/-- **C56** is false as stated: the repository reached over HTTP and over SSH by the same path is never the same one, the
leading slash is dropped only over SSH. -/
theorem C56_ssh_http_false (t : ServiceType) (q path : Bytes) (m : Method) (s : Option Bytes) (hu : Spec.CleanUrl (0x2f :: q))
    (hq : (0x20 : UInt8) ∉ q) (hb : isBoundary q 0 = true) (h : Spec.GitRequest (0x2f :: q ++ ascii ".git") m path s) :
    ∃ a b, sshCommand (Spec.sshLine t (0x2f :: (q ++ ascii ".git"))) = .ok (a, t) ∧
      Spec.RepoOf (route m path s) = some b ∧ a ≠ b := by
  refine ⟨q, 0x2f :: q, C56_ssh_partial t q hq hb, C56_http_partial hu (.inr rfl) h, fun e => ?_⟩
  have := congrArg List.length e
  simp at this

/-- **C56** is false as stated: over SSH the last four bytes are cut off whatever they are, so repositories whose paths differ
only there (or have no `.git`) are the same repository. -/
theorem C56_ssh_suffix_false (t : ServiceType) (q x y : Bytes) (hx : x.length = 4) (hy : y.length = 4) (hq : (0x20 : UInt8) ∉ q)
    (hsx : (0x20 : UInt8) ∉ x) (hsy : (0x20 : UInt8) ∉ y) (hbx : ∀ b ∈ q ++ x, b < 0x80) (hby : ∀ b ∈ q ++ y, b < 0x80) :
    sshCommand (Spec.sshLine t (0x2f :: (q ++ x))) = .ok (q, t) ∧ sshCommand (Spec.sshLine t (0x2f :: (q ++ y))) = .ok (q, t) := by
  have key : ∀ s : Bytes, (∀ b ∈ s, b < 0x80) → isBoundary s 0 = true := by
    intro s hs
    cases s with
    | nil => rfl
    | cons c s => simp [isBoundary, hs c (.head _)]
  exact ⟨ssh_cut t q x hx hq hsx (key _ hbx) (key _ fun b hb => hbx b (List.mem_append_right _ hb)),
    ssh_cut t q y hy hq hsy (key _ hby) (key _ fun b hb => hby b (List.mem_append_right _ hb))⟩

/-- **C56** is false as stated: over SSH everything behind the first space of a path is ignored. -/
theorem C56_ssh_space_false (t : ServiceType) (a b b' : Bytes) (ha : (0x20 : UInt8) ∉ a) :
    sshCommand (Spec.sshLine t (a ++ ascii " " ++ b)) = sshCommand (Spec.sshLine t (a ++ ascii " " ++ b')) := by
  have ht : (0x20 : UInt8) ∉ t.display := by cases t <;> decide
  have hp : (0x20 : UInt8) ∉ ascii "'" ++ a := by simp [ha, ascii]
  have key : ∀ b, ∃ rest, splitOn 0x20 (Spec.sshLine t (a ++ ascii " " ++ b)) = t.display :: (ascii "'" ++ a) :: rest := by
    intro b
    have e : Spec.sshLine t (a ++ ascii " " ++ b) = t.display ++ 0x20 :: ((ascii "'" ++ a) ++ 0x20 :: (b ++ ascii "'")) := by
      simp [Spec.sshLine, ascii]
    exact ⟨_, by rw [e, splitOn_append _ _ _ ht, splitOn_append _ _ _ hp]⟩
  obtain ⟨r, hr⟩ := key b
  obtain ⟨r', hr'⟩ := key b'
  simp only [sshCommand, hr, hr', List.getElem?_cons_succ, List.getElem?_cons_zero]

/-- **C56** is false as stated: a path of at most four bytes (with its slash) crashes the SSH session. -/
theorem C56_ssh_short_false (t : ServiceType) (path : Bytes) (hp : (0x20 : UInt8) ∉ path) (hl : path.length < 5) :
    sshCommand (Spec.sshLine t path) = .panic := by
  have hlen : (ascii "'" ++ path ++ ascii "'").length = path.length + 2 := by
    simp [ascii]
  have h5 : (ascii ".git'").length = 5 := rfl
  simp only [sshCommand, sshLine_words _ _ hp, List.getElem?_cons_succ, List.getElem?_cons_zero, Res.unwrapOpt, Res.bind_ok, hlen, h5]
  by_cases h : path.length + 2 < 5
  · rw [if_pos h]
  · rw [if_neg h]
    have : strSlice (ascii "'" ++ path ++ ascii "'") 2 (path.length + 2 - 5) = .panic := by
      simp only [strSlice]
      rw [if_neg (fun e => by omega)]
    rw [this]
    rfl

example : sshCommand (ascii "git-receive-pack '/org1/apps/App2.git'") = .ok (ascii "org1/apps/App2", .receivePack) ∧
    sshCommand (ascii "git-upload-pack '/work/app-1234'") = .ok (ascii "work/app-", .uploadPack) ∧
    sshCommand (ascii "git-upload-pack '/work/app-5678'") = .ok (ascii "work/app-", .uploadPack) ∧
    sshCommand (ascii "git-upload-pack '/app'") = .panic := by decide

end Gust

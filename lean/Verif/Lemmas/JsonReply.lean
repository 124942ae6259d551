import Verif.Lemmas.JsonOut

/-! # The bodies of the replies of the LFS API are JSON texts of what they show -/

namespace Gust

/-- A lock whose strings are strings. -/
structure Lock.Clean (l : Lock) : Prop where
  id : utf8Valid l.id = true
  path : utf8Valid l.path = true
  time : utf8Valid l.lockedAt = true
  owner : ∀ n, l.owner = some n → utf8Valid n = true

/-- Every value the text stands for, with what it shows. -/
def TextShows (t : Bytes) (p : Json → Prop) : Prop := ∃ v, Spec.JsonText (.value v) t ∧ p v

theorem shows_text {c : Bytes} (h : utf8Valid c = true) : TextShows (jsonText c) (fun v => Spec.IsText v c) := ⟨_, text_text c h, text_is c h⟩

theorem jsonLock_obj (l : Lock) : jsonLock l = jsonObj [(ascii "id", jsonText l.id), (ascii "path", jsonText l.path), (ascii "locked_at", jsonText l.lockedAt),
    (ascii "owner", match l.owner with
      | none => ascii "null"
      | some n => jsonObj [(ascii "name", jsonText n)])] := by
  have e1 : jsonText (ascii "id") ++ ascii ":" = ascii "\"id\":" := by decide +kernel
  have e2 : ascii "," ++ (jsonText (ascii "path") ++ ascii ":") = ascii ",\"path\":" := by decide +kernel
  have e3 : ascii "," ++ (jsonText (ascii "locked_at") ++ ascii ":") = ascii ",\"locked_at\":" := by decide +kernel
  have e4 : ascii "," ++ (jsonText (ascii "owner") ++ ascii ":") = ascii ",\"owner\":" := by decide +kernel
  have e5 : ascii "{" ++ (jsonText (ascii "name") ++ ascii ":") = ascii "{\"name\":" := by decide +kernel
  have e0 : ascii "{" ++ ascii "\"id\":" = ascii "{\"id\":" := by decide +kernel
  rw [jsonLock]
  simp only [jsonObj, List.map_cons, List.map_nil, intercalate_cons2, List.intercalate_singleton, ← e0, ← e1, ← e2, ← e3, ← e4, ← e5]
  cases l.owner <;> simp only [List.append_assoc]

theorem shows_lock {l : Lock} (h : l.Clean) : TextShows (jsonLock l) (fun v => Spec.ShowsLock v l) := by
  have hg : GoodKeys [ascii "id", ascii "path", ascii "locked_at", ascii "owner"] := by unfold GoodKeys; decide +kernel
  have hu : GoodKeys [ascii "name"] := by unfold GoodKeys; decide +kernel
  have key : ∀ (t : Bytes) (o : Json), Spec.JsonText (.value o) t → (match l.owner with
      | none => o = .null
      | some n => Spec.IsRef o n) →
      TextShows (jsonObj [(ascii "id", jsonText l.id), (ascii "path", jsonText l.path), (ascii "locked_at", jsonText l.lockedAt), (ascii "owner", t)]) (fun v => Spec.ShowsLock v l) := by
    intro t o ht ho
    refine ⟨_, obj_at [(ascii "id", jsonText l.id, .str (rawText l.id)), (ascii "path", jsonText l.path, .str (rawText l.path)), (ascii "locked_at", jsonText l.lockedAt, .str (rawText l.lockedAt)),
      (ascii "owner", t, o)] hg ?_, ?_⟩
    · intro m hm
      simp only [List.mem_cons, List.not_mem_nil, or_false] at hm
      rcases hm with rfl | rfl | rfl | rfl
      exacts [text_text _ h.id, text_text _ h.path, text_text _ h.time, ht]
    · refine ⟨_, _, _, _, rfl, names_at hg, says_at hg 0 rfl, text_is _ h.id, says_at hg 1 rfl, text_is _ h.path, says_at hg 2 rfl, text_is _ h.time, ?_⟩
      cases e : l.owner with
      | none =>
        rw [e] at ho
        subst ho
        exact .inr (says_at hg 3 rfl)
      | some n =>
        rw [e] at ho
        exact ⟨o, says_at hg 3 rfl, ho⟩
  rw [jsonLock_obj]
  cases e : l.owner with
  | none => exact key _ .null .null (by rw [e])
  | some n =>
    have hn := h.owner n e
    refine key _ (.obj (rawMembers [(ascii "name", .str (rawText n))])) (obj_at [(ascii "name", jsonText n, .str (rawText n))] hu ?_) ?_
    · intro m hm
      simp only [List.mem_cons, List.not_mem_nil, or_false] at hm
      subst hm
      exact text_text _ hn
    · rw [e]
      exact ⟨_, _, rfl, names_at hu, says_at hu 0 rfl, text_is _ hn⟩

/-- A list of values. -/
theorem shows_arr {α : Type} (f : α → Bytes) (p : Json → α → Prop) (l : List α) (h : ∀ a ∈ l, TextShows (f a) (fun v => p v a)) :
    TextShows (jsonArr (l.map f)) (fun v => ∃ vs, v = .arr vs ∧ List.Forall₂ p vs l) := by
  have : ∃ vs : List Json, List.Forall₂ (fun v a => Spec.JsonText (.value v) (f a) ∧ p v a) vs l := by
    induction l with
    | nil => exact ⟨[], .nil⟩
    | cons a l ih =>
      obtain ⟨v, hv⟩ := h a (by simp)
      obtain ⟨vs, hvs⟩ := ih (fun x hx => h x (by simp [hx]))
      exact ⟨v :: vs, .cons hv hvs⟩
  obtain ⟨vs, hvs⟩ := this
  have e : ∃ ms : List (Bytes × Json), ms.map Prod.fst = l.map f ∧ ms.map Prod.snd = vs ∧ ∀ m ∈ ms, Spec.JsonText (.value m.2) m.1 := by
    clear h
    induction hvs with
    | nil => exact ⟨[], rfl, rfl, by simp⟩
    | cons hx _ ih =>
      rename_i v a vs l _
      obtain ⟨ms, h1, h2, h3⟩ := ih
      refine ⟨(f a, v) :: ms, by simp [h1], by simp [h2], fun m hm => ?_⟩
      rcases List.mem_cons.1 hm with rfl | hm
      exacts [hx.1, h3 m hm]
  obtain ⟨ms, h1, h2, h3⟩ := e
  exact ⟨.arr vs, h1 ▸ h2 ▸ arr_text ms h3, vs, rfl, hvs.imp (fun _ _ h => h.2)⟩

theorem shows_locks {ls : List Lock} (h : ∀ l ∈ ls, l.Clean) : TextShows (jsonLocks ls) (fun v => Spec.ShowsLocks v ls) :=
  shows_arr jsonLock Spec.ShowsLock ls (fun l hl => shows_lock (h l hl))

theorem shows_link {expires href : Bytes} (he : utf8Valid expires = true) (hh : utf8Valid href = true) :
    TextShows (jsonLink expires href) (fun v => Spec.ShowsLink v href expires) := by
  have hg : GoodKeys [ascii "href", ascii "header", ascii "expires_at"] := by unfold GoodKeys; decide +kernel
  have hu : GoodKeys [ascii "Accept"] := by unfold GoodKeys; decide +kernel
  have ha : utf8Valid (ascii "application/vnd.git-lfs") = true := by decide +kernel
  refine ⟨_, obj_at [(ascii "href", jsonText href, .str (rawText href)),
    (ascii "header", jsonObj [(ascii "Accept", jsonText (ascii "application/vnd.git-lfs"))], .obj (rawMembers [(ascii "Accept", .str (rawText (ascii "application/vnd.git-lfs")))])),
    (ascii "expires_at", jsonText expires, .str (rawText expires))] hg ?_, ?_⟩
  · intro m hm
    simp only [List.mem_cons, List.not_mem_nil, or_false] at hm
    rcases hm with rfl | rfl | rfl
    · exact text_text _ hh
    · refine obj_at [(ascii "Accept", jsonText (ascii "application/vnd.git-lfs"), .str (rawText (ascii "application/vnd.git-lfs")))] hu ?_
      intro m hm
      simp only [List.mem_cons, List.not_mem_nil, or_false] at hm
      subst hm
      exact text_text _ ha
    · exact text_text _ he
  · exact ⟨_, _, _, rfl, names_at hg, says_at hg 0 rfl, text_is _ hh, says_at hg 2 rfl, text_is _ he⟩

/-- An entry of a batch reply that can be written. -/
structure Rep.Clean (r : Rep) : Prop where
  oid : utf8Valid r.oid = true
  size : -2 ^ 63 ≤ r.size ∧ r.size < 2 ^ 63
  offer : match r.offer with
    | .download href => utf8Valid href = true
    | .upload href => utf8Valid href = true
    | .error code => code < 2 ^ 63

theorem shows_rep {expires : Bytes} {r : Rep} (he : utf8Valid expires = true) (h : r.Clean) : TextShows (jsonRep expires r) (fun v => Spec.ShowsRep expires v r) := by
  obtain ⟨oid, size, offer⟩ := r
  obtain ⟨h1, h2, h3⟩ := h
  have hi := int_text size h2
  cases offer with
  | download href =>
    obtain ⟨k, hk, hs⟩ := shows_link he h3
    have hg : GoodKeys [ascii "oid", ascii "size", ascii "authenticated", ascii "actions"] := by unfold GoodKeys; decide +kernel
    have hu : GoodKeys [ascii "download"] := by unfold GoodKeys; decide +kernel
    refine ⟨_, obj_at [(ascii "oid", jsonText oid, .str (rawText oid)), (ascii "size", jsonInt size, .num (jsonInt size)), (ascii "authenticated", ascii "true", .bool true),
      (ascii "actions", jsonObj [(ascii "download", jsonLink expires href)], .obj (rawMembers [(ascii "download", k)]))] hg ?_, ?_⟩
    · intro m hm
      simp only [List.mem_cons, List.not_mem_nil, or_false] at hm
      rcases hm with rfl | rfl | rfl | rfl
      · exact text_text _ h1
      · exact hi.1
      · exact .true
      · refine obj_at [(ascii "download", jsonLink expires href, k)] hu ?_
        intro m hm
        simp only [List.mem_cons, List.not_mem_nil, or_false] at hm
        subst hm
        exact hk
    · exact ⟨_, _, _, rfl, names_at hg, says_at hg 0 rfl, text_is _ h1, says_at hg 1 rfl, hi.2, lacks_at hg (by decide +kernel), _, _, says_at hg 3 rfl,
        names_at hu, says_at hu 0 rfl, hs, lacks_at hu (by decide +kernel)⟩
  | upload href =>
    obtain ⟨k, hk, hs⟩ := shows_link he h3
    have hg : GoodKeys [ascii "oid", ascii "size", ascii "authenticated", ascii "actions"] := by unfold GoodKeys; decide +kernel
    have hu : GoodKeys [ascii "upload"] := by unfold GoodKeys; decide +kernel
    refine ⟨_, obj_at [(ascii "oid", jsonText oid, .str (rawText oid)), (ascii "size", jsonInt size, .num (jsonInt size)), (ascii "authenticated", ascii "true", .bool true),
      (ascii "actions", jsonObj [(ascii "upload", jsonLink expires href)], .obj (rawMembers [(ascii "upload", k)]))] hg ?_, ?_⟩
    · intro m hm
      simp only [List.mem_cons, List.not_mem_nil, or_false] at hm
      rcases hm with rfl | rfl | rfl | rfl
      · exact text_text _ h1
      · exact hi.1
      · exact .true
      · refine obj_at [(ascii "upload", jsonLink expires href, k)] hu ?_
        intro m hm
        simp only [List.mem_cons, List.not_mem_nil, or_false] at hm
        subst hm
        exact hk
    · exact ⟨_, _, _, rfl, names_at hg, says_at hg 0 rfl, text_is _ h1, says_at hg 1 rfl, hi.2, lacks_at hg (by decide +kernel), _, _, says_at hg 3 rfl,
        names_at hu, says_at hu 0 rfl, hs, lacks_at hu (by decide +kernel)⟩
  | error code =>
    have hc := int_text code ⟨by omega, by simp only at h3; omega⟩
    have hg : GoodKeys [ascii "oid", ascii "size", ascii "error"] := by unfold GoodKeys; decide +kernel
    have hu : GoodKeys [ascii "code", ascii "message"] := by unfold GoodKeys; decide +kernel
    have hm : utf8Valid (ascii "Not found") = true := by decide +kernel
    refine ⟨_, obj_at [(ascii "oid", jsonText oid, .str (rawText oid)), (ascii "size", jsonInt size, .num (jsonInt size)),
      (ascii "error", jsonObj [(ascii "code", jsonInt code), (ascii "message", jsonText (ascii "Not found"))],
        .obj (rawMembers [(ascii "code", .num (jsonInt code)), (ascii "message", .str (rawText (ascii "Not found")))]))] hg ?_, ?_⟩
    · intro m hm'
      simp only [List.mem_cons, List.not_mem_nil, or_false] at hm'
      rcases hm' with rfl | rfl | rfl
      · exact text_text _ h1
      · exact hi.1
      · refine obj_at [(ascii "code", jsonInt code, .num (jsonInt code)), (ascii "message", jsonText (ascii "Not found"), .str (rawText (ascii "Not found")))] hu ?_
        intro m hm'
        simp only [List.mem_cons, List.not_mem_nil, or_false] at hm'
        rcases hm' with rfl | rfl
        exacts [hc.1, text_text _ hm]
    · exact ⟨_, _, _, rfl, names_at hg, says_at hg 0 rfl, text_is _ h1, says_at hg 1 rfl, hi.2, lacks_at hg (by decide +kernel), _, _, _,
        says_at hg 2 rfl, names_at hu, says_at hu 0 rfl, hc.2, says_at hu 1 rfl, _, text_is _ hm⟩

/-- A reply that can be written. -/
def Payload.Clean : Payload → Prop
  | .bytes _ => False
  | .lock l => l.Clean
  | .locks ls next => (∀ l ∈ ls, l.Clean) ∧ utf8Valid next = true
  | .verified v => (∀ l ∈ v.ours, l.Clean) ∧ (∀ l ∈ v.theirs, l.Clean) ∧ utf8Valid v.next = true
  | .objects rs => ∀ r ∈ rs, r.Clean

theorem shows_reply {expires : Bytes} (he : utf8Valid expires = true) {p : Payload} (h : p.Clean) : TextShows (replyText expires p) (fun v => Spec.ShowsReply expires v p) := by
  cases p with
  | bytes b => exact h.elim
  | lock l =>
    obtain ⟨k, hk, hs⟩ := shows_lock (l := l) h
    have hg : GoodKeys [ascii "lock", ascii "message"] := by unfold GoodKeys; decide +kernel
    refine ⟨_, obj_at [(ascii "lock", jsonLock l, k), (ascii "message", jsonText [], .str (rawText []))] hg ?_, ?_⟩
    · intro m hm
      simp only [List.mem_cons, List.not_mem_nil, or_false] at hm
      rcases hm with rfl | rfl
      exacts [hk, text_text _ rfl]
    · exact ⟨_, _, rfl, names_at hg, says_at hg 0 rfl, hs⟩
  | locks ls next =>
    obtain ⟨h1, h2⟩ := h
    obtain ⟨k, hk, hs⟩ := shows_locks h1
    have hg : GoodKeys [ascii "locks", ascii "next_cursor"] := by unfold GoodKeys; decide +kernel
    refine ⟨_, obj_at [(ascii "locks", jsonLocks ls, k), (ascii "next_cursor", jsonText next, .str (rawText next))] hg ?_, ?_⟩
    · intro m hm
      simp only [List.mem_cons, List.not_mem_nil, or_false] at hm
      rcases hm with rfl | rfl
      exacts [hk, text_text _ h2]
    · exact ⟨_, _, _, rfl, names_at hg, says_at hg 0 rfl, hs, says_at hg 1 rfl, text_is _ h2⟩
  | verified v =>
    obtain ⟨h1, h2, h3⟩ := h
    obtain ⟨k, hk, hs⟩ := shows_locks h1
    obtain ⟨k', hk', hs'⟩ := shows_locks h2
    have hg : GoodKeys [ascii "ours", ascii "theirs", ascii "next_cursor"] := by unfold GoodKeys; decide +kernel
    refine ⟨_, obj_at [(ascii "ours", jsonLocks v.ours, k), (ascii "theirs", jsonLocks v.theirs, k'), (ascii "next_cursor", jsonText v.next, .str (rawText v.next))] hg ?_, ?_⟩
    · intro m hm
      simp only [List.mem_cons, List.not_mem_nil, or_false] at hm
      rcases hm with rfl | rfl | rfl
      exacts [hk, hk', text_text _ h3]
    · exact ⟨_, _, _, _, rfl, names_at hg, says_at hg 0 rfl, hs, says_at hg 1 rfl, hs', says_at hg 2 rfl, text_is _ h3⟩
  | objects rs =>
    obtain ⟨k, hk, vs, rfl, hs⟩ := shows_arr (jsonRep expires) (Spec.ShowsRep expires) rs (fun r hr => shows_rep he (h r hr))
    have hg : GoodKeys [ascii "transfer", ascii "objects", ascii "hash_algo"] := by unfold GoodKeys; decide +kernel
    have hb : utf8Valid (ascii "basic") = true := by decide +kernel
    have hh : utf8Valid (ascii "sha256") = true := by decide +kernel
    refine ⟨_, obj_at [(ascii "transfer", jsonText (ascii "basic"), .str (rawText (ascii "basic"))), (ascii "objects", jsonArr (rs.map (jsonRep expires)), .arr vs),
      (ascii "hash_algo", jsonText (ascii "sha256"), .str (rawText (ascii "sha256")))] hg ?_, ?_⟩
    · intro m hm
      simp only [List.mem_cons, List.not_mem_nil, or_false] at hm
      rcases hm with rfl | rfl | rfl
      exacts [text_text _ hb, hk, text_text _ hh]
    · exact ⟨_, _, _, rfl, names_at hg, says_at hg 0 rfl, text_is _ hb, says_at hg 1 rfl, hs⟩

/-! ## Reading stored locks -/

theorem lock_reads {v : Json} {l : Lock} (hw : v.Written) (h : Spec.ShowsLock v l) : v.lock = some l := by
  obtain ⟨ms, i, p, t, rfl, hn, h1, h2, h3, h4, h5, h6, h7⟩ := h
  obtain ⟨l', hf, hl⟩ := names_fields hw hn 4
  have ho : Fields.opt (Fields.named l') 3 (ascii "owner") Json.user = some l.owner := by
    refine (opt_iff hl 3 _ Json.user rfl l.owner).2 ?_
    cases e : l.owner with
    | none => rw [e] at h7; exact h7
    | some n =>
      rw [e] at h7
      obtain ⟨w, hs, lr, x, rfl, hn', hx, ht⟩ := h7
      have hw' := says_written hw hs
      refine ⟨_, hs, ?_⟩
      obtain ⟨lr', hf', hl'⟩ := names_fields hw' hn' 1
      rw [Json.user, hf']
      simp only [Option.bind_eq_bind, Option.bind_some]
      exact (need_iff hl' _ _ _ _).2 ⟨x, hx, (text_iff (says_written hw' hx) n).2 ht⟩
  rw [Json.lock, hf]
  simp only [Option.bind_eq_bind, Option.bind_some, (need_iff hl 0 _ _ l.id).2 ⟨i, h1, (text_iff (says_written hw h1) _).2 h2⟩,
    (need_iff hl 1 _ _ l.path).2 ⟨p, h3, (text_iff (says_written hw h3) _).2 h4⟩, (need_iff hl 2 _ _ l.lockedAt).2 ⟨t, h5, (text_iff (says_written hw h5) _).2 h6⟩, ho]
  rfl

/-- Locks are read as they were written. -/
theorem readLocks_jsonLocks (ls : List Lock) (h : ∀ l ∈ ls, l.Clean) : readLocks (jsonLocks ls) = some ls := by
  obtain ⟨v, hv, vs, rfl, hs⟩ := shows_locks h
  have hd : Spec.JsonDoc (.arr vs) (jsonLocks ls) := ⟨[], _, [], ws_nil, hv, ws_nil, by simp⟩
  rw [readLocks, (parseJson_iff _ _).2 hd, Option.bind_some, Json.vec]
  have hw := arr_written (doc_written hd)
  clear hd hv h
  induction hs with
  | nil => rfl
  | cons hx _ ih =>
    rename_i v a vs l _
    rw [List.mapM_cons, lock_reads (hw v (by simp)) hx]
    simp only [Option.bind_eq_bind, Option.bind_some, ih (fun x hx => hw x (by simp [hx]))]
    rfl

end Gust

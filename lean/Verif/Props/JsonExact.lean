import Verif.Props.JsonRead

/-! # C131: nothing but the requests of the API is answered

`C131_layout_partial` says that whatever way a request is written, it is answered alike. Here: what is not one of the requests is not taken for one. -/

namespace Gust

/-- An array in the place of an object. `serde` takes the members of such an array by their position, which no client relies on. -/
def Spec.ByPosition (l : List (Bytes × Json)) : Prop :=
  (∃ a, Spec.Says l (ascii "ref") (.arr a)) ∨ ∃ vs a, Spec.Says l (ascii "objects") (.arr vs) ∧ Json.arr a ∈ vs

theorem ref_back {l : List (Bytes × Json)} {w : Json} {ref : Bytes} (hw : (Json.obj l).Written) (hp : ¬ Spec.ByPosition l) (hs : Spec.Says l (ascii "ref") w)
    (h : w.ref = some ref) : Spec.IsRef w ref := by
  cases w with
  | obj lr => exact (ref_iff (says_written hw hs) ref).1 h
  | arr a => exact absurd (.inl ⟨a, hs⟩) hp
  | _ => cases h

theorem unlock_back {s : Bytes} {l : List (Bytes × Json)} (hd : Spec.JsonDoc (.obj l) s) (hp : ¬ Spec.ByPosition l) {ref : Bytes} {force : Option Bool}
    (h : serdeJson.unlock s = some (ref, force)) : Spec.UnlockBody s ref force := by
  have hw := doc_written hd
  change (parseJson s).bind Json.unlockRequest = _ at h
  rw [(parseJson_iff s _).2 hd, Option.bind_some, Json.unlockRequest] at h
  simp only [Option.bind_eq_bind, Option.bind_eq_some_iff] at h
  obtain ⟨f, hf, o, ho, r, hr, e⟩ := h
  cases e
  obtain ⟨hn, l', rfl, hl⟩ := (fields_names hw 2 f).1 hf
  obtain ⟨w, hw', hr'⟩ := (need_iff hl _ _ _ _).1 hr
  exact ⟨l, w, hd, hn, maySay_map (fun v a _ e => (flag_iff v a).1 e) ((opt_iff hl 0 _ Json.flag rfl force).1 ho), hw', ref_back hw hp hw' hr'⟩

theorem verify_back {s : Bytes} {l : List (Bytes × Json)} (hd : Spec.JsonDoc (.obj l) s) (hp : ¬ Spec.ByPosition l) {ref : Bytes} {cursor : Option Bytes} {limit : Option Int}
    (h : serdeJson.verify s = some (ref, cursor, limit)) : Spec.VerifyBody s ref cursor limit := by
  have hw := doc_written hd
  change (parseJson s).bind Json.verifyRequest = _ at h
  rw [(parseJson_iff s _).2 hd, Option.bind_some, Json.verifyRequest] at h
  simp only [Option.bind_eq_bind, Option.bind_eq_some_iff] at h
  obtain ⟨f, hf, r, hr, c, hc, n, hm, e⟩ := h
  cases e
  obtain ⟨hn, l', rfl, hl⟩ := (fields_names hw 3 f).1 hf
  obtain ⟨w, hw', hr'⟩ := (need_iff hl _ _ _ _).1 hr
  exact ⟨l, w, hd, hn, hw', ref_back hw hp hw' hr',
    maySay_map (fun v a hs e => (text_iff (says_written hw hs) a).1 e) ((opt_iff hl 1 _ Json.text rfl cursor).1 hc),
    maySay_map (fun v a hs e => (int_iff (says_written hw hs) a).1 e) ((opt_iff hl 2 _ Json.int rfl limit).1 hm)⟩

theorem object_back {l : List (Bytes × Json)} {o : RequestVars} (h : (Json.obj l).Written) (hr : (Json.obj l).requestVars = some o) : Spec.IsObject (.obj l) o := by
  have hw := fun m hm => (obj_written h m hm).2
  rw [Json.requestVars] at hr
  simp only [Option.bind_eq_bind, Option.bind_eq_some_iff] at hr
  obtain ⟨f, hf, oid, h1, size, h2, user, h3, pw, h4, repo, h5, au, h6, e⟩ := hr
  cases e
  obtain ⟨hn, l', rfl, hl⟩ := (fields_names h 6 f).1 hf
  obtain ⟨i, hi, hi'⟩ := (need_iff hl _ _ _ _).1 h1
  obtain ⟨z, hz, hz'⟩ := (need_iff hl _ _ _ _).1 h2
  exact ⟨l, i, z, rfl, hn, hi, (text_iff (says_written h hi) _).1 hi', hz, (int_iff (says_written h hz) _).1 hz',
    (dflt_iff hl 2 _ hw _).1 h3, ⟨pw, (dflt_iff hl 3 _ hw _).1 h4⟩, (dflt_iff hl 4 _ hw _).1 h5, au, (dflt_iff hl 5 _ hw _).1 h6⟩

theorem vec_back {α : Type} {f : Json → Option α} {v : Json} {as : List α} (h : Json.vec f v = some as) : ∃ vs, v = .arr vs ∧ List.Forall₂ (fun v a => f v = some a) vs as := by
  cases v with
  | arr vs =>
    refine ⟨vs, rfl, ?_⟩
    rw [Json.vec] at h
    induction vs generalizing as with
    | nil => cases h; exact .nil
    | cons v vs ih =>
      rw [List.mapM_cons] at h
      simp only [Option.bind_eq_bind, Option.bind_eq_some_iff] at h
      obtain ⟨a, ha, bs, hb, e⟩ := h
      cases e
      exact .cons ha (ih hb)
  | _ => cases h

theorem forall2_mem {α β : Type} {R : α → β → Prop} {l : List α} {m : List β} (h : List.Forall₂ R l m) : ∀ a ∈ l, ∃ b, R a b := by
  induction h with
  | nil => intro a ha; cases ha
  | cons hx _ ih =>
    intro a ha
    rcases List.mem_cons.1 ha with rfl | ha
    · exact ⟨_, hx⟩
    · exact ih a ha

theorem forall2_imp {α β : Type} {R S : α → β → Prop} {l : List α} {m : List β} (h : List.Forall₂ R l m) (hi : ∀ a b, a ∈ l → R a b → S a b) : List.Forall₂ S l m := by
  induction h with
  | nil => exact .nil
  | cons hx _ ih => exact .cons (hi _ _ List.mem_cons_self hx) (ih (fun a b ha => hi a b (List.mem_cons_of_mem _ ha)))

theorem batch_back {s : Bytes} {l : List (Bytes × Json)} (hd : Spec.JsonDoc (.obj l) s) (hp : ¬ Spec.ByPosition l) {operation : Bytes} {objects : List RequestVars}
    (h : serdeJson.batch s = some (operation, objects)) : Spec.BatchBody s operation objects := by
  have hw := doc_written hd
  change (parseJson s).bind Json.batchVars = _ at h
  rw [(parseJson_iff s _).2 hd, Option.bind_some, Json.batchVars] at h
  simp only [Option.bind_eq_bind, Option.bind_eq_some_iff] at h
  obtain ⟨f, hf, ts, ht, op, ho, os, hos, e⟩ := h
  cases e
  obtain ⟨hn, l', rfl, hl⟩ := (fields_names hw 3 f).1 hf
  obtain ⟨tv, ht1, ht2⟩ := (need_iff hl _ _ _ _).1 ht
  obtain ⟨ov, ho1, ho2⟩ := (need_iff hl _ _ _ _).1 ho
  obtain ⟨sv, hs1, hs2⟩ := (need_iff hl _ _ _ _).1 hos
  obtain ⟨tvs, rfl, ht3⟩ := vec_back ht2
  obtain ⟨svs, rfl, hs3⟩ := vec_back hs2
  have wt := arr_written (says_written hw ht1)
  have ws := arr_written (says_written hw hs1)
  refine ⟨l, tvs, ov, svs, hd, hn, ht1, fun t hm => ?_, ho1, (text_iff (says_written hw ho1) _).1 ho2, hs1, forall2_imp hs3 (fun v o hm e => ?_)⟩
  · obtain ⟨c, hc⟩ := forall2_mem ht3 t hm
    exact ⟨c, (text_iff (wt t hm) c).1 hc⟩
  · cases v with
    | obj lv => exact object_back (ws _ hm) e
    | arr a => exact absurd (.inr ⟨svs, a, hs1, hm⟩) hp
    | _ => cases e

/-- **C131**, nothing else: a JSON object that is no request of the API changes nothing and has no answer, whatever it is missing (a member, the type of a member, a member given twice, a name or a text that is
no text). The exception are arrays in the place of objects. -/
theorem C131_refused (P : ServerExt) (hJ : P.J = serdeJson) (m : Moment) (s : ServerState) (u : Bytes) (a : Spec.LfsAsk) (ha : a.Ok) (body : Bytes) (hb : a.body? = some body)
    (l : List (Bytes × Json)) (hd : Spec.JsonDoc (.obj l) body) (hp : ¬ Spec.ByPosition l) (hno : ∀ c : Spec.LfsCall, ¬ c.WrittenAs a) : Spec.Dropped P m s (a.to u) := by
  refine dropped_of P m s u a ha body hb (fun b e => ?_) (fun i b e => ?_) (fun b e => ?_) (fun b e => ?_)
  all_goals
    subst e
    cases hb
    rw [hJ, Option.eq_none_iff_forall_ne_some]
  · rintro ⟨ref, path⟩ h
    exact hno (.lock ref path) ((C131_exact body l hd (fun a ha => hp (.inl ⟨a, ha⟩)) ref path).1 h)
  · rintro ⟨ref, force⟩ h
    exact hno (.unlock i ref force) ⟨rfl, ha, unlock_back hd hp h⟩
  · rintro ⟨ref, cursor, limit⟩ h
    exact hno (.verify ref cursor limit) (verify_back hd hp h)
  · rintro ⟨operation, objects⟩ h
    exact hno (.batch operation objects) (batch_back hd hp h)

/-! ## Examples -/

/-- The text is an object with objects where objects are expected. -/
def byName (s : Bytes) : Bool :=
  match parseJson s with
  | some (.obj l) => l.all (fun m => match m.2 with
    | .arr vs => jsonContent m.1 != some (ascii "ref") && (jsonContent m.1 != some (ascii "objects") || vs.all (fun v => match v with
      | .arr _ => false
      | _ => true))
    | _ => true)
  | _ => false

theorem byName_doc {s : Bytes} (h : byName s = true) : ∃ l, Spec.JsonDoc (.obj l) s ∧ ¬ Spec.ByPosition l := by
  rw [byName] at h
  split at h
  · rename_i l e
    refine ⟨l, (parseJson_iff s _).1 e, ?_⟩
    rintro (⟨a, pre, raw, post, rfl, hr, -⟩ | ⟨vs, a, ⟨pre, raw, post, rfl, hr, -⟩, ha⟩)
    · have := List.all_eq_true.1 h (raw, .arr a) (by simp)
      simp [jsonContent_reads _ _ hr] at this
    · have := List.all_eq_true.1 h (raw, .arr vs) (by simp)
      simp only [jsonContent_reads _ _ hr, bne_self_eq_false, Bool.false_or, Bool.and_eq_true] at this
      have := List.all_eq_true.1 this.2 _ ha
      cases this
  · cases h

/-- A batch request whose `objects` is one object instead of a list. -/
def singleBatchBody : Bytes := ascii "{\"operation\": \"download\", \"transfers\": [\"basic\"], \"objects\": {\"oid\": \"12345678\", \"size\": 123}}"

example (P : ServerExt) (hJ : P.J = serdeJson) (m : Moment) (s : ServerState) (u : Bytes) : Spec.Dropped P m s ((Spec.LfsAsk.batch singleBatchBody).to u) := by
  obtain ⟨l, hd, hp⟩ := byName_doc (s := singleBatchBody) (by decide +kernel)
  refine C131_refused P hJ m s u _ trivial singleBatchBody rfl l hd hp (fun c h => ?_)
  cases c with
  | batch operation objects =>
    have := batch_read h
    rw [show serdeJson.batch singleBatchBody = none from Option.isNone_iff_eq_none.1 (by decide +kernel)] at this
    cases this
  | _ => exact h

deriving instance DecidableEq for RequestVars

/-- A request to delete a lock by force, one for the locks before a push, and a batch. -/
example : Spec.UnlockBody (ascii "{\"force\": true, \"ref\": {\"name\": \"refs/heads/main\"}}") (ascii "refs/heads/main") (some true) ∧
    Spec.VerifyBody (ascii "{\"cursor\": null, \"limit\": 100, \"ref\": {\"name\": \"refs/heads/main\"}}") (ascii "refs/heads/main") none (some 100) ∧
    Spec.BatchBody (ascii "{\"operation\": \"upload\", \"transfers\": [\"basic\"], \"objects\": [{\"oid\": \"1234\", \"size\": 5}]}") (ascii "upload")
      [{ oid := ascii "1234", size := 5, user := [], repo := [] }] := by
  refine ⟨?_, ?_, ?_⟩
  · obtain ⟨l, hd, hp⟩ := byName_doc (s := ascii "{\"force\": true, \"ref\": {\"name\": \"refs/heads/main\"}}") (by decide +kernel)
    exact unlock_back hd hp (by decide +kernel)
  · obtain ⟨l, hd, hp⟩ := byName_doc (s := ascii "{\"cursor\": null, \"limit\": 100, \"ref\": {\"name\": \"refs/heads/main\"}}") (by decide +kernel)
    exact verify_back hd hp (by decide +kernel)
  · obtain ⟨l, hd, hp⟩ := byName_doc (s := ascii "{\"operation\": \"upload\", \"transfers\": [\"basic\"], \"objects\": [{\"oid\": \"1234\", \"size\": 5}]}") (by decide +kernel)
    exact batch_back hd hp (by decide +kernel)

end Gust

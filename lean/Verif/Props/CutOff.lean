import Verif.Props.LfsAlive
import Verif.Base.Tactics

/-! # C141: uploads of large files that a stop of the server cuts off -/

namespace Gust

variable {D : DbExt} {E : StoreExt}

/-- What holds of the rows and files of a server that is only used with oids of at least five characters. -/
structure LongStore (D : DbExt) (E : StoreExt) (s : LfsState) : Prop where
  keyed : Keyed D s.metas
  rows : LongRows s.metas
  shape : Shape E s.disk

theorem longStore_fresh (D : DbExt) (hD : Spec.CollationOk D) (E : StoreExt) {s0 : LfsState} (hs : Spec.FreshStore E s0) {h : List LfsReq} (hq : ∀ q ∈ h, Spec.LongOids q) :
    LongStore D E (runLfs D E s0 h) :=
  ⟨runLfs_keyed D E s0 h (fresh_keyed D hs), (runLfs_shape D E hD s0 hs h hq).1, (runLfs_shape D E hD s0 hs h hq).2⟩

theorem longStore_run (hD : Spec.CollationOk D) {s : LfsState} (hi : LongStore D E s) {q : LfsReq} (hq : Spec.LongOids q) : LongStore D E (q.run D E s) :=
  ⟨run_keyed D E s q hi.keyed, (run_shape D E hD s q hq hi.keyed hi.rows hi.shape).1, (run_shape D E hD s q hq hi.keyed hi.rows hi.shape).2⟩

/-- The file of a long oid is no directory. -/
theorem place_shape {d : Disk} (h : Shape E d) {oid : Bytes} (hl : 5 ≤ oid.length) : d (placeOf E oid) ≠ some .dir := by
  obtain ⟨a, b, c, habc⟩ := oidParts_long hl
  unfold placeOf
  rw [habc]
  exact h.2.2 _ rfl

/-- New directories do not touch the file of a long oid. -/
theorem place_grown {d d' : Disk} (hg : Grown d d') (h : Shape E d') {oid : Bytes} (hl : 5 ≤ oid.length) : d' (placeOf E oid) = d (placeOf E oid) := by
  rcases hg (placeOf E oid) with e | ⟨_, e⟩
  · exact e
  · exact absurd e (place_shape h hl)

/-- Further requests leave row and file of an object alone, except uploads for it. -/
theorem runLfs_leaves (hD : Spec.CollationOk D) {oid : Bytes} (ho : Spec.RouteOid oid) {n : Int} : ∀ (h : List LfsReq) (s : LfsState), LongStore D E s →
    s.metas (D.fold oid) = some (oid, n) → (∀ q ∈ h, Spec.LongOids q ∧ ∀ body, q ≠ .upload oid body) →
    LongStore D E (runLfs D E s h) ∧ (runLfs D E s h).metas (D.fold oid) = some (oid, n) ∧ (runLfs D E s h).disk (placeOf E oid) = s.disk (placeOf E oid)
  | [], s, hi, hm, _ => ⟨hi, hm, rfl⟩
  | q :: h, s, hi, hm, hq => by
    obtain ⟨hq1, hq2⟩ := hq q (.head _)
    have hi' := longStore_run hD hi hq1
    have hl := hi.rows _ _ _ hm
    have hroute : ∀ oid' body', q = .upload oid' body' → Spec.RouteOid oid' ∧ oid' ≠ oid := by
      rintro oid' body' rfl
      exact ⟨hq1, fun e => hq2 body' (by rw [e])⟩
    have hm' : (q.run D E s).metas (D.fold oid) = some (oid, n) := by
      rcases run_metas D E s q _ _ hm with e | ⟨oid', body', e, hf, -⟩
      · exact e
      · obtain ⟨h1, h2⟩ := hroute oid' body' e
        exact absurd ((hD oid' oid ho hf).2.2.2 h1) h2
    have hfile : ∀ c, (q.run D E s).disk (placeOf E oid) = some (.file c) ↔ s.disk (placeOf E oid) = some (.file c) := by
      intro c
      rcases run_file D E s q (placeOf E oid) c with e | ⟨oid', body', o, n', e, hmo, hp, -⟩
      · exact e
      · exfalso
        obtain ⟨hr, hne⟩ := hroute oid' body' e
        have hpl := hD o oid' hr (hi.keyed _ _ _ hmo)
        have : o = oid := storePath_inj E ⟨hpl.1, hpl.2.1, hpl.2.2.1⟩ (routeOid_plain ho) hp (storePath_place E ho)
        subst this
        exact hne (hpl.2.2.2 ho).symm
    have hd : (q.run D E s).disk (placeOf E oid) = s.disk (placeOf E oid) := by
      have n1 := place_shape hi.shape hl
      have n2 := place_shape hi'.shape hl
      cases h1 : s.disk (placeOf E oid) with
      | none =>
        cases h2 : (q.run D E s).disk (placeOf E oid) with
        | none => rfl
        | some x =>
          cases x with
          | dir => exact absurd h2 n2
          | file c => rw [(hfile c).1 h2] at h1; cases h1
      | some x =>
        cases x with
        | dir => exact absurd h1 n1
        | file c => exact (hfile c).2 h1
    obtain ⟨k1, k2, k3⟩ := runLfs_leaves hD ho h _ hi' hm' (fun q hq' => hq q (.tail _ hq'))
    exact ⟨k1, k2, by rw [← hd]; exact k3⟩

/-- The steps of an upload for an object on record. -/
theorem upload_steps {s : LfsState} (hi : LongStore D E s) {oid : Bytes} (ho : Spec.RouteOid oid) {n : Int} (hm : s.metas (D.fold oid) = some (oid, n)) (body : Bytes) :
    ∃ d0 d1, Shape E d0 ∧ Shape E d1 ∧ d0 (placeOf E oid) = s.disk (placeOf E oid) ∧ d1 (placeOf E oid) = s.disk (placeOf E oid) ∧
      (∀ k, LfsTask.step D E k s { req := .upload oid body, phase := .start } = (.lookup, { s with disk := d0 })) ∧
      (∀ k, LfsTask.step D E k { s with disk := d0 } { req := .upload oid body, phase := .lookup } = (.dirs (oid, n), { s with disk := d0 })) ∧
      (∀ k, LfsTask.step D E k { s with disk := d0 } { req := .upload oid body, phase := .dirs (oid, n) } = (.create (oid, n) (placeOf E oid), { s with disk := d1 })) ∧
      (∀ k, LfsTask.step D E k { s with disk := d1 } { req := .upload oid body, phase := .create (oid, n) (placeOf E oid) } =
        (.write (oid, n) (placeOf E oid), { s with disk := setAt d1 (placeOf E oid) (some (.file [])) })) ∧
      (∀ k, LfsTask.step D E k { s with disk := setAt d1 (placeOf E oid) (some (.file [])) } { req := .upload oid body, phase := .write (oid, n) (placeOf E oid) } =
        (if ((min body.length E.maxWrite : Nat) : Int) = n ∧ E.digest body = oid then .done (.ok .stored) else .reject,
          { s with disk := setAt d1 (placeOf E oid) (some (.file (body.take E.maxWrite))) })) := by
  have hsh := hi.shape
  have hl := hi.rows _ _ _ hm
  have hs0 : Shape E (storeNew E s.disk).1 := shape_grown hsh (storeNew_grown E s.disk) (storeNew_short E s.disk)
  have hnew := storeNew_ok hsh
  have hp := storePath_place E ho
  obtain ⟨a, b, c, habc⟩ := oidParts_long hl
  have hplace : placeOf E oid = ((components E.base).1, (components E.base).2 ++ [a, b, c]) := by rw [placeOf, habc]
  have hdl : (placeOf E oid).2.dropLast = (components E.base).2 ++ [a, b] := by
    rw [hplace]
    show ((components E.base).2 ++ [a, b, c]).dropLast = _
    rw [List.dropLast_append_of_ne_nil (by simp)]; rfl
  have hfst : (placeOf E oid).1 = (components E.base).1 := rfl
  have hmk : (mkdirs (components E.base).1 (storeNew E s.disk).1 [] ((components E.base).2 ++ [a, b])).2 = true := by
    refine mkdirs_ok _ _ _ _ (fun k hk c' => ?_)
    rw [List.nil_append]
    by_cases hkl : k + 1 ≤ (components E.base).2.length
    · rw [List.take_append_of_le_length hkl]
      exact hs0.1 _ c'
    · rw [List.take_append, List.take_of_length_le (by omega)]
      exact hs0.2.1 _ (by simp) c'
  have hgr := mkdirs_grown (components E.base).1 ((components E.base).2 ++ [a, b]) [] (storeNew E s.disk).1
  have hsh1 : Shape E (mkdirs (components E.base).1 (storeNew E s.disk).1 [] ((components E.base).2 ++ [a, b])).1 := by
    refine shape_grown hs0 hgr (fun q => ?_)
    rcases mkdirs_only (components E.base).1 ((components E.base).2 ++ [a, b]) [] (storeNew E s.disk).1 q with h | ⟨k, hk', rfl⟩
    · exact .inl h
    · refine .inr ?_
      simp only [List.nil_append, List.length_take, List.length_append, List.length_cons, List.length_nil]
      omega
  have e0 := place_grown (storeNew_grown E s.disk) hs0 hl
  have e1 := place_grown hgr hsh1 hl
  have hnd := place_shape hsh1 hl
  refine ⟨(storeNew E s.disk).1, (mkdirs (components E.base).1 (storeNew E s.disk).1 [] ((components E.base).2 ++ [a, b])).1, hs0, hsh1, e0, e1.trans e0, fun k => ?_, fun k => ?_, fun k => ?_, fun k => ?_, fun k => ?_⟩
  · cases hn : storeNew E s.disk with
    | mk d ok =>
      rw [hn] at hnew
      have hnew : ok = true := hnew
      subst hnew
      simp only [LfsTask.step, hn, Bool.not_true, Bool.false_eq_true, if_false]
  · simp only [LfsTask.step, lfsGetMeta, hm]
  · simp only [LfsTask.step, hp, hdl, hfst, hmk, Bool.not_true, Bool.false_eq_true, if_false]
  · simp only [LfsTask.step]
  · simp only [LfsTask.step, setAt_same, writeAt_start, setAt_setAt, List.drop_nil, List.append_nil]
    rw [show body.take (min body.length E.maxWrite) = body.take E.maxWrite by
      rcases Nat.le_total body.length E.maxWrite with h | h
      · rw [Nat.min_eq_left h, List.take_of_length_le (Nat.le_refl _), List.take_of_length_le h]
      · rw [Nat.min_eq_right h]]
    by_cases h1 : ((min body.length E.maxWrite : Nat) : Int) = n
    · by_cases h2 : E.digest body = oid
      · simp only [h1, h2, ne_eq, not_true, if_false, and_self, if_true]
      · simp only [h1, h2, ne_eq, not_true, not_false_eq_true, if_false, if_true, and_false]
    · simp only [h1, ne_eq, not_false_eq_true, if_true, false_and, if_false]

/-- The task of an upload. -/
def uploadTask (oid body : Bytes) : LfsTask := { req := .upload oid body, phase := .start }

theorem alone_done (r : Reply LfsOut) (q : LfsReq) : ∀ (ns : List Nat) (s : LfsState), LfsTask.alone D E ns s { req := q, phase := .done r } = (.done r, s)
  | [], _ => rfl
  | _ :: ns, s => alone_done r q ns s

/-- How far an upload is after some steps, and what it has done. -/
theorem upload_after (hD : Spec.CollationOk D) {s : LfsState} (hi : LongStore D E s) {oid : Bytes} (ho : Spec.RouteOid oid) {n : Int} (hm : s.metas (D.fold oid) = some (oid, n)) (body : Bytes) (ns : List Nat) :
    (ns.length < 5 ∨ (((min body.length E.maxWrite : Nat) : Int) = n ∧ E.digest body = oid) ∨ ns.length = 5) →
    (LfsTask.alone D E ns s (uploadTask oid body)).2.metas = s.metas ∧ LongStore D E (LfsTask.alone D E ns s (uploadTask oid body)).2 ∧
    ((∃ r, (LfsTask.alone D E ns s (uploadTask oid body)).1 = .done r) ↔ (5 ≤ ns.length ∧ ((min body.length E.maxWrite : Nat) : Int) = n ∧ E.digest body = oid)) ∧
    (∀ r, (LfsTask.alone D E ns s (uploadTask oid body)).1 = .done r → r = .ok .stored) ∧
    (LfsTask.alone D E ns s (uploadTask oid body)).2.disk (placeOf E oid) =
      if ns.length < 4 then s.disk (placeOf E oid) else if ns.length = 4 then some (.file []) else some (.file (body.take E.maxWrite)) := by
  obtain ⟨d0, d1, hs0, hs1, e0, e1, st0, st1, st2, st3, st4⟩ := upload_steps hi ho hm body
  have hl := hi.rows _ _ _ hm
  have hset : ∀ c, Shape E (setAt d1 (placeOf E oid) (some (.file c))) := by
    intro c
    obtain ⟨x, y, z, hxyz⟩ := oidParts_long hl
    have hlen : (placeOf E oid).2.length = (components E.base).2.length + 3 := by simp [placeOf, hxyz]
    refine ⟨fun k c' => ?_, fun tl htl c' => ?_, fun tl htl => ?_⟩
    · rw [setAt_other _ _ (by
        intro e
        have := congrArg (fun q : Bool × List Bytes => q.2.length) e
        simp only [hlen, List.length_take] at this
        omega)]
      exact hs1.1 k c'
    · rw [setAt_other _ _ (by
        intro e
        have := congrArg (fun q : Bool × List Bytes => q.2.length) e
        simp only [hlen, List.length_append] at this
        omega)]
      exact hs1.2.1 tl htl c'
    · rw [setAt_eq]
      split
      · simp
      · exact hs1.2.2 tl htl
  intro hcase
  unfold uploadTask
  match ns, hcase with
  | [], _ => exact ⟨rfl, hi, by simp [LfsTask.alone], by simp [LfsTask.alone], by simp [LfsTask.alone]⟩
  | [a], _ =>
    simp only [LfsTask.alone, st0]
    exact ⟨trivial, ⟨hi.keyed, hi.rows, hs0⟩, by simp, by simp, by simp [e0]⟩
  | [a, b], _ =>
    simp only [LfsTask.alone, st0, st1]
    exact ⟨trivial, ⟨hi.keyed, hi.rows, hs0⟩, by simp, by simp, by simp [e0]⟩
  | [a, b, c], _ =>
    simp only [LfsTask.alone, st0, st1, st2]
    exact ⟨trivial, ⟨hi.keyed, hi.rows, hs1⟩, by simp, by simp, by simp [e1]⟩
  | [a, b, c, d], _ =>
    simp only [LfsTask.alone, st0, st1, st2, st3]
    exact ⟨trivial, ⟨hi.keyed, hi.rows, hset _⟩, by simp, by simp, by simp [setAt_same]⟩
  | a :: b :: c :: d :: e :: l, hcase =>
    simp only [LfsTask.alone, st0, st1, st2, st3, st4]
    by_cases hr : ((min body.length E.maxWrite : Nat) : Int) = n ∧ E.digest body = oid
    · rw [if_pos hr, alone_done]
      refine ⟨rfl, ⟨hi.keyed, hi.rows, hset _⟩, by simp [hr], by simp, ?_⟩
      rw [if_neg (by simp), if_neg (by simp)]
      exact setAt_same _ _ _
    · rw [if_neg hr]
      have hnil : l = [] := by
        rcases hcase with h | h | h
        · simp only [List.length_cons] at h
          omega
        · exact absurd h hr
        · simpa using h
      subst hnil
      refine ⟨rfl, ⟨hi.keyed, hi.rows, hset _⟩, ⟨by rintro ⟨r, h⟩; simp [LfsTask.alone] at h, fun h => absurd h.2 hr⟩, by simp [LfsTask.alone], ?_⟩
      rw [if_neg (by simp), if_neg (by simp)]
      exact setAt_same _ _ _

/-- What a download of a file that is there gives. -/
theorem download_file {s : LfsState} (hi : LongStore D E s) {oid : Bytes} (ho : Spec.RouteOid oid) {n : Int} (hm : s.metas (D.fold oid) = some (oid, n)) {c : Bytes}
    (hd : s.disk (placeOf E oid) = some (.file c)) : (downloadObject D E s oid).1 = .ok c :=
  downloadObject_ok D E s oid oid n _ c (storeNew_ok hi.shape) hm (storePath_place E ho) hd

/-- What a download of a file that is not there gives. -/
theorem download_none {s : LfsState} (hi : LongStore D E s) {oid : Bytes} (ho : Spec.RouteOid oid) {n : Int} (hm : s.metas (D.fold oid) = some (oid, n))
    (hd : s.disk (placeOf E oid) = none) : ∀ c, (downloadObject D E s oid).1 ≠ .ok c := by
  intro c h
  have hl := hi.rows _ _ _ hm
  have hs0 : Shape E (storeNew E s.disk).1 := shape_grown hi.shape (storeNew_grown E s.disk) (storeNew_short E s.disk)
  have e0 := place_grown (storeNew_grown E s.disk) hs0 hl
  unfold downloadObject lfsGetMeta storeGet at h
  cases hn : storeNew E s.disk with
  | mk d ok =>
    rw [hn] at h e0
    replace e0 : d (placeOf E oid) = s.disk (placeOf E oid) := e0
    cases ok with
    | false => cases h
    | true =>
      simp only [Bool.not_true, Bool.false_eq_true, if_false, hm, storePath_place E ho, Res.bind_ok] at h
      rw [e0, hd] at h
      cases h

/-- What a request for links says about an object on record. -/
theorem batch_offer {s : LfsState} (hi : LongStore D E s) {oid : Bytes} (ho : Spec.RouteOid oid) {n : Int} (hm : s.metas (D.fold oid) = some (oid, n)) {op : Bytes} {vs : List RequestVars} {rs : List Rep}
    (h : (processBatch D E s op vs).1 = .ok rs) {i : Nat} {v : RequestVars} (hv : vs[i]? = some v) (hoid : v.oid = oid) {e : Rep} (he : rs[i]? = some e) :
    (s.disk (placeOf E oid) ≠ none → e.offer = .download (internalLink E.origin v)) ∧
    (s.disk (placeOf E oid) = none → op = ascii "upload" → e.offer = .upload (internalLink E.origin v)) := by
  have k := (C47_batch D E s op vs rs h).2 i v e hv he
  have hrow : Spec.rowFor D s.metas (op == ascii "upload") (vs.take i) v.oid = some (oid, n) := by rw [hoid, Spec.rowFor, hm]
  rw [hrow] at k
  have hp : Spec.present E (storeNew E s.disk).1 oid = (s.disk (placeOf E oid)).isSome := by
    rw [present_new E s.disk oid (routeOid_plain ho), Spec.present, storePath_place E ho]
  unfold Spec.entryFor at k
  simp only [hp] at k
  constructor
  · intro hne
    have : (s.disk (placeOf E oid)).isSome = true := by
      cases h : s.disk (placeOf E oid) with
      | none => exact absurd h hne
      | some _ => rfl
    rw [if_pos this] at k
    rw [k]
  · intro hnone hop
    rw [hnone, if_neg (by simp), if_pos (by rw [hop]; exact beq_self_eq_true _)] at k
    rw [k]

/-- Requests that announce no oids of fewer than five characters, without uploads for this oid. -/
def Spec.Others (oid : Bytes) (h : List LfsReq) : Prop := ∀ q ∈ h, Spec.LongOids q ∧ ∀ body, q ≠ .upload oid body

/-- **C141 is false.** On a server that started empty and has handled any requests, an upload for an object on record begins, and the server is stopped behind the fourth step of the upload, before
it is answered. From then on, whatever requests (but no uploads for the object) follow on the restarted server, everybody who downloads the object is given an empty file as the object, and
everybody who asks where to upload the object is told that it is there already. This is so even if the complete file was stored before. -/
theorem C141_cut_false (D : DbExt) (hD : Spec.CollationOk D) (E : StoreExt) (s0 : LfsState) (hs : Spec.FreshStore E s0) (h1 : List LfsReq) (hq : ∀ q ∈ h1, Spec.LongOids q)
    (oid body : Bytes) (ho : Spec.RouteOid oid) (n : Int) (hm : (runLfs D E s0 h1).metas (D.fold oid) = some (oid, n)) (ns : List Nat) (hns : ns.length = 4) :
    (∀ r, (LfsTask.alone D E ns (runLfs D E s0 h1) (uploadTask oid body)).1 ≠ .done r) ∧
    ∀ h2, Spec.Others oid h2 → ∀ s2, s2 = runLfs D E (LfsTask.alone D E ns (runLfs D E s0 h1) (uploadTask oid body)).2 h2 →
      (downloadObject D E s2 oid).1 = .ok [] ∧
      ∀ op vs rs, (processBatch D E s2 op vs).1 = .ok rs → ∀ (i : Nat) (v : RequestVars) (e : Rep), vs[i]? = some v → v.oid = oid → rs[i]? = some e → e.offer = .download (internalLink E.origin v) := by
  have hi := longStore_fresh D hD E hs hq
  obtain ⟨k1, k2, k3, _, k5⟩ := upload_after hD hi ho hm body ns (.inl (by omega))
  refine ⟨fun r hr => ?_, ?_⟩
  · have := (k3.1 ⟨r, hr⟩).1
    omega
  · rintro h2 ho2 s2 rfl
    rw [if_neg (by omega), if_pos hns] at k5
    obtain ⟨l1, l2, l3⟩ := runLfs_leaves hD ho h2 _ k2 (by rw [k1]; exact hm) ho2
    rw [k5] at l3
    exact ⟨download_file l1 ho l2 l3, fun op vs rs h i v e hv hoid he => (batch_offer l1 ho l2 h hv hoid he).1 (by rw [l3]; simp)⟩

/-- **C141 is false.** The same for an upload of other bytes than the oid promises, stopped behind the fifth step: the wrong bytes are delivered as the object from then on. -/
theorem C141_wrong_false (D : DbExt) (hD : Spec.CollationOk D) (E : StoreExt) (s0 : LfsState) (hs : Spec.FreshStore E s0) (h1 : List LfsReq) (hq : ∀ q ∈ h1, Spec.LongOids q)
    (oid body : Bytes) (ho : Spec.RouteOid oid) (n : Int) (hm : (runLfs D E s0 h1).metas (D.fold oid) = some (oid, n)) (hwrong : E.digest body ≠ oid) (hlen : body.length ≤ E.maxWrite)
    (ns : List Nat) (hns : ns.length = 5) :
    (∀ r, (LfsTask.alone D E ns (runLfs D E s0 h1) (uploadTask oid body)).1 ≠ .done r) ∧
    ∀ h2, Spec.Others oid h2 → ∀ s2, s2 = runLfs D E (LfsTask.alone D E ns (runLfs D E s0 h1) (uploadTask oid body)).2 h2 →
      (downloadObject D E s2 oid).1 = .ok body ∧
      ∀ op vs rs, (processBatch D E s2 op vs).1 = .ok rs → ∀ (i : Nat) (v : RequestVars) (e : Rep), vs[i]? = some v → v.oid = oid → rs[i]? = some e → e.offer = .download (internalLink E.origin v) := by
  have hi := longStore_fresh D hD E hs hq
  obtain ⟨k1, k2, k3, _, k5⟩ := upload_after hD hi ho hm body ns (.inr (.inr hns))
  refine ⟨fun r hr => hwrong (k3.1 ⟨r, hr⟩).2.2, ?_⟩
  rintro h2 ho2 s2 rfl
  rw [if_neg (by omega), if_neg (by omega), List.take_of_length_le hlen] at k5
  obtain ⟨l1, l2, l3⟩ := runLfs_leaves hD ho h2 _ k2 (by rw [k1]; exact hm) ho2
  rw [k5] at l3
  exact ⟨download_file l1 ho l2 l3, fun op vs rs h i v e hv hoid he => (batch_offer l1 ho l2 h hv hoid he).1 (by rw [l3]; simp)⟩

/-- **C141 (partial)** An upload of the right bytes that is stopped at any other moment leaves the object as it was, or complete: if it could be downloaded before, it can be downloaded afterwards, and
what is delivered is what was delivered before or the bytes uploaded; if it could not, then it is delivered complete or a client that announces it is told to upload it. (Missing from the full claim: the
moment between emptying the file and writing it, `C141_cut_false`, and uploads of wrong bytes, `C141_wrong_false`; announcements of short oids; bodies longer than one write, see C45.) -/
theorem C141_kept_partial (D : DbExt) (hD : Spec.CollationOk D) (E : StoreExt) (s0 : LfsState) (hs : Spec.FreshStore E s0) (h1 : List LfsReq) (hq : ∀ q ∈ h1, Spec.LongOids q)
    (oid body : Bytes) (ho : Spec.RouteOid oid) (hm : (runLfs D E s0 h1).metas (D.fold oid) = some (oid, (body.length : Int))) (hdig : E.digest body = oid) (hlen : body.length ≤ E.maxWrite)
    (ns : List Nat) (hns : ns.length ≠ 4) (h2 : List LfsReq) (ho2 : Spec.Others oid h2) (s2 : LfsState) (hs2 : s2 = runLfs D E (LfsTask.alone D E ns (runLfs D E s0 h1) (uploadTask oid body)).2 h2) :
    (∀ c, (downloadObject D E (runLfs D E s0 h1) oid).1 = .ok c → (downloadObject D E s2 oid).1 = .ok c ∨ (downloadObject D E s2 oid).1 = .ok body) ∧
    ((∀ c, (downloadObject D E (runLfs D E s0 h1) oid).1 ≠ .ok c) → (downloadObject D E s2 oid).1 = .ok body ∨
      ∀ vs rs, (processBatch D E s2 (ascii "upload") vs).1 = .ok rs → ∀ (i : Nat) (v : RequestVars) (e : Rep), vs[i]? = some v → v.oid = oid → rs[i]? = some e → e.offer = .upload (internalLink E.origin v)) := by
  have hi := longStore_fresh D hD E hs hq
  generalize runLfs D E s0 h1 = s1 at *
  obtain ⟨k1, k2, _, _, k5⟩ := upload_after hD hi ho hm body ns (.inr (.inl ⟨by rw [Nat.min_eq_left hlen], hdig⟩))
  obtain ⟨l1, l2, l3⟩ := runLfs_leaves hD ho h2 _ k2 (by rw [k1]; exact hm) ho2
  rw [← hs2] at l1 l2 l3
  rw [k5] at l3
  by_cases h4 : ns.length < 4
  · rw [if_pos h4] at l3
    have hl := hi.rows _ _ _ hm
    cases hf : s1.disk (placeOf E oid) with
    | none =>
      rw [hf] at l3
      exact ⟨fun c hc => absurd hc (download_none hi ho hm hf c), fun _ => .inr fun vs rs h i v e hv hoid he => (batch_offer l1 ho l2 h hv hoid he).2 l3 rfl⟩
    | some x =>
      cases x with
      | dir => exact absurd hf (place_shape hi.shape hl)
      | file c =>
        rw [hf] at l3
        have hdown := download_file hi ho hm hf
        refine ⟨fun c' hc => .inl ?_, fun hn => absurd hdown (hn c)⟩
        rw [← hc, hdown]
        exact download_file l1 ho l2 l3
  · rw [if_neg h4, if_neg hns, List.take_of_length_le hlen] at l3
    have := download_file l1 ho l2 l3
    exact ⟨fun _ _ => .inr this, fun _ => .inl this⟩

/-- **C141 (partial)** Wherever an upload of the right bytes is stopped, a client that sends them again to the link it was given is answered with success, and from then on the file is delivered complete. -/
theorem C141_again_partial (D : DbExt) (hD : Spec.CollationOk D) (E : StoreExt) (s0 : LfsState) (hs : Spec.FreshStore E s0) (h1 : List LfsReq) (hq : ∀ q ∈ h1, Spec.LongOids q)
    (oid body : Bytes) (ho : Spec.RouteOid oid) (hm : (runLfs D E s0 h1).metas (D.fold oid) = some (oid, (body.length : Int))) (hdig : E.digest body = oid) (hlen : body.length ≤ E.maxWrite)
    (ns : List Nat) (h2 h3 : List LfsReq) (ho2 : Spec.Others oid h2) (ho3 : Spec.Others oid h3) (s2 : LfsState)
    (hs2 : s2 = runLfs D E (LfsTask.alone D E ns (runLfs D E s0 h1) (uploadTask oid body)).2 h2) :
    (uploadObject D E s2 oid body).1 = .ok () ∧ (downloadObject D E (runLfs D E (uploadObject D E s2 oid body).2 h3) oid).1 = .ok body := by
  have hi := longStore_fresh D hD E hs hq
  generalize runLfs D E s0 h1 = s1 at *
  have hright : ((min body.length E.maxWrite : Nat) : Int) = (body.length : Int) ∧ E.digest body = oid := ⟨by rw [Nat.min_eq_left hlen], hdig⟩
  obtain ⟨k1, k2, _, _, _⟩ := upload_after hD hi ho hm body ns (.inr (.inl hright))
  obtain ⟨l1, l2, _⟩ := runLfs_leaves hD ho h2 _ k2 (by rw [k1]; exact hm) ho2
  rw [← hs2] at l1 l2
  obtain ⟨ms, hms⟩ := alone_upload D E s2 oid body
  obtain ⟨m1, m2, m3, m4, m5⟩ := upload_after hD l1 ho l2 body ms (.inr (.inl hright))
  rw [uploadTask, hms] at m1 m2 m3 m4 m5
  have h5 := (m3.1 ⟨_, rfl⟩).1
  have hok : (uploadObject D E s2 oid body).1 = .ok () := by
    have := m4 _ rfl
    cases hx : (uploadObject D E s2 oid body).1 with
    | ok a => rfl
    | status c => rw [hx] at this; cases this
    | panic => rw [hx] at this; cases this
  refine ⟨hok, ?_⟩
  rw [if_neg (by omega), if_neg (by omega), List.take_of_length_le hlen] at m5
  obtain ⟨p1, p2, p3⟩ := runLfs_leaves hD ho h3 _ m2 (by rw [m1]; exact l2) ho3
  exact download_file p1 ho p2 (by rw [p3]; exact m5)

/-! ## Instances -/

theorem announceRight_long : ∀ q ∈ [announceRight], Spec.LongOids q := by
  intro q hq
  rw [List.mem_singleton.1 hq]
  intro v hv
  rw [List.mem_singleton.1 hv]
  decide +kernel

/-- The object was announced, its upload was stopped behind the fourth step; somebody else announces another object; the object is empty. -/
example : (downloadObject lowerDb demoStore (runLfs lowerDb demoStore (LfsTask.alone lowerDb demoStore [0, 0, 0, 0] (runLfs lowerDb demoStore freshLfs [announceRight])
    (uploadTask rightOid (ascii "right"))).2 [.batch (ascii "upload") [{ oid := ascii "abcdef", size := 3 }]]) rightOid).1 = .ok [] :=
  ((C141_cut_false lowerDb lowerDb_ok demoStore freshLfs (freshLfs_fresh _) [announceRight] announceRight_long rightOid (ascii "right") (hexDigest_route demoStore_digest _) 5
    (by decide +kernel) [0, 0, 0, 0] rfl).2 _ (by
      intro q hq
      rw [List.mem_singleton.1 hq]
      refine ⟨?_, fun body e => by cases e⟩
      intro v hv
      rw [List.mem_singleton.1 hv]
      decide) _ rfl).1

/-- The complete file was stored, and is emptied by a second upload that is stopped. -/
example : (downloadObject lowerDb demoStore (runLfs lowerDb demoStore freshLfs [announceRight, .upload rightOid (ascii "right")]) rightOid).1 = .ok (ascii "right") ∧
    (downloadObject lowerDb demoStore (LfsTask.alone lowerDb demoStore [0, 0, 0, 0] (runLfs lowerDb demoStore freshLfs [announceRight, .upload rightOid (ascii "right")])
      (uploadTask rightOid (ascii "right"))).2 rightOid).1 = .ok [] := by
  constructor <;> decide +kernel

/-- Other bytes of the same length, stopped behind the fifth step. -/
example : (downloadObject lowerDb demoStore (LfsTask.alone lowerDb demoStore [0, 0, 0, 0, 0] (runLfs lowerDb demoStore freshLfs [announceRight])
    (uploadTask rightOid (ascii "wrong"))).2 rightOid).1 = .ok (ascii "wrong") :=
  ((C141_wrong_false lowerDb lowerDb_ok demoStore freshLfs (freshLfs_fresh _) [announceRight] announceRight_long rightOid (ascii "wrong") (hexDigest_route demoStore_digest _) 5
    (by decide +kernel) (by decide +kernel) (by decide +kernel) [0, 0, 0, 0, 0] rfl).2 [] (by intro q hq; cases hq) _ rfl).1

/-- Stopped behind the third step: whoever announces the object is told to upload it. -/
example : ∃ l, (processBatch lowerDb demoStore (LfsTask.alone lowerDb demoStore [0, 0, 0] (runLfs lowerDb demoStore freshLfs [announceRight])
    (uploadTask rightOid (ascii "right"))).2 (ascii "upload") [{ oid := rightOid, size := 5 }]).1 = .ok [{ oid := rightOid, size := 5, offer := .upload l }] :=
  ⟨internalLink demoStore.origin { oid := rightOid, size := 5 }, by decide +kernel⟩

/-- Stopped behind the fourth step, and sent again. -/
example : (uploadObject lowerDb demoStore (LfsTask.alone lowerDb demoStore [0, 0, 0, 0] (runLfs lowerDb demoStore freshLfs [announceRight]) (uploadTask rightOid (ascii "right"))).2
    rightOid (ascii "right")).1 = .ok () :=
  (C141_again_partial lowerDb lowerDb_ok demoStore freshLfs (freshLfs_fresh _) [announceRight] announceRight_long rightOid (ascii "right") (hexDigest_route demoStore_digest _)
    (by decide +kernel) (by decide +kernel) (by decide +kernel) [0, 0, 0, 0] [] [] (by intro q hq; cases hq) (by intro q hq; cases hq) _ rfl).1

end Gust

import Verif.Lemmas.LfsStore
import Verif.Spec.LfsStore

/-! # C44-C47, C68, C69: LFS objects -/

namespace Gust

/-! ## Assumptions: instances -/

/-- Exact comparison. -/
def exactDb : DbExt := { fold := id, locksFit := fun _ _ => true, metaFits := fun _ _ => true, minTime := [] }

theorem routeOid_plain {oid : Bytes} (h : Spec.RouteOid oid) : Plain oid := by
  refine ⟨h.1, fun e => ?_, fun e => ?_⟩
  · have := h.2 _ e
    simp at this
  · have := h.2 _ e
    simp at this

theorem routeOid_ascii {oid : Bytes} (h : Spec.RouteOid oid) : ∀ c ∈ oid, c < 0x80 := by
  intro c hc
  have := h.2 c hc
  rw [UInt8.lt_iff_toNat_lt]
  show c.toNat < 128
  omega

theorem exactDb_ok : Spec.CollationOk exactDb := by
  intro s t ht h
  have h : s = t := h
  subst h
  have := routeOid_plain ht
  exact ⟨this.1, this.2.1, this.2.2, fun _ => rfl⟩

/-- ASCII case folding. -/
def lowerByte (c : UInt8) : UInt8 := if 65 ≤ c.toNat ∧ c.toNat ≤ 90 then c + 32 else c

def lowerDb : DbExt := { exactDb with fold := fun s => s.map lowerByte }

theorem lowerByte_sep : ∀ c : UInt8, (lowerByte c = 0x2f ↔ c = 0x2f) ∧ (lowerByte c = 0x2e ↔ c = 0x2e) ∧
    (¬ (65 ≤ c.toNat ∧ c.toNat ≤ 90) → lowerByte c = c) := by
  intro c
  have h : ∀ c : Fin 256, (lowerByte (UInt8.ofFin c) = 0x2f ↔ UInt8.ofFin c = 0x2f) ∧
      (lowerByte (UInt8.ofFin c) = 0x2e ↔ UInt8.ofFin c = 0x2e) := by decide +kernel
  have h1 := h c.toFin
  exact ⟨h1.1, h1.2, fun hn => by unfold lowerByte; rw [if_neg hn]⟩

theorem lower_route {s : Bytes} (h : Spec.RouteOid s) : s.map lowerByte = s := by
  refine (List.map_congr_left ?_).trans (List.map_id s)
  intro c hc
  have := h.2 c hc
  exact (lowerByte_sep c).2.2 (by omega)

theorem lowerDb_ok : Spec.CollationOk lowerDb := by
  intro s t ht h
  have h : s.map lowerByte = t.map lowerByte := h
  rw [lower_route ht] at h
  have hp := routeOid_plain ht
  refine ⟨?_, ?_, ?_, ?_⟩
  · rintro rfl; exact hp.1 h.symm
  · intro e
    exact hp.2.1 (h ▸ List.mem_map.2 ⟨_, e, (lowerByte_sep _).1.2 rfl⟩)
  · intro e
    exact hp.2.2 (h ▸ List.mem_map.2 ⟨_, e, (lowerByte_sep _).2.1.2 rfl⟩)
  · intro hs
    rw [lower_route hs] at h
    exact h

/-- A stand-in for SHA-256: 64 digits that depend on the sum of the bytes and the length. -/
def demoStore : StoreExt where
  digest := fun b => List.replicate 60 0x61 ++ [digitChar ((b.map (·.toNat)).sum % 10), digitChar ((b.map (·.toNat)).sum / 10 % 10),
    digitChar (b.length % 10), digitChar (b.length / 10 % 10)]
  maxWrite := 0x7ffff000
  base := ascii "lfs"
  origin := ascii "http://host"

theorem digitChar_digit : ∀ d < 10, 48 ≤ (digitChar d).toNat ∧ (digitChar d).toNat ≤ 57 := by decide

theorem demoStore_digest : Spec.HexDigest demoStore := by
  intro b
  refine ⟨by simp [demoStore], ?_⟩
  intro c hc
  simp only [demoStore, List.mem_append, List.mem_replicate, List.mem_cons, List.not_mem_nil, or_false] at hc
  rcases hc with ⟨-, rfl⟩ | rfl | rfl | rfl | rfl
  · decide
  all_goals exact .inr (digitChar_digit _ (Nat.mod_lt _ (by decide)))

/-- A new server. -/
def freshLfs : LfsState := { metas := fun _ => none, disk := .blank }

theorem freshLfs_fresh (E : StoreExt) : Spec.FreshStore E freshLfs := by
  refine ⟨fun _ => rfl, fun q ⟨tl, h1, h2⟩ => ?_, fun q c _ h => ?_⟩
  · simp [freshLfs, Disk.blank, h2, h1]
  · simp only [freshLfs, Disk.blank] at h
    split at h <;> cases h

theorem hexDigest_route {E : StoreExt} (hE : Spec.HexDigest E) (b : Bytes) : Spec.RouteOid (E.digest b) := by
  obtain ⟨h1, h2⟩ := hE b
  refine ⟨fun e => by rw [e] at h1; simp at h1, fun c hc => ?_⟩
  have := h2 c hc
  omega

/-! ## C46: files -/

/-- **C46** The file of a routed oid is inside the content directory: its path is the directory's path followed by at least one component,
and these components contain no slash and no dot. -/
theorem C46_inside (E : StoreExt) (oid : Bytes) (h : Spec.RouteOid oid) :
    ∃ tail, tail ≠ [] ∧ (∀ c ∈ tail, c ≠ [] ∧ (0x2f : UInt8) ∉ c ∧ (0x2e : UInt8) ∉ c) ∧
      storePath E oid = .ok ((components E.base).1, (components E.base).2 ++ tail) := by
  have hp := routeOid_plain h
  refine ⟨oidParts oid, ?_, ?_, storePath_ascii E hp (routeOid_ascii h)⟩
  · unfold oidParts; split <;> simp
  · unfold oidParts
    split
    · intro c hc
      rw [List.mem_singleton.1 hc]
      exact hp
    · rename_i hl
      intro c hc
      simp only [List.mem_cons, List.not_mem_nil, or_false] at hc
      have hne : ∀ t : Bytes, 0 < t.length → t ≠ [] := fun t ht e => by rw [e] at ht; simp at ht
      rcases hc with rfl | rfl | rfl
      · exact plain_of_sub hp (fun c hc => List.mem_of_mem_take hc) (hne _ (by rw [List.length_take]; omega))
      · exact plain_of_sub hp (fun c hc => List.mem_of_mem_drop (List.mem_of_mem_take hc))
          (hne _ (by rw [List.length_take, List.length_drop]; omega))
      · exact plain_of_sub hp (fun c hc => List.mem_of_mem_drop hc) (hne _ (by rw [List.length_drop]; omega))

/-- **C46** Different routed oids have different files. -/
theorem C46_distinct (E : StoreExt) (a b : Bytes) (ha : Spec.RouteOid a) (hb : Spec.RouteOid b)
    (h : storePath E a = storePath E b) : a = b := by
  have h1 := storePath_ascii E (routeOid_plain ha) (routeOid_ascii ha)
  exact storePath_inj E (routeOid_plain ha) (routeOid_plain hb) h1 (h ▸ h1)

/-- Two oids whose concatenated directory names and file name agree up to the division. -/
example : storePath demoStore (ascii "abcdef") = .ok (false, [ascii "lfs", ascii "ab", ascii "cd", ascii "ef"]) ∧
    storePath demoStore (ascii "abcd") = .ok (false, [ascii "lfs", ascii "abcd"]) := by
  constructor <;> decide +kernel

/-! ## Rows -/

/-- Every row is stored under its own key. -/
def Keyed (D : DbExt) (m : MetaTable) : Prop := ∀ k o n, m k = some (o, n) → D.fold o = k

theorem run_keyed (D : DbExt) (E : StoreExt) (s : LfsState) (q : LfsReq) (h : Keyed D s.metas) : Keyed D (q.run D E s).metas := by
  cases q with
  | batch op vs =>
    intro k o n hk
    simp only [LfsReq.run] at hk
    rcases (processBatch_state D E s op vs).2.2 k with e | ⟨-, v, -, hv, e⟩
    · exact h k o n (e ▸ hk)
    · rw [e] at hk; cases hk; exact hv
  | upload oid body =>
    simp only [LfsReq.run]
    rcases uploadObject_cases D E s oid body with ⟨-, e, -⟩ | ⟨o, sz, p, d1, -, -, -, -, -, -, -, ⟨-, e, -⟩ | ⟨-, e, -⟩⟩
    · rw [e]; exact h
    · rw [e]; exact h
    · rw [e]
      intro k o n hk
      rw [setAt_eq] at hk
      split at hk
      · cases hk
      · exact h k o n hk
  | download oid => simp only [LfsReq.run, downloadObject_state]; exact h

theorem runLfs_append (D : DbExt) (E : StoreExt) (s : LfsState) (h1 h2 : List LfsReq) :
    runLfs D E s (h1 ++ h2) = runLfs D E (runLfs D E s h1) h2 := List.foldl_append

theorem runLfs_keyed (D : DbExt) (E : StoreExt) (s : LfsState) (h : List LfsReq) (hk : Keyed D s.metas) :
    Keyed D (runLfs D E s h).metas := by
  induction h generalizing s with
  | nil => exact hk
  | cons q h ih => exact ih _ (run_keyed D E s q hk)

theorem fresh_keyed (D : DbExt) {E : StoreExt} {s : LfsState} (h : Spec.FreshStore E s) : Keyed D s.metas := by
  intro k o n hk
  rw [h.1 k] at hk
  cases hk

/-- What a request does to the file of an oid. -/
theorem run_file (D : DbExt) (E : StoreExt) (s : LfsState) (q : LfsReq) (p : Bool × List Bytes) (c : Bytes) :
    ((q.run D E s).disk p = some (.file c) ↔ s.disk p = some (.file c)) ∨
    ∃ oid body o n, q = .upload oid body ∧ s.metas (D.fold oid) = some (o, n) ∧ storePath E o = .ok p ∧
      (∀ x, (q.run D E s).disk p = some x ↔ x = .file (body.take E.maxWrite)) ∧
      ((uploadObject D E s oid body).1 = .status 406 ∨ ((uploadObject D E s oid body).1 = .ok () ∧ E.digest body = o)) := by
  cases q with
  | batch op vs => exact .inl (processBatch_state D E s op vs).1.file
  | download oid =>
    refine .inl ?_
    simp only [LfsReq.run, downloadObject_state]
    exact (storeNew_grown E s.disk).file
  | upload oid body =>
    simp only [LfsReq.run]
    rcases uploadObject_cases D E s oid body with ⟨-, -, hg⟩ | ⟨o, sz, p', d1, hm, -, hp, hg, hnd, -, hd, hr⟩
    · exact .inl hg.file
    · by_cases e : p = p'
      · subst e
        refine .inr ⟨oid, body, o, sz, rfl, hm, hp, ?_, ?_⟩
        · intro x
          rw [hd, setAt_same, Option.some.injEq]
          exact eq_comm
        · rcases hr with ⟨h, -, -, h'⟩ | ⟨h, -⟩
          · exact .inr ⟨h, h'⟩
          · exact .inl h
      · refine .inl ?_
        rw [hd, setAt_other _ _ e, hg.file]
        exact (storeNew_grown E s.disk).file

/-- Directories stay. -/
theorem run_dir (D : DbExt) (E : StoreExt) (s : LfsState) (q : LfsReq) (p : Bool × List Bytes) (h : s.disk p = some .dir) :
    (q.run D E s).disk p = some .dir := by
  cases q with
  | batch op vs => exact (processBatch_state D E s op vs).1.dir h
  | download oid =>
    simp only [LfsReq.run, downloadObject_state]
    exact (storeNew_grown E s.disk).dir h
  | upload oid body =>
    simp only [LfsReq.run]
    rcases uploadObject_cases D E s oid body with ⟨-, -, hg⟩ | ⟨o, sz, p', d1, -, -, -, hg, hnd, -, hd, -⟩
    · exact hg.dir h
    · have h1 := hg.dir ((storeNew_grown E s.disk).dir h)
      rw [hd, setAt_other _ _ (by rintro rfl; exact hnd h1)]
      exact h1

theorem run_metas (D : DbExt) (E : StoreExt) (s : LfsState) (q : LfsReq) (k : Bytes) (row : Bytes × Int) (h : s.metas k = some row) :
    (q.run D E s).metas k = some row ∨ ∃ oid body, q = .upload oid body ∧ D.fold oid = k ∧ (uploadObject D E s oid body).1 = .status 406 := by
  cases q with
  | batch op vs =>
    rcases (processBatch_state D E s op vs).2.2 k with e | ⟨e, -⟩
    · exact .inl (e.trans h)
    · rw [e] at h; cases h
  | download oid =>
    simp only [LfsReq.run, downloadObject_state]
    exact .inl h
  | upload oid body =>
    simp only [LfsReq.run]
    rcases uploadObject_cases D E s oid body with ⟨-, e, -⟩ | ⟨o, sz, p', d1, -, -, -, -, -, -, -, ⟨-, e, -⟩ | ⟨h406, e, -⟩⟩
    · rw [e]; exact .inl h
    · rw [e]; exact .inl h
    · by_cases hk : k = D.fold oid
      · exact .inr ⟨oid, body, rfl, hk.symm, h406⟩
      · rw [e, setAt_other _ _ hk]; exact .inl h

/-! ## C44: downloads deliver what the oid promises -/

/-- **C44 (partial)** On a new server, after any history in which no upload for this oid was rejected (and no body was longer than one
write), a successful download delivers bytes whose digest is the oid. (Missing from the full claim: rejected uploads, after
which it is false.) -/
theorem C44_download_partial (D : DbExt) (E : StoreExt) (hD : Spec.CollationOk D) (hE : Spec.HexDigest E) (s0 : LfsState)
    (hs : Spec.FreshStore E s0) (h : List LfsReq)
    (hup : ∀ oid body, .upload oid body ∈ h → Spec.RouteOid oid ∧ body.length ≤ E.maxWrite) (oid : Bytes) (ho : Spec.RouteOid oid)
    (hrej : ∀ pre body post, h = pre ++ .upload oid body :: post → (uploadObject D E (runLfs D E s0 pre) oid body).1 ≠ .status 406)
    (c : Bytes) (hd : (downloadObject D E (runLfs D E s0 h) oid).1 = .ok c) : E.digest c = oid := by
  have inv : ∀ o p c, D.fold o = D.fold oid → storePath E o = .ok p → (runLfs D E s0 h).disk p = some (.file c) → E.digest c = o := by
    clear hd
    induction h using List.reverseRecOn with
    | nil =>
      intro o p c hf hp hc
      have hpl := hD o oid ho hf
      have hpath := storePath_plain E ⟨hpl.1, hpl.2.1, hpl.2.2.1⟩ hp
      have hnone := hs.2.1 p ⟨oidParts o, by unfold oidParts; split <;> simp, hpath⟩
      rw [show (runLfs D E s0 []).disk p = s0.disk p from rfl, hnone] at hc
      cases hc
    | append_singleton h q ih =>
      have ih := ih (fun o b hm => hup o b (List.mem_append_left _ hm))
        (fun pre body post e => hrej pre body (post ++ [q]) (by rw [e]; simp))
      intro o p c hf hp hc
      rw [runLfs_append] at hc
      have hc : (q.run D E (runLfs D E s0 h)).disk p = some (.file c) := hc
      rcases run_file D E (runLfs D E s0 h) q p c with e | ⟨oid', body, o', n, rfl, hm, hp', hx, hr⟩
      · exact ih o p c hf hp (e.1 hc)
      · obtain ⟨hro, hlen⟩ := hup oid' body (by simp)
        have hk := runLfs_keyed D E s0 h (fresh_keyed D hs) _ _ _ hm
        have hpl := hD o oid ho hf
        have hpl' := hD o' oid' hro hk
        have heq : o' = o := storePath_inj E ⟨hpl'.1, hpl'.2.1, hpl'.2.2.1⟩ ⟨hpl.1, hpl.2.1, hpl.2.2.1⟩ hp' hp
        subst heq
        have hoid : oid' = oid := (hD oid' oid ho (hk.symm.trans hf)).2.2.2 hro
        subst hoid
        rcases hr with hr | ⟨-, hr⟩
        · exact absurd hr (hrej h body [] rfl)
        · have := (hx _).1 hc
          cases this
          rw [List.take_of_length_le hlen]
          exact hr
  have hkey := runLfs_keyed D E s0 h (fresh_keyed D hs)
  unfold downloadObject at hd
  have hg := storeNew_grown E (runLfs D E s0 h).disk
  cases hn : storeNew E (runLfs D E s0 h).disk with
  | mk d ok =>
    rw [hn] at hd hg
    cases ok with
    | false => simp at hd
    | true =>
      simp only [Bool.not_true, Bool.false_eq_true, if_false, lfsGetMeta] at hd
      cases hm : (runLfs D E s0 h).metas (D.fold oid) with
      | none => rw [hm] at hd; cases hd
      | some row =>
        obtain ⟨o, n⟩ := row
        rw [hm] at hd
        simp only [storeGet] at hd
        cases hp : storePath E o with
        | ok p =>
          rw [hp] at hd
          simp only [Res.bind_ok] at hd
          cases hf : d p with
          | none => rw [hf] at hd; simp [Res.toReply] at hd
          | some x =>
            cases x with
            | dir => rw [hf] at hd; simp [Res.toReply] at hd
            | file c' =>
              rw [hf] at hd
              simp only [Res.pure_eq, Res.toReply, Reply.ok.injEq] at hd
              subst hd
              have hfold := hkey _ _ _ hm
              have hdig := inv o p c' hfold hp (hg.file.1 hf)
              have hr : Spec.RouteOid o := hdig ▸ hexDigest_route hE c'
              rw [hdig]
              exact (hD o oid ho hfold).2.2.2 hr
        | err e => rw [hp] at hd; simp [Res.toReply] at hd
        | panic => rw [hp] at hd; simp [Res.toReply] at hd
        | spin => rw [hp] at hd; simp [Res.toReply] at hd

/-- The oid of `"right"` for the stand-in digest. -/
def rightOid : Bytes := demoStore.digest (ascii "right")

/-- A history with an accepted upload of one object and a rejected upload for another one. -/
def mixedHistory : List LfsReq :=
  [.batch (ascii "upload") [{ oid := rightOid, size := 5 }, { oid := ascii "abcdef", size := 3 }], .upload rightOid (ascii "right"),
   .upload (ascii "abcdef") (ascii "xyz")]

example : (downloadObject lowerDb demoStore (runLfs lowerDb demoStore freshLfs mixedHistory) rightOid).1 = .ok (ascii "right") := by
  decide +kernel

/-- **C44 is false**: announce an object, upload wrong bytes (answered 406), announce it again; now the wrong bytes are offered and
delivered. -/
theorem C44_download_false : ∃ (h : List LfsReq) (oid c : Bytes), Spec.RouteOid oid ∧
    (downloadObject exactDb demoStore (runLfs exactDb demoStore freshLfs h) oid).1 = .ok c ∧ demoStore.digest c ≠ oid := by
  refine ⟨[.batch (ascii "upload") [{ oid := rightOid, size := 5 }], .upload rightOid (ascii "wrong"),
    .batch (ascii "upload") [{ oid := rightOid, size := 5 }]], rightOid, ascii "wrong", ?_, ?_, ?_⟩
  · exact hexDigest_route demoStore_digest _
  · decide +kernel
  · decide +kernel

/-! ## C45: an accepted upload can be downloaded -/

theorem downloadObject_ok (D : DbExt) (E : StoreExt) (s : LfsState) (oid o : Bytes) (n : Int) (p : Bool × List Bytes) (c : Bytes)
    (hn : (storeNew E s.disk).2 = true) (hm : s.metas (D.fold oid) = some (o, n)) (hp : storePath E o = .ok p)
    (hd : s.disk p = some (.file c)) : (downloadObject D E s oid).1 = .ok c := by
  have hg := storeNew_grown E s.disk
  unfold downloadObject lfsGetMeta storeGet
  cases hs : storeNew E s.disk with
  | mk d ok =>
    rw [hs] at hn hg
    have hn : ok = true := hn
    subst hn
    have hdp : d p = some (.file c) := hg.file.2 hd
    simp only [Bool.not_true, Bool.false_eq_true, if_false, hm, hp, Res.bind_ok, hdp]
    rfl

/-- **C45 (partial)** After an accepted upload of at most one write's length, and any further requests except uploads for the same
oid, a download delivers exactly the uploaded bytes. (Missing from the full claim: longer bodies, for which it is false.) -/
theorem C45_upload_download_partial (D : DbExt) (E : StoreExt) (hD : Spec.CollationOk D) (hE : Spec.HexDigest E) (s0 : LfsState)
    (hs : Spec.FreshStore E s0) (h1 h2 : List LfsReq) (oid body : Bytes) (ho : Spec.RouteOid oid) (hlen : body.length ≤ E.maxWrite)
    (hacc : (uploadObject D E (runLfs D E s0 h1) oid body).1 = .ok ())
    (hup : ∀ oid' body', .upload oid' body' ∈ h2 → Spec.RouteOid oid' ∧ oid' ≠ oid) :
    (downloadObject D E (runLfs D E s0 (h1 ++ .upload oid body :: h2)) oid).1 = .ok body := by
  have hkey := runLfs_keyed D E s0 h1 (fresh_keyed D hs)
  have hpath := storePath_ascii E (routeOid_plain ho) (routeOid_ascii ho)
  generalize hs1 : runLfs D E s0 h1 = s1 at *
  -- after the upload
  have hafter : ∃ n, Keyed D (uploadObject D E s1 oid body).2.metas ∧ (uploadObject D E s1 oid body).2.metas (D.fold oid) = some (oid, n) ∧
      (uploadObject D E s1 oid body).2.disk ((components E.base).1, (components E.base).2 ++ oidParts oid) = some (.file body) ∧
      ∀ k < (components E.base).2.length, (uploadObject D E s1 oid body).2.disk ((components E.base).1, (components E.base).2.take (k + 1)) = some .dir := by
    have hk' := run_keyed D E s1 (.upload oid body) hkey
    rcases uploadObject_cases D E s1 oid body with ⟨e, -⟩ | ⟨o, sz, p, d1, hm, hnew, hp, hg, hnd, -, hd, ⟨-, e, -, hdig⟩ | ⟨e, -⟩⟩
    · rw [e] at hacc; cases hacc
    · have hr : Spec.RouteOid o := hdig ▸ hexDigest_route hE body
      have : o = oid := (hD o oid ho (hkey _ _ _ hm)).2.2.2 hr
      subst this
      have hpe : p = ((components E.base).1, (components E.base).2 ++ oidParts o) := by
        rw [hpath] at hp; cases hp; rfl
      refine ⟨sz, hk', by rw [e]; exact hm, by rw [hd, ← hpe, setAt_same, List.take_of_length_le hlen], ?_⟩
      intro k hk
      have h1 : (storeNew E s1.disk).1 ((components E.base).1, (components E.base).2.take (k + 1)) = some .dir :=
        mkdirs_dirs _ _ [] _ hnew k hk
      have h2 := hg.dir h1
      rw [hd, setAt_other _ _ (by intro e; rw [e] at h2; exact hnd h2)]
      exact h2
    · rw [e] at hacc; cases hacc
  -- afterwards
  have hinv : ∀ s, (∃ n, Keyed D s.metas ∧ s.metas (D.fold oid) = some (oid, n) ∧
      s.disk ((components E.base).1, (components E.base).2 ++ oidParts oid) = some (.file body) ∧
      ∀ k < (components E.base).2.length, s.disk ((components E.base).1, (components E.base).2.take (k + 1)) = some .dir) →
      ∃ n, Keyed D (runLfs D E s h2).metas ∧ (runLfs D E s h2).metas (D.fold oid) = some (oid, n) ∧
      (runLfs D E s h2).disk ((components E.base).1, (components E.base).2 ++ oidParts oid) = some (.file body) ∧
      ∀ k < (components E.base).2.length, (runLfs D E s h2).disk ((components E.base).1, (components E.base).2.take (k + 1)) = some .dir := by
    induction h2 with
    | nil => exact fun s h => h
    | cons q h2 ih =>
      rintro s ⟨n, hk, hm, hf, hdir⟩
      refine ih (fun a b hab => hup a b (List.mem_cons_of_mem _ hab)) _ ⟨n, run_keyed D E s q hk, ?_, ?_, fun k hk => run_dir D E s q _ (hdir k hk)⟩
      · rcases run_metas D E s q _ _ hm with h | ⟨oid', body', rfl, hfold, -⟩
        · exact h
        · obtain ⟨hr, hne⟩ := hup oid' body' (by simp)
          exact absurd ((hD oid' oid ho hfold).2.2.2 hr) hne
      · rcases run_file D E s q ((components E.base).1, (components E.base).2 ++ oidParts oid) body with h | ⟨oid', body', o, n', rfl, hm', hp', -⟩
        · exact h.2 hf
        · obtain ⟨hr, hne⟩ := hup oid' body' (by simp)
          have hfold := hk _ _ _ hm'
          have hpl := hD o oid' hr hfold
          have : o = oid := storePath_inj E ⟨hpl.1, hpl.2.1, hpl.2.2.1⟩ (routeOid_plain ho) hp' hpath
          subst this
          exact absurd (hpl.2.2.2 ho).symm hne
  have hrun : runLfs D E s0 (h1 ++ .upload oid body :: h2) = runLfs D E (uploadObject D E s1 oid body).2 h2 := by
    rw [runLfs_append, hs1]; rfl
  rw [hrun]
  obtain ⟨n, -, hm, hf, hdir⟩ := hinv _ hafter
  refine downloadObject_ok D E _ oid oid n _ body ?_ hm hpath hf
  refine mkdirs_ok _ _ _ _ ?_
  intro k hk c
  rw [List.nil_append, hdir k hk]
  simp

example : (uploadObject lowerDb demoStore (runLfs lowerDb demoStore freshLfs (mixedHistory.take 1)) rightOid (ascii "right")).1 = .ok () := by
  decide +kernel

/-- **C45 is false** for bodies longer than one `write`, when the announced size is the length of one write: the upload is accepted and the
download is cut short. (Shown for a system with short writes; on Linux one write takes 2147479552 bytes.) -/
theorem C45_upload_download_false : ∃ (E : StoreExt) (h : List LfsReq) (oid body : Bytes), Spec.HexDigest E ∧ Spec.RouteOid oid ∧
    (uploadObject exactDb E (runLfs exactDb E freshLfs h) oid body).1 = .ok () ∧
    ∃ c, (downloadObject exactDb E (runLfs exactDb E freshLfs (h ++ [.upload oid body])) oid).1 = .ok c ∧ c ≠ body := by
  refine ⟨{ demoStore with maxWrite := 3 }, [.batch (ascii "upload") [{ oid := rightOid, size := 3 }]], rightOid, ascii "right",
    demoStore_digest, hexDigest_route demoStore_digest _, by decide +kernel, ascii "rig", by decide +kernel, by decide +kernel⟩

/-! ## C47: the batch response -/

/-- What an entry must be, given the row of the object and whether content for the row's oid is on disk. -/
def Spec.entryFor (E : StoreExt) (upload : Bool) (v : RequestVars) (row : Option (Bytes × Int)) (present : Bytes → Bool) : Rep :=
  match row with
  | some (o, n) =>
    if present o then { oid := o, size := n, offer := .download (internalLink E.origin v) }
    else if upload then { oid := o, size := n, offer := .upload (internalLink E.origin v) }
    else { oid := v.oid, size := v.size, offer := .error 404 }
  | none =>
    if upload then { oid := v.oid, size := v.size, offer := .upload (internalLink E.origin v) }
    else { oid := v.oid, size := v.size, offer := .error 404 }

/-- Is there something at the path of this oid? -/
def Spec.present (E : StoreExt) (disk : Disk) (o : Bytes) : Bool :=
  match storePath E o with
  | .ok p => (disk p).isSome
  | _ => false

theorem batchOne_spec (D : DbExt) (E : StoreExt) (disk : Disk) (m : MetaTable) (upload : Bool) (v : RequestVars) (r : Rep)
    (h : (batchOne D E disk m upload v).1 = .ok r) : r = Spec.entryFor E upload v (m (D.fold v.oid)) (Spec.present E disk) := by
  unfold batchOne lfsGetMeta lfsPutMeta at h
  unfold Spec.entryFor
  simp only at h
  cases hm : m (D.fold v.oid) with
  | none =>
    simp only [hm] at h
    cases upload with
    | false => simp only [Bool.false_eq_true, if_false, Res.ok.injEq] at h ⊢; exact h.symm
    | true =>
      simp only [if_true] at h ⊢
      by_cases hf : D.metaFits v.oid v.size = true
      · rw [if_pos hf] at h; simp only [Res.ok.injEq] at h; exact h.symm
      · rw [if_neg hf] at h; cases h
  | some row =>
    obtain ⟨o, n⟩ := row
    simp only [hm] at h
    unfold storeExist at h
    simp only
    cases hp : storePath E o with
    | ok p =>
      rw [hp] at h
      simp only [Res.bind_ok, Res.pure_eq] at h
      have hpres : Spec.present E disk o = (disk p).isSome := by unfold Spec.present; rw [hp]
      cases hd : (disk p).isSome with
      | true =>
        rw [hd] at h hpres
        simp only [Res.ok.injEq] at h
        rw [hpres, if_pos rfl]
        exact h.symm
      | false =>
        rw [hd] at h hpres
        rw [hpres, if_neg (by simp)]
        cases upload with
        | true => simp only [if_true, Res.ok.injEq] at h ⊢; exact h.symm
        | false => simp only [Bool.false_eq_true, if_false, Res.ok.injEq] at h ⊢; exact h.symm
    | err e => rw [hp] at h; simp at h
    | panic => rw [hp] at h; simp at h
    | spin => rw [hp] at h; simp at h

theorem batchOne_meta (D : DbExt) (E : StoreExt) (disk : Disk) (m : MetaTable) (upload : Bool) (v : RequestVars) (r : Rep)
    (h : (batchOne D E disk m upload v).1 = .ok r) (k : Bytes) :
    (batchOne D E disk m upload v).2 k =
      (match m k with | some row => some row | none => if upload ∧ D.fold v.oid = k then some (v.oid, v.size) else none) := by
  unfold batchOne lfsGetMeta lfsPutMeta at h ⊢
  simp only at h ⊢
  cases hm : m (D.fold v.oid) with
  | none =>
    simp only [hm] at h ⊢
    cases upload with
    | false => simp only [Bool.false_eq_true, if_false, false_and]; cases m k <;> rfl
    | true =>
      simp only [if_true, true_and] at h ⊢
      by_cases hf : D.metaFits v.oid v.size = true
      · rw [if_pos hf]
        simp only [setAt_eq]
        by_cases hk : k = D.fold v.oid
        · subst hk; simp [hm]
        · rw [if_neg hk, if_neg (Ne.symm hk)]; cases m k <;> rfl
      · rw [if_neg hf] at h; cases h
  | some row =>
    simp only [hm] at h ⊢
    have hk' : ∀ k, m k = (match m k with | some row => some row | none => if upload ∧ D.fold v.oid = k then some (v.oid, v.size) else none) := by
      intro k
      cases hmk : m k with
      | some x => rfl
      | none =>
        simp only
        rw [if_neg]
        rintro ⟨-, rfl⟩
        rw [hm] at hmk; cases hmk
    split
    · exact hk' k
    · cases upload
      · exact hk' k
      · exact hk' k
    · exact hk' k

theorem rowFor_cons (D : DbExt) (m0 m1 : MetaTable) (upload : Bool) (v : RequestVars) (earlier : List RequestVars) (oid : Bytes)
    (h : ∀ k, m1 k = (match m0 k with | some row => some row | none => if upload ∧ D.fold v.oid = k then some (v.oid, v.size) else none)) :
    Spec.rowFor D m1 upload earlier oid = Spec.rowFor D m0 upload (v :: earlier) oid := by
  unfold Spec.rowFor
  rw [h]
  cases m0 (D.fold oid) with
  | some row => rfl
  | none =>
    simp only
    cases upload with
    | false => simp
    | true =>
      by_cases e : D.fold v.oid = D.fold oid
      · simp [e]
      · simp [e]

theorem batchLoop_spec (D : DbExt) (E : StoreExt) (disk : Disk) (upload : Bool) : ∀ (vs : List RequestVars) (m : MetaTable) (rs : List Rep),
    (batchLoop D E disk upload vs m).1 = .ok rs →
    rs.length = vs.length ∧ ∀ (j : Nat) (v : RequestVars) (r : Rep), vs[j]? = some v → rs[j]? = some r →
      r = Spec.entryFor E upload v (Spec.rowFor D m upload (vs.take j) v.oid) (Spec.present E disk)
  | [], m, rs, h => by
    rw [batchLoop] at h
    cases h
    exact ⟨rfl, by simp⟩
  | v :: vs, m, rs, h => by
    rw [batchLoop] at h
    cases hb : batchOne D E disk m upload v with
    | mk x m1 =>
      rw [hb] at h
      cases x with
      | ok r =>
        simp only at h
        have h1 := batchOne_spec D E disk m upload v r (by rw [hb])
        have h2 := batchOne_meta D E disk m upload v r (by rw [hb])
        rw [hb] at h2
        cases hl : batchLoop D E disk upload vs m1 with
        | mk y m2 =>
          rw [hl] at h
          cases y with
          | ok rs' =>
            simp only [Res.ok.injEq] at h
            subst h
            obtain ⟨h3, h4⟩ := batchLoop_spec D E disk upload vs m1 rs' (by rw [hl])
            refine ⟨by simp [h3], ?_⟩
            intro j w r' hw hr
            cases j with
            | zero =>
              simp only [List.getElem?_cons_zero, Option.some.injEq] at hw hr
              subst hw hr
              rw [h1]
              simp only [List.take_zero, Spec.rowFor, List.find?_nil, Option.map_none]
              cases m (D.fold v.oid) <;> simp
            | succ j =>
              simp only [List.getElem?_cons_succ] at hw hr
              rw [h4 j w r' hw hr, rowFor_cons D m m1 upload v (vs.take j) w.oid h2, List.take_succ_cons]
          | err e => cases h
          | panic => cases h
          | spin => cases h
      | err e => cases h
      | panic => cases h
      | spin => cases h

theorem processBatch_ok (D : DbExt) (E : StoreExt) (s : LfsState) (op : Bytes) (vs : List RequestVars) (rs : List Rep)
    (h : (processBatch D E s op vs).1 = .ok rs) :
    (batchLoop D E (storeNew E s.disk).1 (op == ascii "upload") vs s.metas).1 = .ok rs := by
  unfold processBatch at h
  cases hn : storeNew E s.disk with
  | mk d ok =>
    rw [hn] at h
    cases ok with
    | false => cases h
    | true =>
      simp only [Bool.not_true, Bool.false_eq_true, if_false] at h
      show (batchLoop D E d (op == ascii "upload") vs s.metas).1 = .ok rs
      cases hl : (batchLoop D E d (op == ascii "upload") vs s.metas).1 with
      | ok x => rw [hl] at h; cases h; rfl
      | err e => rw [hl] at h; cases h
      | panic => rw [hl] at h; cases h
      | spin => rw [hl] at h; cases h

/-- **C47** The response has one entry per object, in request order, and each entry is determined by the metadata row of the object (the
row before the request; or, in an upload batch, the one an earlier object of the same batch has just recorded) and by whether
there is content on disk: download if both are there; otherwise upload if the operation is `upload`; otherwise error 404. -/
theorem C47_batch (D : DbExt) (E : StoreExt) (s : LfsState) (op : Bytes) (vs : List RequestVars) (rs : List Rep)
    (h : (processBatch D E s op vs).1 = .ok rs) :
    rs.length = vs.length ∧ ∀ (j : Nat) (v : RequestVars) (r : Rep), vs[j]? = some v → rs[j]? = some r →
      r = Spec.entryFor E (op == ascii "upload") v (Spec.rowFor D s.metas (op == ascii "upload") (vs.take j) v.oid)
        (Spec.present E (storeNew E s.disk).1) :=
  batchLoop_spec D E _ _ vs s.metas rs (processBatch_ok D E s op vs rs h)

/-- What the creation of the content directory can change about the presence of objects: nothing, for routed oids, when the server has been
used before or the content directory is below a plain path. -/
theorem present_new (E : StoreExt) (d : Disk) (o : Bytes) (ho : Plain o) : Spec.present E (storeNew E d).1 o = Spec.present E d o := by
  unfold Spec.present
  cases hp : storePath E o with
  | ok p =>
    have hpe := storePath_plain E ho hp
    simp only
    rcases mkdirs_only (components E.base).1 (components E.base).2 [] d p with h | ⟨k, hk, h⟩
    · rw [storeNew, h]
    · rw [hpe, List.nil_append, Prod.mk.injEq] at h
      have := congrArg List.length h.2
      rw [List.length_append, List.length_take] at this
      have hne : 0 < (oidParts o).length := by unfold oidParts; split <;> simp
      omega
  | err e => rfl
  | panic => rfl
  | spin => rfl

/-- **C47** For a batch without repeated oids, all routed, on a store whose rows were recorded by requests: each entry offers a download exactly
when the object has metadata and content, an upload exactly when it does not and the operation is `upload`, and an error 404 otherwise. -/
theorem C47_offers (D : DbExt) (E : StoreExt) (hD : Spec.CollationOk D) (s0 : LfsState) (hs : Spec.FreshStore E s0) (h : List LfsReq)
    (op : Bytes) (vs : List RequestVars) (hr : ∀ v ∈ vs, Spec.RouteOid v.oid) (hnd : (vs.map (·.oid)).Nodup) (rs : List Rep)
    (hb : (processBatch D E (runLfs D E s0 h) op vs).1 = .ok rs) (j : Nat) (v : RequestVars) (r : Rep) (hv : vs[j]? = some v) (hrj : rs[j]? = some r) :
    ((∃ l, r.offer = .download l) ↔
      ∃ o n, (runLfs D E s0 h).metas (D.fold v.oid) = some (o, n) ∧ Spec.present E (runLfs D E s0 h).disk o = true) ∧
    ((∃ l, r.offer = .upload l) ↔ op = ascii "upload" ∧
      ¬ ∃ o n, (runLfs D E s0 h).metas (D.fold v.oid) = some (o, n) ∧ Spec.present E (runLfs D E s0 h).disk o = true) ∧
    (r.offer = .error 404 ↔ op ≠ ascii "upload" ∧
      ¬ ∃ o n, (runLfs D E s0 h).metas (D.fold v.oid) = some (o, n) ∧ Spec.present E (runLfs D E s0 h).disk o = true) := by
  have hkey := runLfs_keyed D E s0 h (fresh_keyed D hs)
  generalize runLfs D E s0 h = s at *
  have hspec := (C47_batch D E s op vs rs hb).2 j v r hv hrj
  have hvm : v ∈ vs := List.mem_of_getElem? hv
  have hfirst : (vs.take j).find? (fun w => D.fold w.oid == D.fold v.oid) = none := by
    rw [List.find?_eq_none]
    intro w hw
    simp only [beq_iff_eq]
    intro e
    have hwm := List.mem_of_mem_take hw
    have heq : w.oid = v.oid := (hD w.oid v.oid (hr v hvm) e).2.2.2 (hr w hwm)
    obtain ⟨i, hi⟩ := List.mem_iff_getElem?.1 hw
    have hij : i < j := by
      by_contra hc
      rw [List.getElem?_take, if_neg hc] at hi
      cases hi
    rw [List.getElem?_take, if_pos hij] at hi
    have h1 : (vs.map (·.oid))[i]? = some v.oid := by rw [List.getElem?_map, hi]; simp [heq]
    have h2 : (vs.map (·.oid))[j]? = some v.oid := by rw [List.getElem?_map, hv]; rfl
    have hil : i < (vs.map (·.oid)).length := (List.getElem?_eq_some_iff.1 h1).1
    have := (List.getElem?_inj hil hnd).1 (h1.trans h2.symm)
    omega
  have hrow : Spec.rowFor D s.metas (op == ascii "upload") (vs.take j) v.oid = s.metas (D.fold v.oid) := by
    unfold Spec.rowFor
    rw [hfirst]
    cases s.metas (D.fold v.oid) <;> simp
  rw [hrow] at hspec
  subst hspec
  cases hm : s.metas (D.fold v.oid) with
  | none =>
    by_cases hop : op = ascii "upload"
    · subst hop; simp [Spec.entryFor]
    · simp [Spec.entryFor, hop]
  | some row =>
    obtain ⟨o, n⟩ := row
    have hpl := hD o v.oid (hr v hvm) (hkey _ _ _ hm)
    rw [Spec.entryFor, present_new E s.disk o ⟨hpl.1, hpl.2.1, hpl.2.2.1⟩]
    cases hpr : Spec.present E s.disk o with
    | true => simp [hpr]
    | false =>
      by_cases hop : op = ascii "upload"
      · subst hop; simp [hpr]
      · simp [hop, hpr]

/-- One object present, one announced but not uploaded, one unknown. -/
example : ∃ rs, (processBatch lowerDb demoStore (runLfs lowerDb demoStore freshLfs (mixedHistory.take 2)) (ascii "download")
    [{ oid := rightOid, size := 1 }, { oid := ascii "abcdef", size := 3 }, { oid := ascii "xyz", size := 9 }]).1 = .ok rs ∧
    rs.map (·.offer) = [.download (ascii "http://host/objects/" ++ rightOid), .error 404, .error 404] ∧ rs.map (·.size) = [5, 3, 9] :=
  ⟨[{ oid := rightOid, size := 5, offer := .download (ascii "http://host/objects/" ++ rightOid) },
    { oid := ascii "abcdef", size := 3, offer := .error 404 }, { oid := ascii "xyz", size := 9, offer := .error 404 }],
   by decide +kernel, by decide, by decide⟩

/-! ## C68: correct uploads are accepted -/

/-- Nothing but directories above the files, nothing but files at their depth. -/
def Shape (E : StoreExt) (d : Disk) : Prop :=
  (∀ k c, d ((components E.base).1, (components E.base).2.take k) ≠ some (.file c)) ∧
  (∀ tl : List Bytes, tl.length ≤ 2 → ∀ c, d ((components E.base).1, (components E.base).2 ++ tl) ≠ some (.file c)) ∧
  ∀ tl : List Bytes, tl.length = 3 → d ((components E.base).1, (components E.base).2 ++ tl) ≠ some .dir

theorem shape_grown {E : StoreExt} {d d' : Disk} (h : Shape E d) (hg : Grown d d')
    (hnew : ∀ q, d' q = d q ∨ q.2.length ≤ (components E.base).2.length + 2) : Shape E d' := by
  refine ⟨fun k c e => h.1 k c (hg.file.1 e), fun tl htl c e => h.2.1 tl htl c (hg.file.1 e), fun tl htl e => ?_⟩
  rcases hnew ((components E.base).1, (components E.base).2 ++ tl) with e' | e'
  · exact h.2.2 tl htl (e' ▸ e)
  · simp only [List.length_append] at e'
    omega

theorem storeNew_short (E : StoreExt) (d : Disk) (q : Bool × List Bytes) :
    (storeNew E d).1 q = d q ∨ q.2.length ≤ (components E.base).2.length + 2 := by
  rcases mkdirs_only (components E.base).1 (components E.base).2 [] d q with h | ⟨k, hk, rfl⟩
  · exact .inl h
  · refine .inr ?_
    simp only [List.nil_append, List.length_take]
    omega

theorem storeNew_ok {E : StoreExt} {d : Disk} (h : Shape E d) : (storeNew E d).2 = true :=
  mkdirs_ok _ _ _ _ (fun k _ c => by rw [List.nil_append]; exact h.1 (k + 1) c)

theorem oidParts_long {o : Bytes} (h : 5 ≤ o.length) : ∃ a b c, oidParts o = [a, b, c] := by
  unfold oidParts
  rw [if_neg (by omega)]
  exact ⟨_, _, _, rfl⟩

/-- All rows have long oids. -/
def LongRows (m : MetaTable) : Prop := ∀ k o n, m k = some (o, n) → 5 ≤ o.length

/-- A request announces no short oids and uploads only to routed ones. -/
def Spec.LongOids : LfsReq → Prop
  | .batch _ vs => ∀ v ∈ vs, 5 ≤ v.oid.length
  | .upload oid _ => Spec.RouteOid oid
  | .download _ => True

theorem run_shape (D : DbExt) (E : StoreExt) (hD : Spec.CollationOk D) (s : LfsState) (q : LfsReq) (hq : Spec.LongOids q)
    (hk : Keyed D s.metas) (hl : LongRows s.metas) (hs : Shape E s.disk) :
    LongRows (q.run D E s).metas ∧ Shape E (q.run D E s).disk := by
  cases q with
  | batch op vs =>
    obtain ⟨h1, h2, h3⟩ := processBatch_state D E s op vs
    refine ⟨fun k o n e => ?_, shape_grown hs h1 (fun q => ?_)⟩
    · rcases h3 k with e' | ⟨-, v, hv, -, e'⟩
      · exact hl k o n (e' ▸ e)
      · have e : (processBatch D E s op vs).2.metas k = some (o, n) := e
        rw [e'] at e
        cases e
        exact hq v hv
    · show (processBatch D E s op vs).2.disk q = _ ∨ _
      rw [h2]
      exact storeNew_short E s.disk q
  | download oid =>
    simp only [LfsReq.run, downloadObject_state]
    exact ⟨hl, shape_grown hs (storeNew_grown E s.disk) (storeNew_short E s.disk)⟩
  | upload oid body =>
    simp only [LfsReq.run]
    have hs0 : Shape E (storeNew E s.disk).1 := shape_grown hs (storeNew_grown E s.disk) (storeNew_short E s.disk)
    have hrows : ∀ m', (m' = s.metas ∨ m' = setAt s.metas (D.fold oid) none) → LongRows m' := by
      rintro m' (rfl | rfl)
      · exact hl
      · intro k o n e
        rw [setAt_eq] at e
        split at e
        · cases e
        · exact hl k o n e
    rcases uploadObject_cases' D E s oid body with ⟨-, e, hsh⟩ | ⟨o, sz, p, d1, hm, -, hp, hg, -, hq', hd, hr⟩
    · refine ⟨hrows _ (.inl e), ?_⟩
      rcases hsh with e1 | ⟨o, n, p, hm, hp, e1⟩
      · rw [e1]; exact hs0
      · have hpl := hD o oid hq (hk _ _ _ hm)
        have hpe := storePath_plain E ⟨hpl.1, hpl.2.1, hpl.2.2.1⟩ hp
        obtain ⟨a, b, c, habc⟩ := oidParts_long (hl _ _ _ hm)
        rw [e1]
        refine shape_grown hs0 (mkdirs_grown _ _ _ _) (fun q => ?_)
        rcases mkdirs_only p.1 p.2.dropLast [] (storeNew E s.disk).1 q with h | ⟨k, hk', rfl⟩
        · exact .inl h
        · refine .inr ?_
          rw [hpe, habc] at hk' ⊢
          simp only [List.nil_append, List.length_take, List.length_dropLast, List.length_append, List.length_cons, List.length_nil] at hk' ⊢
          omega
    · have hpl := hD o oid hq (hk _ _ _ hm)
      have hpe := storePath_plain E ⟨hpl.1, hpl.2.1, hpl.2.2.1⟩ hp
      obtain ⟨a, b, c, habc⟩ := oidParts_long (hl _ _ _ hm)
      have hs1 : Shape E d1 := by
        refine shape_grown hs0 hg (fun q => ?_)
        rcases hq' q with h | ⟨k, hk', rfl⟩
        · exact .inl h
        · refine .inr ?_
          rw [hpe, habc] at hk' ⊢
          simp only [List.length_take, List.length_dropLast, List.length_append, List.length_cons, List.length_nil] at hk' ⊢
          omega
      refine ⟨hrows _ ?_, ?_⟩
      · rcases hr with ⟨-, e, -⟩ | ⟨-, e, -⟩
        · exact .inl e
        · exact .inr e
      · rw [hd, hpe, habc]
        refine ⟨fun k c' => ?_, fun tl htl c' => ?_, fun tl htl => ?_⟩
        · rw [setAt_other]
          · exact hs1.1 k c'
          · intro e
            rw [Prod.mk.injEq] at e
            have := congrArg List.length e.2
            simp only [List.length_take, List.length_append, List.length_cons, List.length_nil] at this
            omega
        · rw [setAt_other]
          · exact hs1.2.1 tl htl c'
          · intro e
            rw [Prod.mk.injEq] at e
            have := congrArg List.length e.2
            simp only [List.length_append, List.length_cons, List.length_nil] at this
            omega
        · rw [setAt_eq]
          split
          · simp
          · exact hs1.2.2 tl htl

theorem fresh_shape {E : StoreExt} {s : LfsState} (h : Spec.FreshStore E s) : Shape E s.disk := by
  refine ⟨fun k c => h.2.2 _ c ⟨rfl, List.take_prefix _ _⟩, fun tl htl c e => ?_, fun tl htl e => ?_⟩
  · cases tl with
    | nil =>
      rw [List.append_nil] at e
      exact h.2.2 _ c ⟨rfl, List.prefix_rfl⟩ e
    | cons a tl =>
      rw [h.2.1 _ ⟨a :: tl, by simp, rfl⟩] at e
      cases e
  · rw [h.2.1 _ ⟨tl, by rintro rfl; simp at htl, rfl⟩] at e
    cases e

theorem runLfs_shape (D : DbExt) (E : StoreExt) (hD : Spec.CollationOk D) (s0 : LfsState) (hs : Spec.FreshStore E s0) (h : List LfsReq)
    (hq : ∀ q ∈ h, Spec.LongOids q) : LongRows (runLfs D E s0 h).metas ∧ Shape E (runLfs D E s0 h).disk := by
  induction h using List.reverseRecOn with
  | nil =>
    refine ⟨fun k o n e => ?_, fresh_shape hs⟩
    have e : s0.metas k = some (o, n) := e
    rw [hs.1 k] at e
    cases e
  | append_singleton h q ih =>
    obtain ⟨h1, h2⟩ := ih (fun q hq' => hq q (List.mem_append_left _ hq'))
    rw [runLfs_append]
    exact run_shape D E hD _ q (hq q (by simp)) (runLfs_keyed D E s0 h (fresh_keyed D hs)) h1 h2

/-- **C68 (partial)** On a new server, after any history that announces only oids of at least five characters, an upload of the right bytes for an
oid that is on record with the right size is accepted. (Missing from the full claim: shorter oids and wrong sizes announced earlier, for which it is false.) -/
theorem C68_upload_accepted_partial (D : DbExt) (E : StoreExt) (hD : Spec.CollationOk D) (s0 : LfsState) (hs : Spec.FreshStore E s0)
    (h : List LfsReq) (hq : ∀ q ∈ h, Spec.LongOids q) (oid body : Bytes) (ho : Spec.RouteOid oid)
    (hm : (runLfs D E s0 h).metas (D.fold oid) = some (oid, (body.length : Int))) (hdig : E.digest body = oid)
    (hlen : body.length ≤ E.maxWrite) : (uploadObject D E (runLfs D E s0 h) oid body).1 = .ok () := by
  obtain ⟨hl, hsh⟩ := runLfs_shape D E hD s0 hs h hq
  generalize runLfs D E s0 h = s at *
  have hs0 : Shape E (storeNew E s.disk).1 := shape_grown hsh (storeNew_grown E s.disk) (storeNew_short E s.disk)
  have hnew := storeNew_ok hsh
  have hp := storePath_ascii E (routeOid_plain ho) (routeOid_ascii ho)
  obtain ⟨a, b, c, habc⟩ := oidParts_long (hl _ _ _ hm)
  rw [habc] at hp
  unfold uploadObject lfsGetMeta
  cases hn : storeNew E s.disk with
  | mk d ok =>
    rw [hn] at hs0 hnew
    have hnew : ok = true := hnew
    subst hnew
    simp only [Bool.not_true, Bool.false_eq_true, if_false, hm]
    have hdl : (((components E.base).2 ++ [a, b, c])).dropLast = (components E.base).2 ++ [a, b] := by
      rw [List.dropLast_append_of_ne_nil (by simp)]; rfl
    have hmk : (mkdirs (components E.base).1 d [] ((components E.base).2 ++ [a, b])).2 = true := by
      refine mkdirs_ok _ _ _ _ (fun k hk c' => ?_)
      rw [List.nil_append]
      by_cases hkl : k + 1 ≤ (components E.base).2.length
      · rw [List.take_append_of_le_length hkl]
        exact hs0.1 _ c'
      · rw [List.take_append, List.take_of_length_le (by omega)]
        exact hs0.2.1 _ (by simp) c'
    have hdir : (mkdirs (components E.base).1 d [] ((components E.base).2 ++ [a, b])).1 ((components E.base).1, (components E.base).2 ++ [a, b, c]) ≠ some .dir := by
      have hsh1 : Shape E (mkdirs (components E.base).1 d [] ((components E.base).2 ++ [a, b])).1 := by
        refine shape_grown hs0 (mkdirs_grown _ _ _ _) (fun q => ?_)
        rcases mkdirs_only (components E.base).1 ((components E.base).2 ++ [a, b]) [] d q with h | ⟨k, hk', rfl⟩
        · exact .inl h
        · refine .inr ?_
          simp only [List.nil_append, List.length_take, List.length_append, List.length_cons, List.length_nil]
          omega
      exact hsh1.2.2 _ rfl
    have hput : (storePut E d oid (body.length : Int) body).2 = .ok true := by
      unfold storePut
      rw [hp]
      simp only [hdl]
      cases hmm : mkdirs (components E.base).1 d [] ((components E.base).2 ++ [a, b]) with
      | mk d1 ok =>
        rw [hmm] at hmk hdir
        have hmk : ok = true := hmk
        subst hmk
        simp only [Bool.not_true, Bool.false_eq_true, if_false]
        have hmin : min body.length E.maxWrite = body.length := Nat.min_eq_left hlen
        rw [hmin, if_neg (show ¬ ((body.length : Nat) : Int) ≠ (body.length : Int) by simp), if_neg (show ¬ E.digest body ≠ oid by simp [hdig])]
    cases hst : storePut E d oid (body.length : Int) body with
    | mk d' r =>
      rw [hst] at hput
      have hput : r = .ok true := hput
      subst hput
      rfl

/-- After a rejected upload, announcing the object again and uploading the right bytes. -/
example : (uploadObject lowerDb demoStore (runLfs lowerDb demoStore freshLfs
    [.batch (ascii "upload") [{ oid := rightOid, size := 5 }], .upload rightOid (ascii "wrong"),
     .batch (ascii "upload") [{ oid := rightOid, size := 5 }]]) rightOid (ascii "right")).1 = .ok () := by
  decide +kernel

/-- **C68 is false**: a client announces the oid `aa` and uploads something for it (answered 406, but a file `aa` is left); from now on the upload of an
object whose oid starts with `aa` panics. -/
theorem C68_short_oid_false : ∃ (h : List LfsReq) (oid body : Bytes), (runLfs exactDb demoStore freshLfs h).metas oid = some (oid, (body.length : Int)) ∧
    demoStore.digest body = oid ∧ (uploadObject exactDb demoStore (runLfs exactDb demoStore freshLfs h) oid body).1 = .panic := by
  refine ⟨[.batch (ascii "upload") [{ oid := ascii "aa", size := 1 }], .upload (ascii "aa") (ascii "x"),
    .batch (ascii "upload") [{ oid := rightOid, size := 5 }]], rightOid, ascii "right", by decide +kernel, rfl, by decide +kernel⟩

/-- **C68 is false**: whoever announces an oid first fixes its size; if that was wrong, the right upload is rejected. -/
theorem C68_wrong_size_false : ∃ (h : List LfsReq) (oid body : Bytes), .batch (ascii "upload") [{ oid := oid, size := body.length }] ∈ h.getLast? ∧
    demoStore.digest body = oid ∧ (uploadObject exactDb demoStore (runLfs exactDb demoStore freshLfs h) oid body).1 = .status 406 := by
  refine ⟨[.batch (ascii "upload") [{ oid := rightOid, size := 1 }], .batch (ascii "upload") [{ oid := rightOid, size := 5 }]],
    rightOid, ascii "right", ?_, rfl, by decide +kernel⟩
  simp; decide

/-! ## C47 again: offers and downloads -/

theorem downloadObject_ok_inv (D : DbExt) (E : StoreExt) (s : LfsState) (oid c : Bytes) (h : (downloadObject D E s oid).1 = .ok c) :
    ∃ o n p, s.metas (D.fold oid) = some (o, n) ∧ storePath E o = .ok p ∧ s.disk p = some (.file c) := by
  have hg := storeNew_grown E s.disk
  unfold downloadObject lfsGetMeta storeGet at h
  cases hs : storeNew E s.disk with
  | mk d ok =>
    rw [hs] at h hg
    cases ok with
    | false => cases h
    | true =>
      simp only [Bool.not_true, Bool.false_eq_true, if_false] at h
      cases hm : s.metas (D.fold oid) with
      | none => rw [hm] at h; cases h
      | some row =>
        obtain ⟨o, n⟩ := row
        rw [hm] at h
        simp only at h
        cases hp : storePath E o with
        | ok p =>
          rw [hp] at h
          simp only [Res.bind_ok] at h
          refine ⟨o, n, p, rfl, hp, hg.file.1 ?_⟩
          show d p = _
          cases hd : d p with
          | none => rw [hd] at h; cases h
          | some nd =>
            rw [hd] at h
            cases nd with
            | dir => cases h
            | file c' => cases h; rfl
        | err e => rw [hp] at h; cases h
        | panic => rw [hp] at h; cases h
        | spin => rw [hp] at h; cases h

/-- **C47 (partial)** On a new server, after any history that announces only oids of at least five characters, a batch without repeated oids
offers a download exactly for the objects that a download request would deliver. (Missing from the full claim: shorter oids, for which
it is false.) -/
theorem C47_served_partial (D : DbExt) (E : StoreExt) (hD : Spec.CollationOk D) (s0 : LfsState) (hs : Spec.FreshStore E s0) (h : List LfsReq)
    (hq : ∀ q ∈ h, Spec.LongOids q) (op : Bytes) (vs : List RequestVars) (hr : ∀ v ∈ vs, Spec.RouteOid v.oid) (hnd : (vs.map (·.oid)).Nodup)
    (rs : List Rep) (hb : (processBatch D E (runLfs D E s0 h) op vs).1 = .ok rs) (j : Nat) (v : RequestVars) (r : Rep) (hv : vs[j]? = some v)
    (hrj : rs[j]? = some r) :
    (∃ l, r.offer = .download l) ↔ ∃ c, (downloadObject D E (runLfs D E s0 h) v.oid).1 = .ok c := by
  rw [(C47_offers D E hD s0 hs h op vs hr hnd rs hb j v r hv hrj).1]
  obtain ⟨hl, hsh⟩ := runLfs_shape D E hD s0 hs h hq
  have hkey := runLfs_keyed D E s0 h (fresh_keyed D hs)
  generalize runLfs D E s0 h = s at *
  constructor
  · rintro ⟨o, n, hm, hpr⟩
    have hpl := hD o v.oid (hr v (List.mem_of_getElem? hv)) (hkey _ _ _ hm)
    unfold Spec.present at hpr
    cases hp : storePath E o with
    | ok p =>
      rw [hp] at hpr
      simp only at hpr
      have hpe := storePath_plain E ⟨hpl.1, hpl.2.1, hpl.2.2.1⟩ hp
      obtain ⟨a, b, c, habc⟩ := oidParts_long (hl _ _ _ hm)
      have hnd := hsh.2.2 [a, b, c] rfl
      rw [← habc, ← hpe] at hnd
      cases hd : s.disk p with
      | none => rw [hd] at hpr; cases hpr
      | some nd =>
        cases nd with
        | dir => exact absurd hd hnd
        | file c' => exact ⟨c', downloadObject_ok D E s v.oid o n p c' (storeNew_ok hsh) hm hp hd⟩
    | err e => rw [hp] at hpr; cases hpr
    | panic => rw [hp] at hpr; cases hpr
    | spin => rw [hp] at hpr; cases hpr
  · rintro ⟨c, hc⟩
    obtain ⟨o, n, p, hm, hp, hd⟩ := downloadObject_ok_inv D E s v.oid c hc
    refine ⟨o, n, hm, ?_⟩
    unfold Spec.present
    rw [hp]
    simp [hd]

example : (∃ c, (downloadObject lowerDb demoStore (runLfs lowerDb demoStore freshLfs (mixedHistory.take 2)) rightOid).1 = .ok c) ∧
    ¬ ∃ c, (downloadObject lowerDb demoStore (runLfs lowerDb demoStore freshLfs (mixedHistory.take 2)) (ascii "abcdef")).1 = .ok c := by
  refine ⟨⟨ascii "right", by decide +kernel⟩, ?_⟩
  have : (downloadObject lowerDb demoStore (runLfs lowerDb demoStore freshLfs (mixedHistory.take 2)) (ascii "abcdef")).1 = .panic := by decide +kernel
  rw [this]
  rintro ⟨c, hc⟩
  cases hc

/-- **C47 is false for short oids**: a directory of the store counts as content. After an upload to an oid starting with `aa` and the
announcement of the oid `aa`, the batch endpoint offers `aa` for download, and the download panics. -/
theorem C47_directory_false : ∃ (h : List LfsReq) (l : Bytes),
    (processBatch exactDb demoStore (runLfs exactDb demoStore freshLfs h) (ascii "download") [{ oid := ascii "aa", size := 1 }]).1
      = .ok [{ oid := ascii "aa", size := 1, offer := .download l }] ∧
    (downloadObject exactDb demoStore (runLfs exactDb demoStore freshLfs h) (ascii "aa")).1 = .panic :=
  ⟨[.batch (ascii "upload") [{ oid := rightOid, size := 5 }, { oid := ascii "aa", size := 1 }], .upload rightOid (ascii "right")],
   ascii "http://host/objects/aa", by decide +kernel, by decide +kernel⟩

/-! ## C69: requests stay in the content directory -/

/-- The part of the disk the server should be concerned with. -/
def Spec.Inside (E : StoreExt) (q : Bool × List Bytes) : Prop := Spec.Above E q ∨ Spec.Below E q

/-- Two disks with the same content directory. -/
def Spec.Agree (E : StoreExt) (d d' : Disk) : Prop := ∀ q, Spec.Inside E q → d q = d' q

/-- All oids of the request are accepted by the object routes. -/
def Spec.Routed : LfsReq → Prop
  | .batch _ vs => ∀ v ∈ vs, Spec.RouteOid v.oid
  | .upload oid _ => Spec.RouteOid oid
  | .download oid => Spec.RouteOid oid

/-- The reply to a request: the entries, nothing, or bytes. -/
def LfsReq.reply (D : DbExt) (E : StoreExt) (s : LfsState) : LfsReq → Reply (List Rep) × Reply Unit × Reply Bytes
  | .batch op vs => ((processBatch D E s op vs).1, .panic, .panic)
  | .upload oid body => (.panic, (uploadObject D E s oid body).1, .panic)
  | .download oid => (.panic, .panic, (downloadObject D E s oid).1)

theorem mkdirs_agree (abs : Bool) (P : Bool × List Bytes → Prop) : ∀ (cs pre : List Bytes) (d d' : Disk), (∀ q, P q → d q = d' q) →
    (∀ k < cs.length, P (abs, pre ++ cs.take (k + 1))) →
    (mkdirs abs d pre cs).2 = (mkdirs abs d' pre cs).2 ∧ ∀ q, P q → (mkdirs abs d pre cs).1 q = (mkdirs abs d' pre cs).1 q
  | [], _, _, _, h, _ => ⟨rfl, h⟩
  | c :: cs, pre, d, d', h, hP => by
    have h0 : P (abs, pre ++ [c]) := by simpa using hP 0 (by simp)
    have hP' : ∀ k < cs.length, P (abs, (pre ++ [c]) ++ cs.take (k + 1)) := by
      intro k hk
      have := hP (k + 1) (by simp; omega)
      rwa [List.take_succ_cons, List.append_cons] at this
    rw [mkdirs, mkdirs, ← h _ h0]
    cases d (abs, pre ++ [c]) with
    | none =>
      refine mkdirs_agree abs P cs _ _ _ (fun q hq => ?_) hP'
      rw [setAt_eq, setAt_eq]
      split
      · rfl
      · exact h q hq
    | some nd =>
      cases nd with
      | file x => exact ⟨rfl, h⟩
      | dir => exact mkdirs_agree abs P cs _ _ _ h hP'

theorem inside_take (E : StoreExt) (cs : List Bytes) (k : Nat) : Spec.Inside E ((components E.base).1, ((components E.base).2 ++ cs).take k) := by
  by_cases hk : k ≤ (components E.base).2.length
  · rw [List.take_append_of_le_length hk]
    exact .inl ⟨rfl, List.take_prefix _ _⟩
  · rw [List.take_append, List.take_of_length_le (by omega)]
    by_cases he : cs.take (k - (components E.base).2.length) = []
    · rw [he, List.append_nil]
      exact .inl ⟨rfl, List.prefix_rfl⟩
    · exact .inr ⟨_, he, rfl⟩

theorem storeNew_agree (E : StoreExt) {d d' : Disk} (h : Spec.Agree E d d') :
    (storeNew E d).2 = (storeNew E d').2 ∧ Spec.Agree E (storeNew E d).1 (storeNew E d').1 :=
  mkdirs_agree _ _ _ _ _ _ h (fun k _ => by
    rw [List.nil_append]
    have := inside_take E [] (k + 1)
    rwa [List.append_nil] at this)

theorem storeNew_outside (E : StoreExt) (d : Disk) {q : Bool × List Bytes} (hq : ¬ Spec.Inside E q) : (storeNew E d).1 q = d q := by
  rcases mkdirs_only (components E.base).1 (components E.base).2 [] d q with h | ⟨k, -, rfl⟩
  · exact h
  · refine absurd ?_ hq
    have := inside_take E [] (k + 1)
    rwa [List.append_nil] at this

theorem inside_path (E : StoreExt) {o : Bytes} (ho : Plain o) {p : Bool × List Bytes} (hp : storePath E o = .ok p) : Spec.Inside E p := by
  rw [storePath_plain E ho hp]
  refine .inr ⟨oidParts o, ?_, rfl⟩
  unfold oidParts
  split <;> simp

theorem batchLoop_agree (D : DbExt) (E : StoreExt) (hD : Spec.CollationOk D) {d d' : Disk} (h : Spec.Agree E d d') (upload : Bool) :
    ∀ (vs : List RequestVars) (m : MetaTable), (∀ v ∈ vs, Spec.RouteOid v.oid) → Keyed D m →
      batchLoop D E d upload vs m = batchLoop D E d' upload vs m
  | [], _, _, _ => rfl
  | v :: vs, m, hr, hk => by
    have h1 : batchOne D E d m upload v = batchOne D E d' m upload v := by
      unfold batchOne lfsGetMeta
      simp only
      cases hm : m (D.fold v.oid) with
      | none => rfl
      | some row =>
        obtain ⟨o, n⟩ := row
        have hpl := hD o v.oid (hr v (by simp)) (hk _ _ _ hm)
        have : storeExist E d o = storeExist E d' o := by
          unfold storeExist
          cases hp : storePath E o with
          | ok p =>
            simp only [Res.bind_ok]
            rw [h p (inside_path E ⟨hpl.1, hpl.2.1, hpl.2.2.1⟩ hp)]
          | err e => rfl
          | panic => rfl
          | spin => rfl
        simp only [this]
    have hk1 : Keyed D (batchOne D E d m upload v).2 := by
      have := batchLoop_meta D E d upload [v] m
      have e : ∀ k, (batchLoop D E d upload [v] m).2 k = (batchOne D E d m upload v).2 k := by
        intro k
        rw [batchLoop]
        cases batchOne D E d m upload v with
        | mk x m1 => cases x <;> rfl
      intro k o n hkk
      rcases this k with e' | ⟨-, w, hw, hw', e'⟩
      · rw [← e, e'] at hkk
        exact hk k o n hkk
      · rw [← e, e'] at hkk
        cases hkk
        exact hw'
    rw [batchLoop, batchLoop, ← h1]
    cases hb : batchOne D E d m upload v with
    | mk x m1 =>
      rw [hb] at hk1
      have ih := batchLoop_agree D E hD h upload vs m1 (fun w hw => hr w (List.mem_cons_of_mem _ hw)) hk1
      cases x with
      | ok r => simp only [ih]
      | err e => rfl
      | panic => rfl
      | spin => rfl

theorem storePut_agree (E : StoreExt) {d d' : Disk} (h : Spec.Agree E d d') {o : Bytes} (ho : Plain o) (n : Int) (body : Bytes) :
    (storePut E d o n body).2 = (storePut E d' o n body).2 ∧ Spec.Agree E (storePut E d o n body).1 (storePut E d' o n body).1 ∧
    ∀ q, ¬ Spec.Inside E q → (storePut E d o n body).1 q = d q := by
  unfold storePut
  cases hp : storePath E o with
  | ok p =>
    have hin := inside_path E ho hp
    have hpe := storePath_plain E ho hp
    have hpre : ∀ k, Spec.Inside E (p.1, p.2.dropLast.take k) := by
      intro k
      rw [hpe]
      show Spec.Inside E ((components E.base).1, ((components E.base).2 ++ oidParts o).dropLast.take k)
      rw [List.dropLast_eq_take, List.take_take]
      exact inside_take E _ _
    obtain ⟨h1, h2⟩ := mkdirs_agree p.1 (Spec.Inside E) p.2.dropLast [] d d' h (fun k _ => by rw [List.nil_append]; exact hpre _)
    have h3 : ∀ q, ¬ Spec.Inside E q → (mkdirs p.1 d [] p.2.dropLast).1 q = d q := by
      intro q hq
      rcases mkdirs_only p.1 p.2.dropLast [] d q with e | ⟨k, -, rfl⟩
      · exact e
      · exact absurd (by rw [List.nil_append]; exact hpre _) hq
    simp only
    cases hm : mkdirs p.1 d [] p.2.dropLast with
    | mk d1 ok =>
      cases hm' : mkdirs p.1 d' [] p.2.dropLast with
      | mk d1' ok' =>
        rw [hm, hm'] at h1 h2
        rw [hm] at h3
        have h1 : ok = ok' := h1
        have h2 : ∀ q, Spec.Inside E q → d1 q = d1' q := h2
        have h3 : ∀ q, ¬ Spec.Inside E q → d1 q = d q := h3
        subst h1
        cases ok with
        | false => exact ⟨rfl, h2, h3⟩
        | true =>
          have hset : ∀ x, Spec.Agree E (setAt d1 p x) (setAt d1' p x) ∧ ∀ q, ¬ Spec.Inside E q → setAt d1 p x q = d q := by
            intro x
            refine ⟨fun q hq => ?_, fun q hq => ?_⟩
            · rw [setAt_eq, setAt_eq]
              split
              · rfl
              · exact h2 q hq
            · rw [setAt_eq, if_neg (by rintro rfl; exact hq hin)]
              exact h3 q hq
          simp only [Bool.not_true, Bool.false_eq_true, if_false]
          rw [show d1' p = d1 p from (h2 p hin).symm]
          cases d1 p with
          | none =>
            simp only
            split
            · exact ⟨rfl, hset _⟩
            · split
              · exact ⟨rfl, hset _⟩
              · exact ⟨rfl, hset _⟩
          | some nd =>
            cases nd with
            | dir => exact ⟨rfl, h2, h3⟩
            | file x =>
              simp only
              split
              · exact ⟨rfl, hset _⟩
              · split
                · exact ⟨rfl, hset _⟩
                · exact ⟨rfl, hset _⟩
  | err e => exact ⟨rfl, h, fun _ _ => rfl⟩
  | panic => exact ⟨rfl, h, fun _ _ => rfl⟩
  | spin => exact ⟨rfl, h, fun _ _ => rfl⟩

theorem run_agree (D : DbExt) (E : StoreExt) (hD : Spec.CollationOk D) (s s' : LfsState) (hk : Keyed D s.metas) (hm : s.metas = s'.metas)
    (hd : Spec.Agree E s.disk s'.disk) (q : LfsReq) (hq : Spec.Routed q) :
    q.reply D E s = q.reply D E s' ∧ (q.run D E s).metas = (q.run D E s').metas ∧ Spec.Agree E (q.run D E s).disk (q.run D E s').disk ∧
    ∀ p, ¬ Spec.Inside E p → (q.run D E s).disk p = s.disk p := by
  obtain ⟨h1, h2⟩ := storeNew_agree E hd
  have h3 : ∀ p, ¬ Spec.Inside E p → (storeNew E s.disk).1 p = s.disk p := fun p hp => storeNew_outside E s.disk hp
  cases q with
  | batch op vs =>
    simp only [LfsReq.reply, LfsReq.run, processBatch]
    rw [← hm]
    have hb := batchLoop_agree D E hD h2 (op == ascii "upload") vs s.metas hq hk
    cases hn : storeNew E s.disk with
    | mk d ok =>
      cases hn' : storeNew E s'.disk with
      | mk d' ok' =>
        rw [hn, hn'] at h1 h2 hb
        rw [hn] at h3
        have h1 : ok = ok' := h1
        subst h1
        cases ok with
        | false => exact ⟨rfl, rfl, h2, h3⟩
        | true =>
          simp only [Bool.not_true, Bool.false_eq_true, if_false]
          have hb : batchLoop D E d (op == ascii "upload") vs s.metas = batchLoop D E d' (op == ascii "upload") vs s.metas := hb
          rw [hb]
          exact ⟨rfl, rfl, h2, h3⟩
  | upload oid body =>
    simp only [LfsReq.reply, LfsReq.run, uploadObject, lfsGetMeta]
    rw [← hm]
    cases hn : storeNew E s.disk with
    | mk d ok =>
      cases hn' : storeNew E s'.disk with
      | mk d' ok' =>
        rw [hn, hn'] at h1 h2
        rw [hn] at h3
        have h1 : ok = ok' := h1
        subst h1
        cases ok with
        | false => exact ⟨rfl, rfl, h2, h3⟩
        | true =>
          simp only [Bool.not_true, Bool.false_eq_true, if_false]
          cases hr : s.metas (D.fold oid) with
          | none => exact ⟨rfl, rfl, h2, h3⟩
          | some row =>
            obtain ⟨o, n⟩ := row
            have hpl := hD o oid hq (hk _ _ _ hr)
            obtain ⟨e1, e2, e3⟩ := storePut_agree E h2 ⟨hpl.1, hpl.2.1, hpl.2.2.1⟩ n body
            simp only at e1 e2 e3 ⊢
            have h3 : ∀ p, ¬ Spec.Inside E p → d p = s.disk p := h3
            have e3' : ∀ p, ¬ Spec.Inside E p → (storePut E d o n body).1 p = s.disk p := fun p hp => (e3 p hp).trans (h3 p hp)
            cases hs : storePut E d o n body with
            | mk f r =>
              cases hs' : storePut E d' o n body with
              | mk f' r' =>
                rw [hs, hs'] at e1 e2
                rw [hs] at e3'
                have e1 : r = r' := e1
                subst e1
                cases r with
                | ok b => cases b <;> exact ⟨rfl, rfl, e2, e3'⟩
                | err e => exact ⟨rfl, rfl, e2, e3'⟩
                | panic => exact ⟨rfl, rfl, e2, e3'⟩
                | spin => exact ⟨rfl, rfl, e2, e3'⟩
  | download oid =>
    simp only [LfsReq.reply, LfsReq.run, downloadObject, lfsGetMeta]
    rw [← hm]
    cases hn : storeNew E s.disk with
    | mk d ok =>
      cases hn' : storeNew E s'.disk with
      | mk d' ok' =>
        rw [hn, hn'] at h1 h2
        rw [hn] at h3
        have h1 : ok = ok' := h1
        subst h1
        cases ok with
        | false => exact ⟨rfl, rfl, h2, h3⟩
        | true =>
          simp only [Bool.not_true, Bool.false_eq_true, if_false]
          cases hr : s.metas (D.fold oid) with
          | none => exact ⟨rfl, rfl, h2, h3⟩
          | some row =>
            obtain ⟨o, n⟩ := row
            have hpl := hD o oid hq (hk _ _ _ hr)
            have hget : storeGet E d o = storeGet E d' o := by
              unfold storeGet
              cases hp : storePath E o with
              | ok p =>
                simp only [Res.bind_ok]
                rw [show d p = d' p from h2 p (inside_path E ⟨hpl.1, hpl.2.1, hpl.2.2.1⟩ hp)]
              | err e => rfl
              | panic => rfl
              | spin => rfl
            refine ⟨?_, rfl, h2, h3⟩
            simp only [hget]

/-- **C69 (partial)** Two servers whose disks agree on the content directory (and the directories above it) but are arbitrary elsewhere give the same
reply to every request after every history of requests with routed oids; and they change nothing outside the content directory and the
directories above it. (Missing from the full claim: oids with other characters in batch requests, for which it is false.) -/
theorem C69_confined_partial (D : DbExt) (E : StoreExt) (hD : Spec.CollationOk D) (disk disk' : Disk) (hd : Spec.Agree E disk disk') (h : List LfsReq)
    (hh : ∀ q ∈ h, Spec.Routed q) :
    (∀ q, Spec.Routed q → q.reply D E (runLfs D E ⟨fun _ => none, disk⟩ h) = q.reply D E (runLfs D E ⟨fun _ => none, disk'⟩ h)) ∧
    ∀ p, ¬ Spec.Inside E p → (runLfs D E ⟨fun _ => none, disk⟩ h).disk p = disk p := by
  have hkey : ∀ h, Keyed D (runLfs D E ⟨fun _ => none, disk⟩ h).metas := fun h => runLfs_keyed D E _ h (fun k o n e => by cases e)
  have main : (runLfs D E ⟨fun _ => none, disk⟩ h).metas = (runLfs D E ⟨fun _ => none, disk'⟩ h).metas ∧
      Spec.Agree E (runLfs D E ⟨fun _ => none, disk⟩ h).disk (runLfs D E ⟨fun _ => none, disk'⟩ h).disk ∧
      ∀ p, ¬ Spec.Inside E p → (runLfs D E ⟨fun _ => none, disk⟩ h).disk p = disk p := by
    induction h using List.reverseRecOn with
    | nil => exact ⟨rfl, hd, fun _ _ => rfl⟩
    | append_singleton h q ih =>
      obtain ⟨i1, i2, i3⟩ := ih (fun q hq => hh q (List.mem_append_left _ hq))
      obtain ⟨-, j2, j3, j4⟩ := run_agree D E hD _ _ (hkey h) i1 i2 q (hh q (by simp))
      rw [runLfs_append, runLfs_append]
      exact ⟨j2, j3, fun p hp => (j4 p hp).trans (i3 p hp)⟩
  exact ⟨fun q hq => (run_agree D E hD _ _ (hkey h) main.1 main.2.1 q hq).1, main.2.2⟩

/-- **C69 is false** in general: a batch request may name any string as oid, and the string is used as part of a path. Announcing the
oid `abcd/etc/passwd` and asking again tells whether the file `/etc/passwd` exists. -/
theorem C69_escape_false : ∃ (disk disk' : Disk) (h : List LfsReq) (vs : List RequestVars) (l : Bytes), Spec.Agree demoStore disk disk' ∧
    ((processBatch exactDb demoStore (runLfs exactDb demoStore ⟨fun _ => none, disk⟩ h) (ascii "download") vs).1
      = .ok [{ oid := ascii "abcd/etc/passwd", size := 1, offer := .error 404 }]) ∧
    ((processBatch exactDb demoStore (runLfs exactDb demoStore ⟨fun _ => none, disk'⟩ h) (ascii "download") vs).1
      = .ok [{ oid := ascii "abcd/etc/passwd", size := 1, offer := .download l }]) := by
  refine ⟨fun _ => none, setAt (fun _ => none) (true, [ascii "etc", ascii "passwd"]) (some (.file (ascii "secret"))),
    [.batch (ascii "upload") [{ oid := ascii "abcd/etc/passwd", size := 1 }]], [{ oid := ascii "abcd/etc/passwd", size := 1 }],
    ascii "http://host/objects/abcd/etc/passwd", ?_, by decide +kernel, by decide +kernel⟩
  intro q hq
  rw [setAt_other]
  rintro rfl
  have hc : components demoStore.base = (false, [ascii "lfs"]) := by decide +kernel
  rcases hq with hq | ⟨tl, -, hq⟩
  · have := hq.1
    rw [hc] at this
    cases this
  · rw [hc] at hq
    cases hq

/-- The hypotheses hold: the demonstration history on an empty disk and on one with a file elsewhere. -/
example : Spec.Agree demoStore (fun _ => none) (setAt (fun _ => none) (true, [ascii "etc", ascii "passwd"]) (some (.file (ascii "secret")))) ∧
    ∀ q ∈ mixedHistory, Spec.Routed q := by
  refine ⟨?_, ?_⟩
  · intro q hq
    rw [setAt_other]
    rintro rfl
    have hc : components demoStore.base = (false, [ascii "lfs"]) := by decide +kernel
    rcases hq with hq | ⟨tl, -, hq⟩
    · have := hq.1
      rw [hc] at this
      cases this
    · rw [hc] at hq
      cases hq
  · intro q hq
    unfold mixedHistory at hq
    simp only [List.mem_cons, List.not_mem_nil, or_false] at hq
    rcases hq with rfl | rfl | rfl | rfl <;> simp only [Spec.Routed, Spec.RouteOid] <;> decide

end Gust

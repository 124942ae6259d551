import Verif.Props.Server

/-! # C79: what GET requests change; C76: what requests that fail change -/

namespace Gust

open Spec (nodeObj StoreReach commitsAt InRepo)

/-! ## C79 -/

/-- `create_dir_all` twice is the same as once. -/
theorem mkdirs_idem (abs : Bool) : ∀ (cs pre : List Bytes) (d : Disk), mkdirs abs (mkdirs abs d pre cs).1 pre cs = mkdirs abs d pre cs
  | [], _, _ => rfl
  | c :: cs, pre, d => by
    have key : ∀ d' : Disk, d' (abs, pre ++ [c]) = some .dir →
        mkdirs abs (mkdirs abs d' (pre ++ [c]) cs).1 pre (c :: cs) = mkdirs abs d' (pre ++ [c]) cs := by
      intro d' h
      have h1 := (mkdirs_grown abs cs (pre ++ [c]) d').dir h
      rw [mkdirs, h1]
      exact mkdirs_idem abs cs (pre ++ [c]) d'
    cases h : d (abs, pre ++ [c]) with
    | none =>
      have e : mkdirs abs d pre (c :: cs) = mkdirs abs (setAt d (abs, pre ++ [c]) (some .dir)) (pre ++ [c]) cs := by rw [mkdirs, h]
      rw [e]
      exact key _ (setAt_same _ _ _)
    | some x =>
      cases x with
      | dir =>
        have e : mkdirs abs d pre (c :: cs) = mkdirs abs d (pre ++ [c]) cs := by rw [mkdirs, h]
        rw [e]
        exact key _ h
      | file b =>
        have e : mkdirs abs d pre (c :: cs) = (d, false) := by rw [mkdirs, h]
        rw [e, e]

theorem storeNew_idem (E : StoreExt) (d : Disk) : storeNew E (storeNew E d).1 = storeNew E d := mkdirs_idem _ _ _ _

/-- The content directory may have been created. -/
def Spec.Ready (E : StoreExt) (s t : LfsState) : Prop := t = s ∨ t = { s with disk := (storeNew E s.disk).1 }

theorem ready_download {D : DbExt} {E : StoreExt} {s t : LfsState} (h : Spec.Ready E s t) (oid : Bytes) : downloadObject D E t oid = downloadObject D E s oid := by
  rcases h with rfl | rfl
  · rfl
  · simp only [downloadObject, storeNew_idem]

theorem ready_upload {D : DbExt} {E : StoreExt} {s t : LfsState} (h : Spec.Ready E s t) (oid body : Bytes) :
    uploadObject D E t oid body = uploadObject D E s oid body := by
  rcases h with rfl | rfl
  · rfl
  · simp only [uploadObject, storeNew_idem]

theorem ready_batch {D : DbExt} {E : StoreExt} {s t : LfsState} (h : Spec.Ready E s t) (op : Bytes) (vs : List RequestVars) :
    processBatch D E t op vs = processBatch D E s op vs := by
  rcases h with rfl | rfl
  · rfl
  · simp only [processBatch, storeNew_idem]

/-- Two states that no client can tell apart. -/
def Spec.Same (E : StoreExt) (s t : ServerState) : Prop := t.db = s.db ∧ t.locks = s.locks ∧ Spec.Ready E s.lfs t.lfs

theorem same_serve {P : ServerExt} {s t : ServerState} (h : Spec.Same P.S s t) (m : Moment) (r : HttpReq) :
    (serve P m t r).1 = (serve P m s r).1 ∧ Spec.Same P.S (serve P m s r).2 (serve P m t r).2 := by
  obtain ⟨e1, e2, e3⟩ := h
  obtain ⟨db, locks, lfs⟩ := s
  obtain ⟨db', locks', lfs'⟩ := t
  simp only at e1 e2 e3
  subst e1 e2
  unfold serve
  cases e : route r.method r.path r.service <;> dsimp only
  · rw [ready_download e3]
    exact ⟨rfl, rfl, rfl, .inl rfl⟩
  · exact ⟨rfl, rfl, rfl, e3⟩
  · exact ⟨rfl, rfl, rfl, e3⟩
  · cases P.J.verify r.body <;> exact ⟨rfl, rfl, rfl, e3⟩
  · cases P.J.lock r.body <;> exact ⟨rfl, rfl, rfl, e3⟩
  · split
    · exact ⟨rfl, rfl, rfl, e3⟩
    · cases P.J.unlock r.body <;> exact ⟨rfl, rfl, rfl, e3⟩
  · cases P.J.batch r.body with
    | none => exact ⟨rfl, rfl, rfl, e3⟩
    | some p =>
      simp only
      rw [ready_batch e3]
      exact ⟨rfl, rfl, rfl, .inl rfl⟩
  · exact ⟨rfl, rfl, rfl, e3⟩
  · exact ⟨rfl, rfl, rfl, e3⟩
  · rw [ready_upload e3]
    exact ⟨rfl, rfl, rfl, .inl rfl⟩
  all_goals exact ⟨rfl, rfl, rfl, e3⟩

theorem same_run {P : ServerExt} : ∀ (h : List (Moment × HttpReq)) {s t : ServerState}, Spec.Same P.S s t → Spec.Same P.S (runServer P s h) (runServer P t h)
  | [], _, _, e => e
  | (m, r) :: h, _, _, e => same_run h (same_serve e m r).2

/-- Handlers that a GET request can reach. -/
theorem getRoute_cases (path : Bytes) (s : Option Bytes) : (∃ oid, route .get path s = .download oid) ∨ route .get path s = .listLocks ∨
    (∃ repo t, route .get path s = .infoRefs repo t ∧ ascii "/info/refs" <:+ path) ∨ Spec.Refused (route .get path s) := by
  unfold route
  split
  · exact .inr (.inr (.inr (.inr (.inl rfl))))
  · simp only [getRoute]
    split
    · unfold withToken
      split
      · exact .inl ⟨_, rfl⟩
      · rename_i h
        unfold token at h
        split at h
        · cases h
        · cases h
          exact .inr (.inr (.inr (.inr (.inr (.inr rfl)))))
    · split
      · exact .inr (.inl rfl)
      · split
        · exact .inr (.inr (.inr (.inl rfl)))
        · rename_i h
          have hs : ascii "/info/refs" <:+ path := by
            simp only [Bool.not_eq_true', Bool.not_eq_false, endsWith, List.isSuffixOf_iff_suffix] at h
            exact h
          split
          · exact .inr (.inr (.inr (.inr (.inr (.inr rfl)))))
          · split
            · exact .inr (.inr (.inl ⟨_, _, rfl, hs⟩))
            · exact .inr (.inr (.inr (.inl rfl)))

theorem refused_same {P : ServerExt} {m : Moment} {s : ServerState} {r : HttpReq} (h : Spec.Refused (route r.method r.path r.service)) :
    (serve P m s r).2 = s := by
  unfold serve
  rcases h with h | h | h | h <;> rw [h]

/-- **C79 (partial)** No GET request except the discovery of refs changes anything a client can see: whatever requests follow, each is answered as if the GET
request had not been made. (Missing from the full claim: discovery, see `C79_discovery_partial` and `C79_discovery_false`.) -/
theorem C79_get_partial (P : ServerExt) (m : Moment) (s : ServerState) (r : HttpReq) (hg : r.method = .get) (hd : ¬ ascii "/info/refs" <:+ r.path)
    (h : List (Moment × HttpReq)) (m' : Moment) (r' : HttpReq) :
    (serve P m' (runServer P s ((m, r) :: h)) r').1 = (serve P m' (runServer P s h) r').1 := by
  refine (same_serve (same_run (t := (serve P m s r).2) h ?_) m' r').1
  rcases getRoute_cases r.path r.service with ⟨oid, e⟩ | e | ⟨_, _, _, e⟩ | e
  · unfold serve
    rw [hg, e]
    refine ⟨rfl, rfl, .inr ?_⟩
    simp only [downloadObject]
    split
    · rfl
    · split <;> rfl
  · unfold serve
    rw [hg, e]
    exact ⟨rfl, rfl, .inl rfl⟩
  · exact absurd e hd
  · rw [← hg] at e
    rw [refused_same e]
    exact ⟨rfl, rfl, .inl rfl⟩

/-- **C79 (partial)** The discovery of refs removes nothing, stores nothing for any other repository path and no trees or blobs, and leaves locks and LFS objects alone.
It changes nothing at all when no ref is stored for a directory above the path. (Missing from the full claim: below another repository it does
store a commit and a ref, see `C79_discovery_false`.) -/
theorem C79_discovery_partial (P : ServerExt) (m : Moment) (s : ServerState) (r : HttpReq) (repo : Bytes) (t : ServiceType)
    (hr : route r.method r.path r.service = .infoRefs repo t) :
    (serve P m s r).2.locks = s.locks ∧ (serve P m s r).2.lfs = s.lfs ∧ (serve P m s r).2.db.nodes = s.db.nodes ∧
      (∀ c ∈ s.db.commits, c ∈ (serve P m s r).2.db.commits) ∧ (∀ c ∈ (serve P m s r).2.db.commits, c ∈ s.db.commits ∨ c.repoPath = repo) ∧
      (∀ x ∈ s.db.refs, x ∈ (serve P m s r).2.db.refs) ∧ (∀ x ∈ (serve P m s r).2.db.refs, x ∈ s.db.refs ∨ x.repoPath = repo) ∧
      ((∀ x ∈ s.db.refs, pathStartsWith repo x.repoPath = true → x.repoPath = repo) → (serve P m s r).2 = s) := by
  obtain ⟨h1, h2, h3⟩ := getHead_only P.X m.sql repo s.db
  have hdb := serve_db P m s r
  have hl := serve_locks P m s r
  have hf := serve_lfs P m s r
  rw [hr] at hdb hl hf
  simp only at hdb hl hf
  have hrefs := getHead_refsOf P.X m.sql repo s.db
  refine ⟨hl, hf, by rw [hdb]; exact h1, by rw [hdb]; exact h2, by rw [hdb]; exact h3, by rw [hdb]; exact hrefs.1, by rw [hdb]; exact hrefs.2, fun ha => ?_⟩
  have := getHead_same P.X m.sql repo s.db ha
  rw [this] at hdb
  generalize (serve P m s r).2 = s' at hdb hl hf
  obtain ⟨a, b, c⟩ := s'
  obtain ⟨a', b', c'⟩ := s
  simp only at hdb hl hf
  subst hdb hl hf
  rfl

end Gust

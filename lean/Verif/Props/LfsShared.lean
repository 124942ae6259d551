import Verif.Props.Links
import Verif.Props.LfsLock
import Verif.Props.RefsShown

/-! # C124: locks and large files of different repositories -/

namespace Gust

/-- What git-lfs asks the server of a repository: to lock and unlock files and to list locks, to announce objects, to download and upload them. -/
inductive Spec.LfsAsk
  | lock (body : Bytes)
  | unlock (id body : Bytes)
  | verify (body : Bytes)
  | list (q : LockListQuery)
  | batch (body : Bytes)
  | download (oid : Bytes)
  | upload (oid body : Bytes)

/-- Ids that can stand in a URL. -/
def Spec.LfsAsk.Ok : Spec.LfsAsk → Prop
  | unlock id _ => (0x2f : UInt8) ∉ id
  | download oid => Spec.RouteOid oid
  | upload oid _ => Spec.RouteOid oid
  | _ => True

/-- Where git-lfs finds the API of the repository with URL path `u`. -/
def Spec.lfsBase (u : Bytes) : Bytes := u ++ ascii ".git/info/lfs"

/-- The request for the repository with URL path `u`. -/
def Spec.LfsAsk.to (u : Bytes) : Spec.LfsAsk → HttpReq
  | lock body => { method := .post, path := Spec.lfsBase u ++ ascii "/locks", body := body }
  | unlock id body => { method := .post, path := Spec.lfsBase u ++ ascii "/locks/" ++ id ++ ascii "/unlock", body := body }
  | verify body => { method := .post, path := Spec.lfsBase u ++ ascii "/locks/verify", body := body }
  | list q => { method := .get, path := Spec.lfsBase u ++ ascii "/locks", query := q }
  | batch body => { method := .post, path := Spec.lfsBase u ++ ascii "/objects/batch", body := body }
  | download oid => { method := .get, path := Spec.lfsBase u ++ ascii "/objects/" ++ oid }
  | upload oid body => { method := .put, path := Spec.lfsBase u ++ ascii "/objects/" ++ oid, body := body }

/-- The handler, which does not depend on the repository. -/
def Spec.LfsAsk.handler : Spec.LfsAsk → Route
  | lock _ => .createLock
  | unlock id _ => .deleteLock id
  | verify _ => .verifyLocks
  | list _ => .listLocks
  | batch _ => .batch
  | download oid => .download oid
  | upload oid _ => .upload oid

theorem lfsBase_locks (u : Bytes) : ¬ ascii "/objects/locks" <:+ Spec.lfsBase u ++ ascii "/locks" := by
  intro h
  have e : endsWith (u ++ ascii ".git/info/lfs/locks") (ascii "/objects/locks") = false := endsWith_false ⟨by decide, by decide⟩
  have e' : Spec.lfsBase u ++ ascii "/locks" = u ++ ascii ".git/info/lfs/locks" := by simp [Spec.lfsBase, ascii]
  rw [e', ← endsWith_iff, e] at h
  cases h

theorem lfs_route (u : Bytes) (a : Spec.LfsAsk) (ha : a.Ok) : route (a.to u).method (a.to u).path (a.to u).service = a.handler := by
  cases a with
  | lock body => exact C57_routed_partial (.createLock (Spec.lfsBase u) none) (by intro h; cases h)
  | unlock id body => exact C57_routed_partial (.deleteLock (Spec.lfsBase u) id none ha) (by intro h; cases h)
  | verify body => exact C57_routed_partial (.verifyLocks (Spec.lfsBase u) none) (by intro h; cases h)
  | list q => exact C57_routed_partial (.listLocks (Spec.lfsBase u) none) (fun _ => lfsBase_locks u)
  | batch body => exact C57_routed_partial (.batch (Spec.lfsBase u) none) (by intro h; cases h)
  | download oid =>
    have e : Spec.lfsBase u ++ ascii "/objects/" ++ oid = (Spec.lfsBase u ++ ascii "/objects") ++ 0x2f :: oid := by simp [ascii]
    have hm := (matchObjects_iff _).2 ⟨Spec.lfsBase u, oid, ha, rfl⟩
    have hr : Spec.lfsBase u ++ ascii "/objects/" ++ oid ≠ ascii "/" := by rw [List.append_assoc]; exact notRoot (by simp [ascii])
    show route .get (Spec.lfsBase u ++ ascii "/objects/" ++ oid) none = _
    simp only [route, if_neg hr, getRoute, hm, if_true]
    rw [e]
    exact token_last _ _ (routeOid_noSlash ha) _
  | upload oid body => exact C57_routed_partial (.upload (Spec.lfsBase u) oid none ha) (by intro h; cases h)

/-- **C124 is false**: whatever git-lfs asks of one repository is answered, and changes the server, as if it had asked it of any other repository, whether the repositories exist or not. -/
theorem C124_same_false (P : ServerExt) (m : Moment) (s : ServerState) (u v : Bytes) (a : Spec.LfsAsk) (ha : a.Ok) : serve P m s (a.to u) = serve P m s (a.to v) := by
  unfold serve
  rw [lfs_route u a ha, lfs_route v a ha]
  cases a <;> rfl

/-! ## Locks -/

/-- Some lock for the path is in the row. -/
def Holds (t : LockTable) (k path : Bytes) : Prop := ∃ ls, t k = some ls ∧ ∃ l ∈ ls, l.path = path

theorem created_holds {D : DbExt} {t : LockTable} {r p i n : Bytes} {l : Lock} (h : (createLock D t r p i n).1 = .ok l) :
    Holds (createLock D t r p i n).2 (D.fold r) p := by
  rcases createLock_cases D t r p i n with ⟨-, e⟩ | ⟨-, -, e⟩ | ⟨-, t', ha, e⟩
  · rw [e] at h; cases h
  · rw [e] at h; cases h
  · rw [e]
    obtain ⟨new, rfl, hperm⟩ := addLockWrite_some ha
    exact ⟨new, setAt_same _ _ _, newLock p i n, hperm.mem_iff.2 (by simp), rfl⟩

theorem create_keeps {D : DbExt} {t : LockTable} {k path : Bytes} (h : Holds t k path) (r p i n : Bytes) : Holds (createLock D t r p i n).2 k path := by
  rcases createLock_cases D t r p i n with ⟨-, e⟩ | ⟨-, -, e⟩ | ⟨-, t', ha, e⟩
  · rw [e]; exact h
  · rw [e]; exact h
  · rw [e]
    obtain ⟨new, rfl, hperm⟩ := addLockWrite_some ha
    obtain ⟨ls, h1, l, hl, hp⟩ := h
    by_cases hk : k = D.fold r
    · subst hk
      refine ⟨new, setAt_same _ _ _, l, hperm.mem_iff.2 ?_, hp⟩
      rw [h1]
      simp [hl]
    · exact ⟨ls, by show setAt t (D.fold r) (some new) k = _; rw [setAt_eq, if_neg hk]; exact h1, l, hl, hp⟩

theorem serve_keeps (P : ServerExt) {k path : Bytes} (m : Moment) (s : ServerState) (r : HttpReq) (hr : ∀ id, route r.method r.path r.service ≠ .deleteLock id)
    (h : Holds s.locks k path) : Holds (serve P m s r).2.locks k path := by
  unfold serve
  split <;> (try exact h)
  · split <;> exact h
  · split
    · exact h
    · exact create_keeps h _ _ _ _
  · rename_i id e
    exact absurd e (hr id)
  · split <;> exact h

theorem run_keeps (P : ServerExt) {k path : Bytes} : ∀ (h : List (Moment × HttpReq)) (s : ServerState), (∀ p ∈ h, ∀ id, route p.2.method p.2.path p.2.service ≠ .deleteLock id) →
    Holds s.locks k path → Holds (runServer P s h).locks k path
  | [], _, _, hs => hs
  | (m, r) :: h, s, hh, hs => run_keeps P h _ (fun p hp => hh p (by simp [hp])) (serve_keeps P m s r (hh (m, r) (by simp)) hs)

theorem held_conflict {D : DbExt} {t : LockTable} {r p : Bytes} (h : Holds t (D.fold r) p) (i n : Bytes) : createLock D t r p i n = (.status 409, t) := by
  obtain ⟨ls, h1, l, hl, hp⟩ := h
  rcases createLock_cases D t r p i n with ⟨-, e⟩ | ⟨e, -⟩ | ⟨e, -⟩
  · exact e
  · rw [h1] at e; exact absurd hp (onlyPath_free e l hl)
  · rw [h1] at e; exact absurd hp (onlyPath_free e l hl)

/-- **C124 is false** for locks: once a file is locked in one repository, the file with the same name on the branch with the same name cannot be locked in any other repository, as long as nobody removes a lock. -/
theorem C124_lock_false (P : ServerExt) (m m' : Moment) (s : ServerState) (u v body body' ref path : Bytes) (l : Lock) (hb : P.J.lock body = some (ref, path))
    (hb' : P.J.lock body' = some (ref, path)) (hok : (serve P m s ((Spec.LfsAsk.lock body).to u)).1 = .reply (.ok (.lock l)))
    (h : List (Moment × HttpReq)) (hh : ∀ p ∈ h, ∀ id, route p.2.method p.2.path p.2.service ≠ .deleteLock id) :
    serve P m' (runServer P (serve P m s ((Spec.LfsAsk.lock body).to u)).2 h) ((Spec.LfsAsk.lock body').to v) =
      (.reply (.status 409), runServer P (serve P m s ((Spec.LfsAsk.lock body).to u)).2 h) := by
  have e := lfs_route u (.lock body) trivial
  have e' := lfs_route v (.lock body') trivial
  have h1 : Holds (serve P m s ((Spec.LfsAsk.lock body).to u)).2.locks (P.D.fold ref) path := by
    unfold serve at hok ⊢
    rw [e] at hok ⊢
    simp only [Spec.LfsAsk.handler, Spec.LfsAsk.to, hb] at hok ⊢
    cases hc : (createLock P.D s.locks ref path m.lockId m.now).1 with
    | ok l' => exact created_holds hc
    | status c => rw [hc] at hok; cases hok
    | panic => rw [hc] at hok; cases hok
  have h2 := held_conflict (run_keeps P h _ hh h1) m'.lockId m'.now
  generalize runServer P (serve P m s ((Spec.LfsAsk.lock body).to u)).2 h = s' at h2
  unfold serve
  rw [e']
  simp only [Spec.LfsAsk.handler, Spec.LfsAsk.to, hb', h2]
  rfl

/-! ## Large files -/

/-- **C124 is false** for large files: what is uploaded to one repository is downloaded from any other, by whoever knows its id. -/
theorem C124_file_false (P : ServerExt) (hD : Spec.CollationOk P.D) (hE : Spec.HexDigest P.S) (h1 h2 : List (Moment × HttpReq)) (m m' : Moment) (u v oid body : Bytes)
    (ho : Spec.RouteOid oid) (hlen : body.length ≤ P.S.maxWrite)
    (hok : (serve P m (runServer P .empty h1) ((Spec.LfsAsk.upload oid body).to u)).1 = .reply (.ok (.bytes [])))
    (hn : ∀ p ∈ h2, route p.2.method p.2.path p.2.service ≠ .upload oid) :
    (serve P m' (runServer P .empty (h1 ++ (m, (Spec.LfsAsk.upload oid body).to u) :: h2)) ((Spec.LfsAsk.download oid).to v)).1 = .reply (.ok (.bytes body)) := by
  have e := lfs_route u (.upload oid body) ho
  have e' := lfs_route v (.download oid) ho
  have hacc : (uploadObject P.D P.S (runLfs P.D P.S ServerState.empty.lfs (h1.filterMap (fun p => lfsOf P p.2))) oid body).1 = .ok () := by
    rw [← run_lfs]
    unfold serve at hok
    rw [e] at hok
    simp only [Spec.LfsAsk.handler, Spec.LfsAsk.to] at hok
    cases hc : (uploadObject P.D P.S (runServer P .empty h1).lfs oid body).1 with
    | ok _ => rfl
    | status c => rw [hc] at hok; cases hok
    | panic => rw [hc] at hok; cases hok
  have hd := C45_upload_download_partial P.D P.S hD hE _ (empty_fresh P.S) (h1.filterMap (fun p => lfsOf P p.2)) (h2.filterMap (fun p => lfsOf P p.2)) oid body ho hlen hacc (noUpload_lfs hn)
  have hs : (runServer P .empty (h1 ++ (m, (Spec.LfsAsk.upload oid body).to u) :: h2)).lfs =
      runLfs P.D P.S ServerState.empty.lfs (h1.filterMap (fun p => lfsOf P p.2) ++ .upload oid body :: h2.filterMap (fun p => lfsOf P p.2)) := by
    rw [run_lfs, List.filterMap_append, List.filterMap_cons_some]
    unfold lfsOf
    rw [e]
    rfl
  rw [← hs] at hd
  unfold serve
  rw [e']
  simp only [Spec.LfsAsk.handler, hd]
  rfl

/-! ## Branches -/

/-- The branch named by a request about locks. -/
def Spec.lockBranch (P : ServerExt) (r : HttpReq) : Option Bytes :=
  match route r.method r.path r.service with
  | .createLock => (P.J.lock r.body).map Prod.fst
  | .deleteLock _ => (P.J.unlock r.body).map Prod.fst
  | .verifyLocks => (P.J.verify r.body).map Prod.fst
  | .listLocks => some (r.query.refspec.getD [])
  | _ => none

theorem filtered_row {D : DbExt} {t t' : LockTable} {r : Bytes} (h : t (D.fold r) = t' (D.fold r)) (p c l : Bytes) :
    lfsGetFilteredLocks D t r p c l = lfsGetFilteredLocks D t' r p c l := by
  unfold lfsGetFilteredLocks lfsGetLocks
  rw [h]

theorem addLock_row {D : DbExt} {t t' : LockTable} {r : Bytes} (h : t (D.fold r) = t' (D.fold r)) (ls : List Lock) :
    (lfsAddLock D t r ls = none ∧ lfsAddLock D t' r ls = none) ∨
    ∃ u u', lfsAddLock D t r ls = some u ∧ lfsAddLock D t' r ls = some u' ∧ u (D.fold r) = u' (D.fold r) := by
  unfold lfsAddLock addLockWrite updateRow insertRow
  rw [h]
  cases e : t' (D.fold r) <;> simp only <;> split
  all_goals first
    | exact .inr ⟨_, _, rfl, rfl, by rw [setAt_same, setAt_same]⟩
    | exact .inl ⟨rfl, rfl⟩

theorem create_row {D : DbExt} {t t' : LockTable} {r : Bytes} (h : t (D.fold r) = t' (D.fold r)) (p i n : Bytes) :
    (createLock D t r p i n).1 = (createLock D t' r p i n).1 ∧ (createLock D t r p i n).2 (D.fold r) = (createLock D t' r p i n).2 (D.fold r) := by
  unfold createLock
  rw [filtered_row h]
  split
  · split
    · exact ⟨rfl, h⟩
    · rcases addLock_row h [newLock p i n] with ⟨e1, e2⟩ | ⟨u, u', e1, e2, e3⟩
      · rw [e1, e2]; exact ⟨rfl, h⟩
      · rw [e1, e2]; exact ⟨rfl, e3⟩
  · exact ⟨rfl, h⟩
  · exact ⟨rfl, h⟩

theorem deleteLock_row {D : DbExt} {t t' : LockTable} {r : Bytes} (h : t (D.fold r) = t' (D.fold r)) (i : Bytes) (f : Bool) :
    (lfsDeleteLock D t r i f = none ∧ lfsDeleteLock D t' r i f = none) ∨
    ∃ l u u', lfsDeleteLock D t r i f = some (l, u) ∧ lfsDeleteLock D t' r i f = some (l, u') ∧ u (D.fold r) = u' (D.fold r) := by
  unfold lfsDeleteLock deleteLockWrite updateRow
  rw [h]
  cases e : t' (D.fold r) with
  | none => exact .inl ⟨rfl, rfl⟩
  | some old =>
    simp only
    cases deleteScan i f old (emptyLock D, []) with
    | none => exact .inl ⟨rfl, rfl⟩
    | some x =>
      simp only
      by_cases h1 : x.1.id = []
      · rw [if_pos h1, if_pos h1]; exact .inl ⟨rfl, rfl⟩
      · rw [if_neg h1, if_neg h1]
        by_cases h2 : x.2 = []
        · rw [if_pos h2, if_pos h2]
          exact .inr ⟨_, _, _, rfl, rfl, by rw [setAt_same, setAt_same]⟩
        · rw [if_neg h2, if_neg h2]
          cases h3 : ((some old).isSome && D.locksFit r x.2)
          · exact .inl ⟨rfl, rfl⟩
          · exact .inr ⟨_, _, _, rfl, rfl, by rw [setAt_same, setAt_same]⟩

theorem delete_row {D : DbExt} {t t' : LockTable} {r : Bytes} (h : t (D.fold r) = t' (D.fold r)) (i : Bytes) (f : Option Bool) :
    (deleteLock D t r i f).1 = (deleteLock D t' r i f).1 ∧ (deleteLock D t r i f).2 (D.fold r) = (deleteLock D t' r i f).2 (D.fold r) := by
  unfold deleteLock
  split
  · exact ⟨rfl, h⟩
  · rcases deleteLock_row h i (f.getD false) with ⟨e1, e2⟩ | ⟨l, u, u', e1, e2, e3⟩
    · rw [e1, e2]; exact ⟨rfl, h⟩
    · rw [e1, e2]; exact ⟨rfl, e3⟩

theorem create_other {D : DbExt} {t : LockTable} {r k : Bytes} (hk : k ≠ D.fold r) (p i n : Bytes) : (createLock D t r p i n).2 k = t k := by
  rcases createLock_cases D t r p i n with ⟨-, e⟩ | ⟨-, -, e⟩ | ⟨-, t', ha, e⟩
  · rw [e]
  · rw [e]
  · rw [e]
    obtain ⟨new, rfl, -⟩ := addLockWrite_some ha
    show setAt t (D.fold r) (some new) k = _
    rw [setAt_eq, if_neg hk]

theorem delete_other {D : DbExt} {t : LockTable} {r k : Bytes} (hk : k ≠ D.fold r) (i : Bytes) (f : Option Bool) : (deleteLock D t r i f).2 k = t k := by
  rcases deleteLock_cases D t r i f with ⟨c, e⟩ | ⟨l, t', hd, e⟩
  · rw [e]
  · rw [e]
    show t' k = t k
    unfold lfsDeleteLock deleteLockWrite updateRow at hd
    repeat' split at hd
    all_goals cases hd
    · rw [setAt_eq, if_neg hk]
    · rename_i hu
      split at hu
      · cases hu; rw [setAt_eq, if_neg hk]
      · cases hu

/-- Two servers with the same locks for a branch answer a request about locks of that branch alike, and have the same locks for it afterwards. -/
theorem serve_row (P : ServerExt) (m : Moment) {s s' : ServerState} {r : HttpReq} {b : Bytes} (hb : Spec.lockBranch P r = some b)
    (h : s.locks (P.D.fold b) = s'.locks (P.D.fold b)) :
    (serve P m s r).1 = (serve P m s' r).1 ∧ (serve P m s r).2.locks (P.D.fold b) = (serve P m s' r).2.locks (P.D.fold b) := by
  unfold Spec.lockBranch at hb
  unfold serve
  cases e : route r.method r.path r.service <;> rw [e] at hb <;> simp only at hb ⊢ <;> try cases hb
  · refine ⟨?_, h⟩
    unfold retrieveLock
    simp only [filtered_row h]
  · cases ej : P.J.verify r.body with
    | none => rw [ej] at hb; cases hb
    | some x =>
      obtain ⟨b', c, l⟩ := x
      rw [ej] at hb
      cases hb
      refine ⟨?_, h⟩
      show Reply.outcome _ _ = Reply.outcome _ _
      unfold verifyLock
      simp only [filtered_row h]
  · cases ej : P.J.lock r.body with
    | none => rw [ej] at hb; cases hb
    | some x =>
      obtain ⟨b', p⟩ := x
      rw [ej] at hb
      cases hb
      obtain ⟨h1, h2⟩ := create_row h p m.lockId m.now
      exact ⟨congrArg (Reply.outcome Payload.lock) h1, h2⟩
  · split
    · exact ⟨rfl, h⟩
    · cases ej : P.J.unlock r.body with
      | none => rw [ej] at hb; cases hb
      | some x =>
        obtain ⟨b', f⟩ := x
        rw [ej] at hb
        cases hb
        rename_i id _
        obtain ⟨h1, h2⟩ := delete_row h id f
        exact ⟨congrArg (Reply.outcome Payload.lock) h1, h2⟩

/-- A request that names another branch, or none, changes no lock of this branch. -/
theorem serve_other (P : ServerExt) (m : Moment) (s : ServerState) {r : HttpReq} {b : Bytes} (hb : ∀ b', Spec.lockBranch P r = some b' → P.D.fold b' ≠ P.D.fold b) :
    (serve P m s r).2.locks (P.D.fold b) = s.locks (P.D.fold b) := by
  unfold Spec.lockBranch at hb
  unfold serve
  cases e : route r.method r.path r.service <;> rw [e] at hb <;> simp only at hb ⊢
  · cases ej : P.J.verify r.body <;> rfl
  · cases ej : P.J.lock r.body with
    | none => rfl
    | some x =>
      obtain ⟨b', p⟩ := x
      exact create_other (fun h => hb b' (by rw [ej]; rfl) h.symm) _ _ _
  · split
    · rfl
    · cases ej : P.J.unlock r.body with
      | none => rfl
      | some x =>
        obtain ⟨b', f⟩ := x
        exact delete_other (fun h => hb b' (by rw [ej]; rfl) h.symm) _ _
  · cases ej : P.J.batch r.body <;> rfl

/-- The request names this branch (as the database compares names). -/
def Spec.aboutBranch (P : ServerExt) (b : Bytes) (p : Moment × HttpReq) : Bool :=
  match Spec.lockBranch P p.2 with
  | some b' => P.D.fold b' == P.D.fold b
  | none => false

theorem run_branchRow (P : ServerExt) (b : Bytes) : ∀ (h : List (Moment × HttpReq)) (s s' : ServerState), s.locks (P.D.fold b) = s'.locks (P.D.fold b) →
    (runServer P s h).locks (P.D.fold b) = (runServer P s' (h.filter (Spec.aboutBranch P b))).locks (P.D.fold b)
  | [], _, _, hs => hs
  | (m, r) :: h, s, s', hs => by
    by_cases ha : Spec.aboutBranch P b (m, r) = true
    · rw [List.filter_cons_of_pos ha]
      refine run_branchRow P b h _ _ ?_
      unfold Spec.aboutBranch at ha
      cases e : Spec.lockBranch P r with
      | none => simp only [e] at ha; cases ha
      | some b' =>
        simp only [e] at ha
        have hf := eq_of_beq ha
        have := (serve_row P m (s := s) (s' := s') e (by rw [hf]; exact hs)).2
        rw [hf] at this
        exact this
    · rw [List.filter_cons_of_neg ha]
      refine run_branchRow P b h _ _ ?_
      rw [serve_other P m s (b := b)]
      · exact hs
      · intro b' e hf
        refine ha ?_
        unfold Spec.aboutBranch
        simp only [e, hf, beq_self_eq_true]

/-- **C124 (partial)** What separates locks is the name of the branch: the answer to a request about locks is the same as if only requests naming the same branch had been made. So repositories that have no
name of a branch in common do not see each other's locks. (Missing from the full claim: repositories with branches of the same name, see `C124_lock_false`.) -/
theorem C124_branch_partial (P : ServerExt) (s : ServerState) (h : List (Moment × HttpReq)) (m : Moment) (r : HttpReq) (b : Bytes) (hb : Spec.lockBranch P r = some b) :
    (serve P m (runServer P s h) r).1 = (serve P m (runServer P s (h.filter (Spec.aboutBranch P b))) r).1 :=
  (serve_row P m hb (run_branchRow P b h s s rfl)).1

/-! ## On the example server -/

/-- Somebody locks `data.bin` in `/app`, somebody else asks for the refs; then `data.bin` cannot be locked in `/other`. -/
example : (serve demoServer demoMoment (runServer demoServer (serve demoServer demoMoment .empty ((Spec.LfsAsk.lock (ascii "data.bin")).to (ascii "/app"))).2
    [(demoMoment, Spec.refsReq (ascii "/app") .uploadPack)]) ((Spec.LfsAsk.lock (ascii "data.bin")).to (ascii "/other"))).1 = .reply (.status 409) := by
  rw [C124_lock_false demoServer demoMoment demoMoment .empty (ascii "/app") (ascii "/other") (ascii "data.bin") (ascii "data.bin") (ascii "refs/heads/main") (ascii "data.bin")
    (newLock (ascii "data.bin") demoMoment.lockId demoMoment.now) (by decide) (by decide) (by decide +kernel) _ (by
      intro p hp id e
      rw [List.mem_singleton.1 hp, show route (Spec.refsReq (ascii "/app") .uploadPack).method (Spec.refsReq (ascii "/app") .uploadPack).path
        (Spec.refsReq (ascii "/app") .uploadPack).service = .infoRefs (ascii "/app") .uploadPack from by decide +kernel] at e
      cases e)]

/-- A file uploaded to `/app` is downloaded from `/other`. -/
example : (serve lowerServer demoMoment (runServer lowerServer .empty ([(demoMoment, (Spec.LfsAsk.batch (demoStore.digest (ascii "other"))).to (ascii "/app"))] ++
    [(demoMoment, (Spec.LfsAsk.upload (demoStore.digest (ascii "other")) (ascii "other")).to (ascii "/app"))])) ((Spec.LfsAsk.download (demoStore.digest (ascii "other"))).to (ascii "/other"))).1 =
    .reply (.ok (.bytes (ascii "other"))) :=
  C124_file_false lowerServer lowerDb_ok demoStore_digest _ [] demoMoment demoMoment (ascii "/app") (ascii "/other") (demoStore.digest (ascii "other")) (ascii "other")
    (hexDigest_route demoStore_digest _) (by decide) (by decide +kernel) (by simp)

/-- The locks of the branch `dev` are listed as if nobody had locked anything on `main`. -/
example : (serve demoServer demoMoment (runServer demoServer .empty [(demoMoment, (Spec.LfsAsk.lock (ascii "data.bin")).to (ascii "/app"))])
      ((Spec.LfsAsk.verify (ascii "refs/heads/dev")).to (ascii "/app"))).1 = .reply (.ok (.verified { ours := [], theirs := [], next := [] })) ∧
    (serve demoServer demoMoment (runServer demoServer .empty [(demoMoment, (Spec.LfsAsk.lock (ascii "data.bin")).to (ascii "/app"))])
      ((Spec.LfsAsk.verify (ascii "refs/heads/main")).to (ascii "/other"))).1 ≠ .reply (.ok (.verified { ours := [], theirs := [], next := [] })) := by
  refine ⟨?_, by decide +kernel⟩
  rw [C124_branch_partial demoServer .empty _ demoMoment _ (ascii "refs/heads/dev") (by decide +kernel),
    show List.filter (Spec.aboutBranch demoServer (ascii "refs/heads/dev")) [(demoMoment, (Spec.LfsAsk.lock (ascii "data.bin")).to (ascii "/app"))] = [] from
      List.filter_cons_of_neg (by decide +kernel)]
  decide +kernel

end Gust

import Verif.Props.LockTimes
import Verif.Base.Tactics

/-! # C41 and C43 for whole histories of requests

A client that follows cursors sends several requests, and others use the two servers in between. -/

namespace Gust

/-! ## C41 -/

/-- A visit that is no request to lock a file or to remove a lock. -/
def Spec.LeavesLocks (v : Visit) : Prop :=
  ∀ r, v = .http r → route r.method r.path r.service ≠ .createLock ∧ ∀ i, route r.method r.path r.service ≠ .deleteLock i

/-- A client pages through the locks of a ref, beginning after the history `h`: it sends a request to verify the locks with a cursor, and as long as
a cursor is returned it sends another one with this cursor. In between others use the servers, without locking or unlocking anything. `seen` is what
the client has been shown when no cursor is returned. -/
inductive Spec.PagesThrough (P : ServerExt) (ref : Bytes) (limit : Option Int) : BothHist → Option Bytes → List Lock → Prop
  | last (h : BothHist) (c : Option Bytes) (m : Moment) (r : HttpReq) (p : VerifiableLockList) : Spec.AsksVerify P r ref c limit →
      (serve P m (runBoth P .empty h).web r).1 = .reply (.ok (.verified p)) → p.next = [] → PagesThrough P ref limit h c (p.ours ++ p.theirs)
  | more (h quiet : BothHist) (c : Option Bytes) (m : Moment) (r : HttpReq) (p : VerifiableLockList) (rest : List Lock) : Spec.AsksVerify P r ref c limit →
      (serve P m (runBoth P .empty h).web r).1 = .reply (.ok (.verified p)) → p.next ≠ [] → (∀ q ∈ quiet, Spec.LeavesLocks q.2) →
      PagesThrough P ref limit (h ++ (m, .http r) :: quiet) (some p.next) rest → PagesThrough P ref limit h c (p.ours ++ p.theirs ++ rest)

theorem leaves_locks (P : ServerExt) (m : Moment) (s : Both) (v : Visit) (hv : Spec.LeavesLocks v) : (bothStep P m s v).web.locks = s.web.locks := by
  rcases visit_locks P m s v with h | ⟨r, ref, path, rfl, ha, -⟩ | ⟨r, ref, i, force, rfl, ha, -⟩
  · exact h
  · exact absurd ha.1 (hv r rfl).1
  · exact absurd ha.1 ((hv r rfl).2 i)

theorem quiet_locks (P : ServerExt) : ∀ (h : BothHist) (s : Both), (∀ q ∈ h, Spec.LeavesLocks q.2) → (runBoth P s h).web.locks = s.web.locks
  | [], _, _ => rfl
  | (m, v) :: h, s, hq => by
    rw [runBoth_cons, quiet_locks P h _ (fun q hm => hq q (List.mem_cons_of_mem _ hm)), leaves_locks P m s v (hq (m, v) List.mem_cons_self)]

theorem verify_leaves {P : ServerExt} {r : HttpReq} {ref : Bytes} {c : Option Bytes} {limit : Option Int} (h : Spec.AsksVerify P r ref c limit) :
    Spec.LeavesLocks (.http r) := by
  intro r' e
  cases e
  rw [h.1]
  exact ⟨(fun x => nomatch x), fun i x => nomatch x⟩

theorem serve_verified {P : ServerExt} {m : Moment} {s : ServerState} {r : HttpReq} {ref : Bytes} {c : Option Bytes} {limit : Option Int}
    (h : Spec.AsksVerify P r ref c limit) (p : VerifiableLockList) :
    (serve P m s r).1 = .reply (.ok (.verified p)) ↔ verifyLock P.D s.locks ref c limit = .ok p := by
  rw [serve_verify P m s r ref c limit h]
  cases e : verifyLock P.D s.locks ref c limit <;> simp [Reply.outcome]

theorem pages_paged (P : ServerExt) (ref : Bytes) (limit : Option Int) (h : BothHist) (c : Option Bytes) (seen : List Lock)
    (hp : Spec.PagesThrough P ref limit h c seen) :
    Spec.Paged (fun c => verifyLock P.D (runBoth P .empty h).web.locks ref c limit) c seen := by
  induction hp with
  | last h c m r p ha hs hn => exact .last c p ((serve_verified ha p).1 hs) hn
  | more h quiet c m r p rest ha hs hn hq _ ih =>
    refine .more c p rest ((serve_verified ha p).1 hs) hn ?_
    have e : (runBoth P .empty (h ++ (m, .http r) :: quiet)).web.locks = (runBoth P .empty h).web.locks := by
      rw [runBoth_append]
      refine quiet_locks P _ _ ?_
      intro q hm
      rcases List.mem_cons.1 hm with rfl | hm
      · exact verify_leaves ha
      · exact hq q hm
    rw [e] at ih
    exact ih

theorem paged_pages (P : ServerExt) (ref : Bytes) (limit : Option Int) (m : Moment)
    (hj : ∀ c, c ≠ some [] → ∃ r, Spec.AsksVerify P r ref c limit) (t : LockTable) (c : Option Bytes) (seen : List Lock)
    (hp : Spec.Paged (fun c => verifyLock P.D t ref c limit) c seen) :
    ∀ h, (runBoth P .empty h).web.locks = t → c ≠ some [] → Spec.PagesThrough P ref limit h c seen := by
  induction hp with
  | last c p hs hn =>
    rintro h rfl hc
    obtain ⟨r, hr⟩ := hj c hc
    exact .last h c m r p hr ((serve_verified hr p).2 hs) hn
  | more c p rest hs hn _ ih =>
    rintro h rfl hc
    obtain ⟨r, hr⟩ := hj c hc
    refine .more h [] c m r p rest hr ((serve_verified hr p).2 hs) hn (by simp) (ih _ ?_ (by simpa using hn))
    rw [runBoth_concat, leaves_locks P m _ _ (verify_leaves hr)]

/-- The ids of the locks that are shown. -/
theorem served_ids (P : ServerExt) (h : BothHist) (hd : (h.map (·.1.lockId)).Nodup) (ref : Bytes) (ls : List Lock)
    (hl : Spec.Shown P (runBoth P .empty h) ref ls) : (ls.map (·.id)).Nodup ∧ ∀ l ∈ ls, l.id ∈ h.map (·.1.lockId) := by
  obtain ⟨q, e, hi⟩ := served_locks P h
  rw [shown_iff, listed_iff, e] at hl
  have := ids_distinct P.D q (hi.nodup hd) (P.D.fold ref)
  rw [← hl] at this
  exact ⟨this.1, fun l hm => hi.subset (this.2 l hm)⟩

/-- **C41** After every history of the two servers in which the random ids were different and not empty, a client that pages through the locks of a ref,
whatever others do in between except locking and unlocking, is shown every lock that is shown for the ref exactly once; except that the last one is
missing when the number of the others is a positive multiple of the limit (absent or 0 means 100). And there is always an end, as soon as the client
can write the requests. (Missing from the full claim: these cases, for which it is false, `C41_served_false`.) -/
theorem C41_served_partial (P : ServerExt) (h : BothHist) (hd : (h.map (·.1.lockId)).Nodup) (hne : [] ∉ h.map (·.1.lockId)) (ref : Bytes)
    (limit : Option Int) (n : Nat) (hn : n = (if limit.getD 0 = 0 then 100 else limit.getD 0)) (hpos : 0 < n) (hmax : n < 2 ^ 63)
    (ls : List Lock) (hl : Spec.Shown P (runBoth P .empty h) ref ls) :
    (∀ seen, Spec.PagesThrough P ref limit h none seen → seen.Perm (if n < ls.length ∧ (ls.length - 1) % n = 0 then ls.dropLast else ls)) ∧
    ((∀ c, c ≠ some [] → ∃ r, Spec.AsksVerify P r ref c limit) → ∃ seen, Spec.PagesThrough P ref limit h none seen) := by
  have hids := served_ids P h hd ref ls hl
  have := C41_paging_partial P.D (runBoth P .empty h).web.locks ref limit n ls hn hpos hmax ((shown_iff P _ ref ls).1 hl) hids.1
    (fun l hm e => hne (e ▸ hids.2 l hm))
  refine ⟨fun seen hp => this.2 seen (pages_paged P ref limit h none seen hp), fun hj => ?_⟩
  obtain ⟨seen, hs⟩ := this.1
  exact ⟨seen, paged_pages P ref limit demoMoment hj _ none seen hs h rfl (by simp)⟩

/-! ## C43 -/

/-- A GET request for the locks of a ref without a path; any id, cursor and limit. -/
def Spec.AsksList (r : HttpReq) (ref : Bytes) : Prop :=
  route r.method r.path r.service = .listLocks ∧ r.query.refspec = some ref ∧ r.query.path = none

/-- A GET request for the locks of a ref on one file; any id, cursor and limit. -/
def Spec.AsksFile (r : HttpReq) (ref file : Bytes) : Prop :=
  route r.method r.path r.service = .listLocks ∧ r.query.refspec = some ref ∧ r.query.path = some file

theorem serve_list (P : ServerExt) (m : Moment) (s : ServerState) (r : HttpReq) (h : route r.method r.path r.service = .listLocks) :
    (serve P m s r).1 = (retrieveLock P.D s.locks r.query).outcome (fun p => .locks p.1 p.2) := by
  unfold serve
  rw [h]

/-- **C43**, without a path: the reply names all locks that are shown for the ref, whatever the request says about cursor and limit. (Missing from the
full claim: cursor and limit are ignored; a path makes the request fail, `C43_file_false`.) -/
theorem C43_served_partial (P : ServerExt) (m : Moment) (s : Both) (r : HttpReq) (ref : Bytes) (hr : Spec.AsksList r ref) (ls : List Lock)
    (hl : Spec.Shown P s ref ls) : (serve P m s.web r).1 = .reply (.ok (.locks ls [])) := by
  rw [shown_iff, listed_iff] at hl
  have e : r.query = { path := none, id := r.query.id, cursor := r.query.cursor, limit := r.query.limit, refspec := some ref } := by
    rw [← hr.2.1, ← hr.2.2]
  rw [serve_list P m _ r hr.1, e, C43_no_path_partial, ← hl]
  rfl

/-- **C43 is false for every file name** that is not itself like a lock id: after every history of the two servers, whether the file is locked or not, a request for
the locks on this file is answered with an error. (Ids are eight digits from 0 to 8.) -/
theorem C43_file_false (P : ServerExt) (h : BothHist) (hreal : ∀ p ∈ h, Spec.RealMoment p.1) (m : Moment) (r : HttpReq) (ref file : Bytes)
    (hr : Spec.AsksFile r ref file) (hf : file ≠ []) (hlike : file.length ≠ 8 ∨ ∃ c ∈ file, c.toNat < 48 ∨ 56 < c.toNat) :
    (serve P m (runBoth P .empty h).web r).1 = .reply (.status 500) := by
  have e : r.query = { path := some file, id := r.query.id, cursor := r.query.cursor, limit := r.query.limit, refspec := some ref } := by
    rw [← hr.2.1, ← hr.2.2]
  rw [serve_list P m _ r hr.1, e, C43_path_fails P.D _ ref file _ _ _ hf _ ((listed_iff _ _ _ _).2 rfl)]
  · rfl
  intro l hl hid
  obtain ⟨p, hp, e1, -⟩ := served_times P h ref l hl
  obtain ⟨h1, h2⟩ := real_id (hreal p hp)
  rw [← e1, hid] at h1 h2
  rcases hlike with hlike | ⟨c, hc, hlike⟩
  · exact hlike h1
  · have := h2 c hc; omega

/-! ## Examples -/

/-- A client that asks for pages of two locks; the body of its requests is the cursor. -/
def pagingServer : ServerExt :=
  { demoServer with J := { demoJson with verify := fun b => some (ascii "refs/heads/main", if b = [] then none else some b, some 2) } }

def pageReq (c : Bytes) : HttpReq := { method := .post, path := ascii "/org/locks/verify", body := c }

theorem pageReq_asks (c : Option Bytes) (hc : c ≠ some []) :
    Spec.AsksVerify pagingServer (pageReq (c.getD [])) (ascii "refs/heads/main") c (some 2) := by
  refine ⟨show route .post (ascii "/org/locks/verify") none = .verifyLocks by decide +kernel, ?_⟩
  cases c with
  | none => rfl
  | some c =>
    show some (ascii "refs/heads/main", if c = [] then none else some c, some 2) = _
    rw [if_neg (by simpa using hc)]

/-- A third moment, between the other two. -/
def realThird : Moment := { demoMoment with lockId := lockIdText [8, 0, 0, 2, 1, 2, 1, 4], now := rfc3339 ⟨2023, 5, 23, 7, 0, 9, 250000000⟩ }

/-- Three files are locked. -/
def threeLocked : BothHist := realLocked ++ [(realThird, .http (lockReq (ascii "c.psd")))]

/-- And a fourth one. -/
def fourLocked : BothHist := threeLocked ++ [({ realThird with lockId := lockIdText [0, 0, 0, 0, 0, 0, 0, 1] }, .http (lockReq (ascii "d.psd")))]

def bLock : Lock := { id := ascii "04182273", path := ascii "b.psd", lockedAt := ascii "2023-05-23T07:00:09+00:00", owner := none }
def cLock : Lock := { id := ascii "80021214", path := ascii "c.psd", lockedAt := ascii "2023-05-23T07:00:09.250+00:00", owner := none }
def dLock : Lock := { cLock with id := ascii "00000001", path := ascii "d.psd" }
def bigLock : Lock := { id := ascii "55100386", path := ascii "big.psd", lockedAt := ascii "2023-05-23T07:00:09.500+00:00", owner := none }

theorem threeLocked_shown : Spec.Shown pagingServer (runBoth pagingServer .empty threeLocked) (ascii "refs/heads/main") [bLock, cLock, bigLock] := by
  rw [shown_iff, listed_iff]; decide +kernel

theorem fourLocked_shown : Spec.Shown pagingServer (runBoth pagingServer .empty fourLocked) (ascii "refs/heads/main") [bLock, cLock, dLock, bigLock] := by
  rw [shown_iff, listed_iff]; decide +kernel

/-- **C41 is false**: three files are locked; a client that asks for pages of two locks comes to an end, and however it does, it is never shown the
third lock, which everybody is shown who asks for the locks without a limit. -/
theorem C41_served_false : ∃ (P : ServerExt) (h : BothHist) (ref : Bytes) (limit : Int) (ls : List Lock) (l : Lock),
    (∀ p ∈ h, Spec.RealMoment p.1) ∧ Spec.Shown P (runBoth P .empty h) ref ls ∧ l ∈ ls ∧
    (∃ seen, Spec.PagesThrough P ref (some limit) h none seen) ∧ ∀ seen, Spec.PagesThrough P ref (some limit) h none seen → l ∉ seen := by
  have h := C41_served_partial pagingServer threeLocked (by decide +kernel) (by decide +kernel) (ascii "refs/heads/main") (some 2) 2 (by decide) (by decide) (by decide) _
    threeLocked_shown
  refine ⟨pagingServer, threeLocked, ascii "refs/heads/main", 2, _, bigLock, ?_, threeLocked_shown, by decide,
    h.2 (fun c hc => ⟨_, pageReq_asks c hc⟩), fun seen hs hm => ?_⟩
  · intro p hp
    rcases List.mem_append.1 hp with hp | hp
    · exact realLocked_real p hp
    · rcases List.mem_singleton.1 hp with rfl
      exact ⟨⟨_, ⟨by decide, by decide⟩, rfl⟩, _, by unfold Spec.OnClock; decide, rfl⟩
  · have := (h.1 seen hs).mem_iff.1 hm
    revert this
    decide

/-- C41 at work, four locks and pages of two: whatever a client is shown, it is shown the four locks. -/
example (seen : List Lock) (hs : Spec.PagesThrough pagingServer (ascii "refs/heads/main") (some 2) fourLocked none seen) :
    seen.Perm [bLock, cLock, dLock, bigLock] :=
  (C41_served_partial pagingServer fourLocked (by decide +kernel) (by decide +kernel) (ascii "refs/heads/main") (some 2) 2 (by decide) (by decide) (by decide) _
    fourLocked_shown).1 seen hs

/-- And one way through the pages: between them somebody asks for a pack over SSH and somebody announces an object. -/
example : Spec.PagesThrough pagingServer (ascii "refs/heads/main") (some 2) fourLocked none ([bLock, cLock] ++ [] ++ ([dLock, bigLock] ++ [])) := by
  refine .more fourLocked [(demoMoment, .ssh 3 (.exec 0 (ascii "git-upload-pack '/app.git'"))), (demoMoment, .http (batchReq rightOid))] none demoMoment
    (pageReq []) ⟨[bLock, cLock], [], ascii "00000001"⟩ _ (pageReq_asks none (by simp)) (by decide +kernel) (by decide) ?_
    (.last _ _ demoMoment (pageReq (ascii "00000001")) ⟨[dLock, bigLock], [], []⟩ (pageReq_asks (some (ascii "00000001")) (by decide)) (by decide +kernel) rfl)
  intro q hq r e
  rcases List.mem_cons.1 hq with rfl | hq
  · cases e
  · rcases List.mem_singleton.1 hq with rfl
    cases e
    rw [show route (batchReq rightOid).method (batchReq rightOid).path (batchReq rightOid).service = .batch by decide +kernel]
    exact ⟨(fun x => nomatch x), fun i x => nomatch x⟩

/-- C43 at work: the file `b.psd` is locked. A request for its locks is answered 500, and the request without a path with all locks, although its
limit is 1. -/
example (m : Moment) : (serve demoServer m (runBoth demoServer .empty realLocked).web
      { listReq with query := { refspec := some (ascii "refs/heads/main"), path := some (ascii "b.psd") } }).1 = .reply (.status 500) ∧
    (serve demoServer m (runBoth demoServer .empty realLocked).web
      { listReq with query := { refspec := some (ascii "refs/heads/main"), limit := some (ascii "1") } }).1 = .reply (.ok (.locks realShown [])) :=
  ⟨C43_file_false demoServer realLocked realLocked_real m _ _ _ ⟨by decide +kernel, rfl, rfl⟩ (by decide) (.inl (by decide)),
   C43_served_partial demoServer m _ _ _ ⟨by decide +kernel, rfl, rfl⟩ _ realLocked_shown⟩

end Gust

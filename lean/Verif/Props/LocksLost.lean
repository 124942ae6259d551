import Verif.Model.LocksLost
import Verif.Props.LocksFail

/-! # C168: lock requests while answers of the database are lost -/

namespace Gust

theorem createLost_cases (D : DbExt) (f : LockTrouble) (t : LockTable) (r p i n : Bytes) :
    (createLockLost D f t r p i n).2 = t ∧ (∀ l, (createLockLost D f t r p i n).1 ≠ .ok l) ∨
      ∃ l, (createLock (Spec.roomyDb D) t r p i n).1 = .ok l ∧ (createLockLost D f t r p i n).2 = (createLock (Spec.roomyDb D) t r p i n).2 ∧
        ((createLockLost D f t r p i n).1 = .ok l ∨ ∀ l, (createLockLost D f t r p i n).1 ≠ .ok l) := by
  unfold createLockLost
  split
  · exact .inl ⟨rfl, (fun _ h => nomatch h)⟩
  · rcases create_under D f.toLockFault t r p i n with ⟨l, e, e'⟩ | ⟨h1, h2⟩
    · refine .inr ⟨l, e', ?_⟩
      simp only [e]
      cases f.lost
      · exact ⟨rfl, .inl rfl⟩
      · exact ⟨rfl, .inr (fun _ h => nomatch h)⟩
    · left
      simp only
      split
      · rename_i e _
        exact absurd e (h1 _)
      · exact ⟨h2, h1⟩

theorem deleteLost_cases (D : DbExt) (f : LockTrouble) (t : LockTable) (r i : Bytes) (g : Option Bool) :
    (deleteLockLost D f t r i g).2 = t ∧ (∀ l, (deleteLockLost D f t r i g).1 ≠ .ok l) ∨
      ∃ l, (deleteLock (Spec.roomyDb D) t r i g).1 = .ok l ∧ (deleteLockLost D f t r i g).2 = (deleteLock (Spec.roomyDb D) t r i g).2 ∧
        ((deleteLockLost D f t r i g).1 = .ok l ∨ ∀ l, (deleteLockLost D f t r i g).1 ≠ .ok l) := by
  unfold deleteLockLost
  split
  · exact .inl ⟨rfl, (fun _ h => nomatch h)⟩
  · rcases delete_under D f.toLockFault t r i g with ⟨l, e, e'⟩ | ⟨h1, h2⟩
    · refine .inr ⟨l, e', ?_⟩
      simp only [e]
      cases f.lost
      · exact ⟨rfl, .inl rfl⟩
      · refine ⟨rfl, .inr (fun l h => ?_)⟩
        simp only at h
        split at h <;> cases h
    · left
      simp only
      split
      · rename_i e _
        exact absurd e (h1 _)
      · exact ⟨h2, h1⟩

/-- **C168** One request, in any state and whatever becomes of its statements: if it is granted, the locks are afterwards as if the database never failed; if it is not granted, this is so or nothing changes. -/
theorem C168_step (D : DbExt) (f : LockTrouble) (t : LockTable) (q : LockReq) :
    (q.lost D f t).2 = q.run (Spec.roomyDb D) t ∨ (q.lost D f t).2 = t ∧ Spec.granted (q, (q.lost D f t).1) = false := by
  cases q with
  | create r p i n =>
    rcases createLost_cases D f t r p i n with ⟨h1, h2⟩ | ⟨l, -, h, -⟩
    · refine .inr ⟨h1, ?_⟩
      simp only [LockReq.lost]
      unfold Spec.granted
      split
      · rename_i e
        exact absurd (Option.some.inj (Prod.mk.inj e).2) (h2 _)
      · rfl
    · exact .inl h
  | delete r i g =>
    rcases deleteLost_cases D f t r i g with ⟨h1, h2⟩ | ⟨l, -, h, -⟩
    · refine .inr ⟨h1, ?_⟩
      simp only [LockReq.lost]
      unfold Spec.granted
      split
      · rename_i e
        exact absurd (Option.some.inj (Prod.mk.inj e).2) (h2 _)
      · rfl
    · exact .inl h
  | list _ => exact .inl rfl
  | verify _ _ _ => exact .inl rfl

theorem lost_some (D : DbExt) (h : List (LockTrouble × LockReq)) (t : LockTable) :
    ∃ sub : List LockReq, sub.Sublist (h.map (·.2)) ∧ runLost D t h = sub.foldl (LockReq.run (Spec.roomyDb D)) t := by
  induction h generalizing t with
  | nil => exact ⟨[], .slnil, rfl⟩
  | cons x h ih =>
    obtain ⟨f, q⟩ := x
    obtain ⟨sub, h1, h2⟩ := ih (q.lost D f t).2
    rcases C168_step D f t q with e | ⟨e, -⟩
    · exact ⟨q :: sub, h1.cons_cons q, by rw [List.foldl_cons, ← e, ← h2]; rfl⟩
    · refine ⟨sub, h1.cons q, ?_⟩
      rw [e] at h2
      rw [← h2]
      show runLost D (q.lost D f t).2 h = _
      rw [e]

/-- **C168** No two locks of a ref ever have the same path, whatever fails and whatever answers are lost. -/
theorem C168_exclusive (D : DbExt) (h : List (LockTrouble × LockReq)) (ref : Bytes) (ls : List Lock) (hl : Spec.Listed D (runLost D noLocks h) ref ls) : (ls.map (·.path)).Nodup := by
  obtain ⟨sub, -, e⟩ := lost_some D h noLocks
  rw [e] at hl
  exact C40_sequential_partial (Spec.roomyDb D) sub ref ls hl

/-- **C168** A lock that was granted is listed until somebody asks to remove it by its id, whatever fails and whatever answers are lost, before and after. -/
theorem C168_stays (D : DbExt) (h1 h2 : List (LockTrouble × LockReq)) (f : LockTrouble) (r p i n : Bytes) (l : Lock) (hi : i ≠ [])
    (hok : (LockReq.lost D f (runLost D noLocks h1) (.create r p i n)).1 = some (.ok l)) (hdel : ∀ f' r' g, (f', LockReq.delete r' i g) ∈ h2 → D.fold r' ≠ D.fold r) (ls : List Lock)
    (hl : Spec.Listed D (runLost D noLocks (h1 ++ (f, .create r p i n) :: h2)) r ls) : l ∈ ls ∧ l.path = p := by
  have e0 : runLost D noLocks (h1 ++ (f, .create r p i n) :: h2) = runLost D (LockReq.lost D f (runLost D noLocks h1) (.create r p i n)).2 h2 := by
    unfold runLost
    rw [List.foldl_append]
    rfl
  rw [e0] at hl
  obtain ⟨sub1, -, e1⟩ := lost_some D h1 noLocks
  rw [e1] at hok hl
  have hok : (createLockLost D f (sub1.foldl (LockReq.run (Spec.roomyDb D)) noLocks) r p i n).1 = .ok l := Option.some.inj hok
  rcases createLost_cases D f (sub1.foldl (LockReq.run (Spec.roomyDb D)) noLocks) r p i n with ⟨-, k⟩ | ⟨l', k1, k2, k3⟩
  · exact absurd hok (k l)
  · have hll : l' = l := by
      rcases k3 with k3 | k3
      · rw [hok] at k3
        exact (Reply.ok.inj k3).symm
      · exact absurd hok (k3 l)
    subst hll
    simp only [LockReq.lost] at hl
    rw [k2] at hl
    obtain ⟨sub2, hs, e2⟩ := lost_some D h2 (createLock (Spec.roomyDb D) (sub1.foldl (LockReq.run (Spec.roomyDb D)) noLocks) r p i n).2
    rw [e2] at hl
    refine C65_lock_stays_partial (Spec.roomyDb D) sub1 sub2 r p i n l' (createLock (Spec.roomyDb D) (runLocks (Spec.roomyDb D) sub1) r p i n).2 hi (Prod.ext k1 rfl) ?_ ls ?_
    · intro r' g hm
      obtain ⟨x, hx, e⟩ := List.mem_map.1 (hs.subset hm)
      obtain ⟨f', q⟩ := x
      cases e
      exact hdel f' r' g hx
    · unfold runLocks
      rw [List.foldl_append, List.foldl_append]
      exact hl

/-- **C168** A lock that is listed was asked for, whatever fails: its path and id are those of a creation in the history. -/
theorem C168_asked (D : DbExt) (h : List (LockTrouble × LockReq)) (ref : Bytes) (ls : List Lock) (hl : Spec.Listed D (runLost D noLocks h) ref ls) (l : Lock) (hm : l ∈ ls) :
    ∃ f r p i n, (f, LockReq.create r p i n) ∈ h ∧ l = ⟨i, p, n, none⟩ := by
  obtain ⟨sub, hs, e⟩ := lost_some D h noLocks
  rw [e, listed_iff] at hl
  subst hl
  let P : List Lock → Prop := fun a => ∀ x ∈ a, ∃ r p i n, LockReq.create r p i n ∈ sub ∧ x = ⟨i, p, n, none⟩
  have key : ∀ (q : List LockReq), (∀ x ∈ q, x ∈ sub) → ∀ t : LockTable, (∀ k, P ((t k).getD [])) → ∀ k, P ((q.foldl (LockReq.run (Spec.roomyDb D)) t k).getD []) := by
    intro q
    induction q with
    | nil => exact fun _ t ht => ht
    | cons x q ih =>
      intro hq t ht
      refine ih (fun y hy => hq y (.tail _ hy)) _ (run_invariant (Spec.roomyDb D) P (fun a b hp ha y hy => ha y (hp.mem_iff.2 hy)) (fun a b hs hb y hy => hb y (hs.subset hy)) x ?_ t ht)
      intro r p i n hx l hl _ y hy
      rcases List.mem_append.1 hy with hy | hy
      · exact hl y hy
      · rw [List.mem_singleton.1 hy]
        exact ⟨r, p, i, n, hx ▸ hq x (.head _), rfl⟩
  obtain ⟨r, p, i, n, hc, rfl⟩ := key sub (fun _ h => h) noLocks (fun k x hx => nomatch hx) _ l hm
  obtain ⟨⟨f, q⟩, hx, e⟩ := List.mem_map.1 (hs.subset hc)
  cases e
  exact ⟨f, r, p, i, n, hx, rfl⟩

/-- **C168** Whatever has failed and got lost before: while the database works, every listed lock can be removed, and every file that is not locked can be locked, as far as the table has room. -/
theorem C168_works_again (D : DbExt) (h : List (LockTrouble × LockReq)) (ref : Bytes) (ls : List Lock) (hl : Spec.Listed D (runLost D noLocks h) ref ls)
    (f : LockTrouble) (hf : ∀ r l, f.fits r l = true) (hd : f.deletes = true) (hr : f.reads = true) (hlost : f.lost = false) :
    (∀ l ∈ ls, l.id ≠ [] → (∀ x : List Lock, x.Sublist ls → x.length < ls.length → D.locksFit ref x = true) →
      ∃ l' t', LockReq.lost D f (runLost D noLocks h) (.delete ref l.id none) = (some (.ok l'), t') ∧ l'.id = l.id ∧ ∃ ls', Spec.Listed D t' ref ls' ∧ l ∉ ls') ∧
    ∀ path id now, path ≠ [] → (∀ l ∈ ls, l.path ≠ path) → (∀ l : List Lock, l.Perm (⟨id, path, now, none⟩ :: ls) → D.locksFit ref l = true) →
      ∃ t' ls', LockReq.lost D f (runLost D noLocks h) (.create ref path id now) = (some (.ok ⟨id, path, now, none⟩), t') ∧ Spec.Listed D t' ref ls' ∧ ls'.Perm (⟨id, path, now, none⟩ :: ls) := by
  have hown : ∀ x ∈ ls, x.owner = none := by
    obtain ⟨sub, -, e⟩ := lost_some D h noLocks
    rw [e, listed_iff] at hl
    subst hl
    suffices ∀ (q : List LockReq) (t : LockTable), (∀ k, NoOwner ((t k).getD [])) → ∀ k, NoOwner ((q.foldl (LockReq.run (Spec.roomyDb D)) t k).getD []) from
      this _ noLocks (fun k => by simp [noLocks, NoOwner]) _
    intro q
    induction q with
    | nil => exact fun t ht => ht
    | cons x q ih =>
      intro t ht
      refine ih _ (run_invariant (Spec.roomyDb D) NoOwner (fun a b hp ha y hy => ha y (hp.mem_iff.2 hy)) (fun a b hs hb y hy => hb y (hs.subset hy)) x ?_ t ht)
      intro r p i n _ l hl _ y hy
      rcases List.mem_append.1 hy with hy | hy
      · exact hl y hy
      · rw [List.mem_singleton.1 hy]; rfl
  have hD : D.under f.toLockFault = D := by
    unfold DbExt.under
    simp only [hf, Bool.and_true]
  constructor
  · intro l hm hne hfit
    obtain ⟨l1, t1, h1⟩ := C42_known_id D _ ref l.id none ls hl l hm rfl hne (.inr fun x hx _ => hown x hx) hfit
    rcases C42_delete D (runLost D noLocks h) ref l.id none ls hl with ⟨c, hx⟩ | ⟨l', t', hx, -, hi', hlist, -⟩
    · rw [h1] at hx
      cases hx
    · refine ⟨l', t', ?_, hi', _, hlist, by simp⟩
      simp only [LockReq.lost, deleteLockLost, deleteLockUnder, hd, hD, hx, hr, hlost]
      simp
  · intro path id now hp hfree hfit
    obtain ⟨t', ls', k1, k2, k3, _⟩ := C40_create D (runLost D noLocks h) ref path id now ls hp hl hfree hfit
    refine ⟨t', ls', ?_, k2, k3⟩
    simp only [LockReq.lost, createLockLost, hD, k1, hr, hlost]
    simp

/-- The database carries out everything, but its answers are lost. -/
def lostAnswer : LockTrouble := ⟨⟨fun _ _ => true, true⟩, true, true⟩
/-- Everything works. -/
def noTrouble : LockTrouble := ⟨⟨fun _ _ => true, true⟩, true, false⟩
/-- Nothing works. -/
def allTrouble : LockTrouble := ⟨⟨fun _ _ => false, false⟩, false, false⟩

/-- **C168 is false** for refusals: a client is told that the lock could not be made (500), but it is made; trying again, the client is told that the file is locked (409); and a removal that is not answered has removed the lock. -/
theorem C168_refused_false : ∃ (D : DbExt) (r p : Bytes) (l : Lock),
    (LockReq.lost D lostAnswer noLocks (.create r p (ascii "01234567") (ascii "t1"))).1 = some (.status 500) ∧
    Spec.Listed D (runLost D noLocks [(lostAnswer, .create r p (ascii "01234567") (ascii "t1"))]) r [l] ∧
    (LockReq.lost D noTrouble (runLost D noLocks [(lostAnswer, .create r p (ascii "01234567") (ascii "t1"))]) (.create r p (ascii "11234567") (ascii "t2"))).1 = some (.status 409) ∧
    (LockReq.lost D lostAnswer (runLost D noLocks [(lostAnswer, .create r p (ascii "01234567") (ascii "t1"))]) (.delete r (ascii "01234567") none)).1 = some .panic ∧
    Spec.Listed D (runLost D noLocks [(lostAnswer, .create r p (ascii "01234567") (ascii "t1")), (lostAnswer, .delete r (ascii "01234567") none)]) r [] := by
  refine ⟨demoDb, ascii "r", ascii "f", newLock (ascii "f") (ascii "01234567") (ascii "t1"), by decide +kernel, ?_, by decide +kernel, by decide +kernel, ?_⟩
  · unfold Spec.Listed
    decide +kernel
  · unfold Spec.Listed
    decide +kernel

/-- C168 at work: a lock is granted while everything works, and stays while another one is made without an answer and nothing works. -/
example : newLock (ascii "f") (ascii "01234567") (ascii "t1") ∈ [newLock (ascii "f") (ascii "01234567") (ascii "t1"), newLock (ascii "g") (ascii "11234567") (ascii "t2")] ∧ (newLock (ascii "f") (ascii "01234567") (ascii "t1")).path = ascii "f" := by
  refine C168_stays demoDb [(allTrouble, .create (ascii "r") (ascii "f") (ascii "31234567") (ascii "t0"))]
    [(lostAnswer, .create (ascii "r") (ascii "g") (ascii "11234567") (ascii "t2")), (allTrouble, .delete (ascii "r") (ascii "11234567") none)] noTrouble
    (ascii "r") (ascii "f") (ascii "01234567") (ascii "t1") _ (by decide) (by decide +kernel) ?_ _ ?_
  · intro f' r' g hm
    simp at hm
    exact absurd hm.2.2.1 (by decide)
  · unfold Spec.Listed
    decide +kernel

/-- `C168_works_again` at work: the lock that was made without an answer is removed. -/
example : ∃ l' t', LockReq.lost demoDb noTrouble (runLost demoDb noLocks [(lostAnswer, .create (ascii "r") (ascii "f") (ascii "01234567") (ascii "t1"))]) (.delete (ascii "r") (ascii "01234567") none) = (some (.ok l'), t') ∧
    l'.id = ascii "01234567" ∧ ∃ ls', Spec.Listed demoDb t' (ascii "r") ls' ∧ newLock (ascii "f") (ascii "01234567") (ascii "t1") ∉ ls' := by
  have hl : Spec.Listed demoDb (runLost demoDb noLocks [(lostAnswer, .create (ascii "r") (ascii "f") (ascii "01234567") (ascii "t1"))]) (ascii "r") [newLock (ascii "f") (ascii "01234567") (ascii "t1")] := by
    unfold Spec.Listed
    decide +kernel
  exact (C168_works_again demoDb _ (ascii "r") _ hl noTrouble (fun _ _ => rfl) rfl rfl rfl).1 _ (.head _) (by decide) (fun _ _ _ => rfl)

end Gust

import Verif.Model.LocksFail
import Verif.Props.LockLedger

/-! # C166: lock requests while the database fails -/

namespace Gust

/-- A request that was granted: a lock was created or removed, by the reply. -/
def Spec.granted : LockReq × Option (Reply Lock) → Bool
  | (_, some (.ok _)) => true
  | _ => false

/-- What a request and its reply mean for the locks of a ref, to somebody who keeps a list of them. -/
def Spec.noteReply (D : DbExt) (ref : Bytes) (held : List Lock) : LockReq × Option (Reply Lock) → List Lock
  | (.create r _ _ _, some (.ok l)) => if D.fold r = D.fold ref then held ++ [l] else held
  | (.delete r _ _, some (.ok l)) => if D.fold r = D.fold ref then held.filter (fun x => x.id ≠ l.id) else held
  | _ => held

/-- The id drawn for a new lock is not empty. -/
def Spec.HasId : LockReq → Prop
  | .create _ _ i _ => i ≠ []
  | _ => True

/-- The database that never fails and has no limits. -/
def Spec.roomyDb (D : DbExt) : DbExt := { D with locksFit := fun _ _ => true }

/-! ## Lemmas -/

theorem updateRow_roomy {D D' : DbExt} (hf : D'.fold = D.fold) {t t' : LockTable} {r : Bytes} {l : List Lock} (h : updateRow D' t r l = some t') : updateRow (Spec.roomyDb D) t r l = some t' := by
  unfold updateRow at h ⊢
  rw [hf] at h
  simp only [Spec.roomyDb, Bool.and_true]
  split at h
  · rename_i e
    rw [if_pos (Bool.and_eq_true_iff.1 e).1]
    exact h
  · cases h

theorem insertRow_roomy {D D' : DbExt} (hf : D'.fold = D.fold) {t t' : LockTable} {r : Bytes} {l : List Lock} (h : insertRow D' t r l = some t') : insertRow (Spec.roomyDb D) t r l = some t' := by
  unfold insertRow at h ⊢
  rw [hf] at h
  simp only [Spec.roomyDb, Bool.and_true]
  split at h
  · rename_i e
    rw [if_pos (Bool.and_eq_true_iff.1 e).1]
    exact h
  · cases h

/-- A creation is granted, with the effect it has on a database that never fails, or changes nothing. -/
theorem create_under (D : DbExt) (f : LockFault) (t : LockTable) (r p i n : Bytes) :
    (∃ l, createLock (D.under f) t r p i n = (.ok l, (createLock (Spec.roomyDb D) t r p i n).2) ∧ (createLock (Spec.roomyDb D) t r p i n).1 = .ok l) ∨
      (∀ l, (createLock (D.under f) t r p i n).1 ≠ .ok l) ∧ (createLock (D.under f) t r p i n).2 = t := by
  have e0 : lfsGetFilteredLocks (D.under f) t r p [] (ascii "1") = lfsGetFilteredLocks (Spec.roomyDb D) t r p [] (ascii "1") := rfl
  unfold createLock
  rw [e0]
  cases lfsGetFilteredLocks (Spec.roomyDb D) t r p [] (ascii "1") with
  | ok x =>
    simp only
    split
    · exact .inr ⟨(fun _ h => nomatch h), rfl⟩
    · cases ha : lfsAddLock (D.under f) t r [newLock p i n] with
      | none => exact .inr ⟨(fun _ h => nomatch h), rfl⟩
      | some t' =>
        left
        have : lfsAddLock (Spec.roomyDb D) t r [newLock p i n] = some t' := by
          unfold lfsAddLock addLockWrite at ha ⊢
          have e1 : t ((Spec.roomyDb D).fold r) = t ((D.under f).fold r) := rfl
          rw [e1]
          cases hr : t ((D.under f).fold r) with
          | none => rw [hr] at ha; exact insertRow_roomy (D := D) (D' := D.under f) rfl ha
          | some old => rw [hr] at ha; exact updateRow_roomy (D := D) (D' := D.under f) rfl ha
        rw [this]
        exact ⟨_, rfl, rfl⟩
  | _ => exact .inr ⟨(fun _ h => nomatch h), rfl⟩

/-- The same for removals. -/
theorem delete_under (D : DbExt) (f : LockFault) (t : LockTable) (r i : Bytes) (g : Option Bool) :
    (∃ l, deleteLockUnder D f t r i g = (.ok l, (deleteLock (Spec.roomyDb D) t r i g).2) ∧ (deleteLock (Spec.roomyDb D) t r i g).1 = .ok l) ∨
      (∀ l, (deleteLockUnder D f t r i g).1 ≠ .ok l) ∧ (deleteLockUnder D f t r i g).2 = t := by
  unfold deleteLockUnder
  split
  · exact .inr ⟨(fun _ h => nomatch h), rfl⟩
  · unfold deleteLock
    split
    · exact .inr ⟨(fun _ h => nomatch h), rfl⟩
    · cases hd : lfsDeleteLock (D.under f) t r i (g.getD false) with
      | none => exact .inr ⟨(fun _ h => nomatch h), rfl⟩
      | some x =>
        obtain ⟨l, t'⟩ := x
        left
        have : lfsDeleteLock (Spec.roomyDb D) t r i (g.getD false) = some (l, t') ∧ l.id ≠ [] := by
          unfold lfsDeleteLock deleteLockWrite at hd ⊢
          have e1 : t ((Spec.roomyDb D).fold r) = t ((D.under f).fold r) := rfl
          have e2 : emptyLock (Spec.roomyDb D) = emptyLock (D.under f) := rfl
          rw [e1, e2]
          cases hr : t ((D.under f).fold r) with
          | none => rw [hr] at hd; cases hd
          | some old =>
            rw [hr] at hd
            simp only at hd ⊢
            cases hs : deleteScan i (g.getD false) old (emptyLock (D.under f), []) with
            | none => rw [hs] at hd; cases hd
            | some y =>
              obtain ⟨del, new⟩ := y
              rw [hs] at hd
              simp only at hd ⊢
              by_cases h1 : del.id = []
              · rw [if_pos h1] at hd
                cases hd
              · rw [if_neg h1] at hd ⊢
                by_cases h2 : new = []
                · rw [if_pos h2] at hd ⊢
                  cases hd
                  exact ⟨rfl, h1⟩
                · rw [if_neg h2] at hd ⊢
                  cases hu : updateRow (D.under f) t r new with
                  | none => rw [hu] at hd; cases hd
                  | some t2 =>
                    rw [hu] at hd
                    rw [updateRow_roomy (D := D) (D' := D.under f) rfl hu]
                    cases hd
                    exact ⟨rfl, h1⟩
        rw [this.1]
        have e3 : ∀ D', deleteReply D' l = .ok l := fun D' => by
          unfold deleteReply
          rw [if_neg (fun h => this.2 h.1)]
        simp only [e3]
        exact ⟨l, rfl, rfl⟩

/-- **C166** One request, in any state and whatever the database does: if it is granted, the locks are afterwards as if the database never failed; if it is not granted, nothing changes. -/
theorem C166_step (D : DbExt) (f : LockFault) (t : LockTable) (q : LockReq) :
    (q.under D f t).2 = if Spec.granted (q, (q.under D f t).1) then q.run (Spec.roomyDb D) t else t := by
  cases q with
  | create r p i n =>
    rcases create_under D f t r p i n with ⟨l, e, _⟩ | ⟨h1, h2⟩
    · simp only [LockReq.under, e, Spec.granted, if_true, LockReq.run]
    · simp only [LockReq.under, h2]
      rw [if_neg]
      intro h
      unfold Spec.granted at h
      split at h
      · rename_i e
        exact h1 _ (Option.some.inj (Prod.mk.inj e).2)
      · cases h
  | delete r i g =>
    rcases delete_under D f t r i g with ⟨l, e, _⟩ | ⟨h1, h2⟩
    · simp only [LockReq.under, e, Spec.granted, if_true, LockReq.run]
    · simp only [LockReq.under, h2]
      rw [if_neg]
      intro h
      unfold Spec.granted at h
      split at h
      · rename_i e
        exact h1 _ (Option.some.inj (Prod.mk.inj e).2)
      · cases h
  | list _ => rfl
  | verify _ _ _ => rfl

/-- **C166** After any history of lock requests and failures of the database, all locks are as if only the granted requests had been made, with a database that never fails. -/
theorem C166_granted (D : DbExt) (h : List (LockFault × LockReq)) : (runUnder D noLocks h).2 = runLocks (Spec.roomyDb D) (((runUnder D noLocks h).1.filter Spec.granted).map (·.1)) := by
  have key : ∀ (h : List (LockFault × LockReq)) (t : LockTable), (runUnder D t h).2 = (((runUnder D t h).1.filter Spec.granted).map (·.1)).foldl (LockReq.run (Spec.roomyDb D)) t := by
    intro h
    induction h with
    | nil => exact fun _ => rfl
    | cons x h ih =>
      intro t
      obtain ⟨f, q⟩ := x
      simp only [runUnder]
      rw [ih, C166_step D f t q, List.filter_cons]
      split <;> rfl
  exact key h noLocks

/-- **C166** So no two locks of a ref ever have the same path, whatever fails. -/
theorem C166_exclusive (D : DbExt) (h : List (LockFault × LockReq)) (ref : Bytes) (ls : List Lock) (hl : Spec.Listed D (runUnder D noLocks h).2 ref ls) : (ls.map (·.path)).Nodup := by
  rw [C166_granted] at hl
  exact C40_sequential_partial (Spec.roomyDb D) _ ref ls hl

theorem noteReply_step (D : DbExt) (ref : Bytes) (f : LockFault) (q : LockReq) (hq : Spec.HasId q) (t : LockTable) (held : List Lock) (hp : ((t (D.fold ref)).getD []).Perm held)
    (hn : ∀ l ∈ (t (D.fold ref)).getD [], l.id ≠ []) :
    (((q.under D f t).2 (D.fold ref)).getD []).Perm (Spec.noteReply D ref held (q, (q.under D f t).1)) ∧ ∀ l ∈ ((q.under D f t).2 (D.fold ref)).getD [], l.id ≠ [] := by
  cases q with
  | create r p i n =>
    rcases create_under D f t r p i n with ⟨l, e, e'⟩ | ⟨h1, h2⟩
    · simp only [LockReq.under, e, Spec.noteReply]
      rcases createLock_cases (Spec.roomyDb D) t r p i n with ⟨-, k⟩ | ⟨-, -, k⟩ | ⟨-, t', ha, k⟩
      · rw [k] at e'
        cases e'
      · rw [k] at e'
        cases e'
      · rw [k] at e' ⊢
        obtain rfl := Reply.ok.inj e'
        obtain ⟨new, rfl, hperm⟩ := addLockWrite_some ha
        have e0 : (Spec.roomyDb D).fold = D.fold := rfl
        simp only [e0] at hperm ⊢
        by_cases hf : D.fold r = D.fold ref
        · rw [if_pos hf, ← hf, setAt_same]
          rw [← hf] at hp hn
          refine ⟨hperm.trans (hp.append_right _), fun l hl => ?_⟩
          rcases List.mem_append.1 (hperm.mem_iff.1 hl) with hl | hl
          · exact hn l hl
          · rw [List.mem_singleton.1 hl]
            exact hq
        · rw [if_neg hf, setAt_other _ _ (fun e => hf e.symm)]
          exact ⟨hp, hn⟩
    · simp only [LockReq.under, h2]
      refine ⟨?_, hn⟩
      unfold Spec.noteReply
      split
      · rename_i e
        exact absurd (Option.some.inj (Prod.mk.inj e).2) (h1 _)
      · rename_i e
        cases (Prod.mk.inj e).1
      · exact hp
  | delete r i g =>
    rcases delete_under D f t r i g with ⟨l, e, e'⟩ | ⟨h1, h2⟩
    · simp only [LockReq.under, e, Spec.noteReply]
      rcases C42_delete (Spec.roomyDb D) t r i g _ ((listed_iff _ _ _ _).2 rfl) with ⟨c, k⟩ | ⟨l', t', k, hl, hi, k1, k2⟩
      · rw [k] at e'
        cases e'
      · rw [k] at e' ⊢
        obtain rfl := Reply.ok.inj e'
        have e0 : (Spec.roomyDb D).fold = D.fold := rfl
        by_cases hf : D.fold r = D.fold ref
        · rw [listed_iff, e0, hf] at k1
          rw [if_pos hf, ← k1]
          have e2 : ((t (D.fold ref)).getD []).filter (fun x => decide (x.id ≠ i ∧ x.id ≠ [])) = ((t (D.fold ref)).getD []).filter (fun x => decide (x.id ≠ l'.id)) := by
            refine List.filter_congr (fun x hx => ?_)
            have := hn x hx
            simp [this, hi]
          refine ⟨?_, fun x hx => hn x (List.mem_filter.1 hx).1⟩
          rw [e2]
          exact hp.filter _
        · rw [if_neg hf]
          have h3 := (listed_iff _ _ _ _).1 ((k2 ref (fun e => hf e.symm) _).2 ((listed_iff _ _ _ _).2 rfl))
          rw [e0] at h3
          rw [← h3]
          exact ⟨hp, hn⟩
    · simp only [LockReq.under, h2]
      refine ⟨?_, hn⟩
      unfold Spec.noteReply
      split
      · rename_i e
        cases (Prod.mk.inj e).1
      · rename_i e
        exact absurd (Option.some.inj (Prod.mk.inj e).2) (h1 _)
      · exact hp
  | list _ => exact ⟨hp, hn⟩
  | verify _ _ _ => exact ⟨hp, hn⟩

/-- **C166** Somebody who has seen the replies knows the locks: those that were granted and not removed, by the replies, are listed, in some order, and no others. -/
theorem C166_ledger (D : DbExt) (h : List (LockFault × LockReq)) (hid : ∀ x ∈ h, Spec.HasId x.2) (ref : Bytes) (ls : List Lock) (hl : Spec.Listed D (runUnder D noLocks h).2 ref ls) :
    ls.Perm ((runUnder D noLocks h).1.foldl (Spec.noteReply D ref) []) := by
  have key : ∀ (h : List (LockFault × LockReq)), (∀ x ∈ h, Spec.HasId x.2) → ∀ (t : LockTable) (held : List Lock), ((t (D.fold ref)).getD []).Perm held → (∀ l ∈ (t (D.fold ref)).getD [], l.id ≠ []) →
      (((runUnder D t h).2 (D.fold ref)).getD []).Perm ((runUnder D t h).1.foldl (Spec.noteReply D ref) held) := by
    intro h
    induction h with
    | nil => exact fun _ _ _ hp _ => hp
    | cons x h ih =>
      intro hx t held hp hn
      obtain ⟨f, q⟩ := x
      obtain ⟨k1, k2⟩ := noteReply_step D ref f q (hx _ (.head _)) t held hp hn
      exact ih (fun y hy => hx y (.tail _ hy)) _ _ k1 k2
  rw [(listed_iff _ _ _ _).1 hl]
  exact key h hid noLocks [] .nil (fun _ h => nomatch h)

/-- **C166** Whatever has failed before: while the database works, every listed lock can be removed, and every file that is not locked can be locked, as far as the table has room. -/
theorem C166_works_again (D : DbExt) (h : List (LockFault × LockReq)) (ref : Bytes) (ls : List Lock) (hl : Spec.Listed D (runUnder D noLocks h).2 ref ls)
    (f : LockFault) (hf : ∀ r l, f.fits r l = true) (hd : f.deletes = true) :
    (∀ l ∈ ls, l.id ≠ [] → (∀ x : List Lock, x.Sublist ls → x.length < ls.length → D.locksFit ref x = true) →
      ∃ l' t', LockReq.under D f (runUnder D noLocks h).2 (.delete ref l.id none) = (some (.ok l'), t') ∧ l'.id = l.id ∧ ∃ ls', Spec.Listed D t' ref ls' ∧ l ∉ ls') ∧
    ∀ path id now, path ≠ [] → (∀ l ∈ ls, l.path ≠ path) → (∀ l : List Lock, l.Perm (⟨id, path, now, none⟩ :: ls) → D.locksFit ref l = true) →
      ∃ t' ls', LockReq.under D f (runUnder D noLocks h).2 (.create ref path id now) = (some (.ok ⟨id, path, now, none⟩), t') ∧ Spec.Listed D t' ref ls' ∧ ls'.Perm (⟨id, path, now, none⟩ :: ls) := by
  have hown : ∀ x ∈ ls, x.owner = none := by
    rw [C166_granted, listed_iff] at hl
    subst hl
    suffices ∀ (q : List LockReq) (t : LockTable), (∀ k, NoOwner ((t k).getD [])) → ∀ k, NoOwner ((q.foldl (LockReq.run (Spec.roomyDb D)) t k).getD []) from
      this _ noLocks (fun k => by simp [noLocks, NoOwner]) _
    intro q
    induction q with
    | nil => exact fun t ht => ht
    | cons x q ih =>
      intro t ht
      refine ih _ (run_invariant (Spec.roomyDb D) NoOwner (fun a b hp ha y hy => ha y (hp.mem_iff.2 hy)) (fun a b hs hb y hy => hb y (hs.subset hy)) x ?_ t ht)
      intro r p i n _ l hl _ y hy
      rcases List.mem_append.1 hy with hy | hy
      · exact hl y hy
      · rw [List.mem_singleton.1 hy]; rfl
  have hD : D.under f = D := by
    unfold DbExt.under
    simp only [hf, Bool.and_true]
  constructor
  · intro l hm hne hfit
    obtain ⟨l1, t1, h1⟩ := C42_known_id D _ ref l.id none ls hl l hm rfl hne (.inr fun x hx _ => hown x hx) hfit
    rcases C42_delete D (runUnder D noLocks h).2 ref l.id none ls hl with ⟨c, hx⟩ | ⟨l', t', hx, -, hi', hlist, -⟩
    · rw [h1] at hx
      cases hx
    · refine ⟨l', t', ?_, hi', _, hlist, by simp⟩
      simp only [LockReq.under, deleteLockUnder, hd, hD, hx]
      rw [if_neg (by simp)]
  · intro path id now hp hfree hfit
    obtain ⟨t', ls', k1, k2, k3, _⟩ := C40_create D (runUnder D noLocks h).2 ref path id now ls hp hl hfree hfit
    refine ⟨t', ls', ?_, k2, k3⟩
    simp only [LockReq.under, hD, k1]

/-! ## Example -/

/-- The database carries out everything, or nothing. -/
def worksFault : LockFault := ⟨fun _ _ => true, true⟩
def downFault : LockFault := ⟨fun _ _ => false, false⟩

/-- A file is locked. Then the database fails: a second file cannot be locked, and the first lock cannot be removed. Then it works again, and the second file is locked. -/
def faultyLocks : List (LockFault × LockReq) :=
  [(worksFault, .create (ascii "r") (ascii "f") (ascii "01234567") (ascii "t1")), (downFault, .create (ascii "r") (ascii "g") (ascii "11234567") (ascii "t2")),
    (downFault, .delete (ascii "r") (ascii "01234567") none), (worksFault, .create (ascii "r") (ascii "g") (ascii "31234567") (ascii "t3"))]

/-- C166: the replies, the locks that are listed, and the list that follows from the replies. -/
example : (runUnder demoDb noLocks faultyLocks).1.map (·.2) =
      [some (.ok (newLock (ascii "f") (ascii "01234567") (ascii "t1"))), some (.status 500), some .panic, some (.ok (newLock (ascii "g") (ascii "31234567") (ascii "t3")))] ∧
    Spec.Listed demoDb (runUnder demoDb noLocks faultyLocks).2 (ascii "r") [newLock (ascii "f") (ascii "01234567") (ascii "t1"), newLock (ascii "g") (ascii "31234567") (ascii "t3")] ∧
    (runUnder demoDb noLocks faultyLocks).1.foldl (Spec.noteReply demoDb (ascii "r")) [] = [newLock (ascii "f") (ascii "01234567") (ascii "t1"), newLock (ascii "g") (ascii "31234567") (ascii "t3")] := by
  have hl : Spec.Listed demoDb (runUnder demoDb noLocks faultyLocks).2 (ascii "r") [newLock (ascii "f") (ascii "01234567") (ascii "t1"), newLock (ascii "g") (ascii "31234567") (ascii "t3")] := by
    unfold Spec.Listed
    decide +kernel
  refine ⟨by decide +kernel, hl, ?_⟩
  decide +kernel

/-- And then the first lock can be removed. -/
example : ∃ l' t', LockReq.under demoDb worksFault (runUnder demoDb noLocks faultyLocks).2 (.delete (ascii "r") (ascii "01234567") none) = (some (.ok l'), t') ∧
    l'.id = ascii "01234567" ∧ ∃ ls', Spec.Listed demoDb t' (ascii "r") ls' ∧ newLock (ascii "f") (ascii "01234567") (ascii "t1") ∉ ls' := by
  have hl : Spec.Listed demoDb (runUnder demoDb noLocks faultyLocks).2 (ascii "r") [newLock (ascii "f") (ascii "01234567") (ascii "t1"), newLock (ascii "g") (ascii "31234567") (ascii "t3")] := by
    unfold Spec.Listed
    decide +kernel
  exact (C166_works_again demoDb faultyLocks (ascii "r") _ hl worksFault (fun _ _ => rfl) rfl).1 _ (.head _) (by decide) (fun _ _ _ => rfl)

end Gust

import Verif.Model.Schema
import Verif.Props.LfsAlive
import Verif.Props.LfsLock
import Verif.Base.Tactics

/-! # What the limits of the columns mean for users of LFS (C120, C121) -/

namespace Gust

/-! ## The length of the JSON text of locks -/

theorem chars_append (a b : Bytes) : chars (a ++ b) = chars a + chars b := by simp [chars]

theorem chars_flatMap_le (f : UInt8 → Bytes) (hf : ∀ b, chars [b] ≤ chars (f b)) : ∀ s : Bytes, chars s ≤ chars (s.flatMap f)
  | [] => Nat.le_refl _
  | b :: s => by
    have h1 := chars_flatMap_le f hf s
    have h2 := hf b
    have h3 := chars_append [b] s
    rw [List.flatMap_cons, chars_append]
    rw [List.singleton_append] at h3
    omega

theorem jsonByte_chars : ∀ b, chars [b] ≤ chars (jsonByte b) := by
  have : ∀ n : Fin 256, chars [UInt8.ofNat n.1] ≤ chars (jsonByte (UInt8.ofNat n.1)) := by decide +kernel
  intro b
  have h := this ⟨b.toNat, b.toNat_lt⟩
  simpa using h

theorem jsonText_chars (s : Bytes) : chars s + 2 ≤ chars (jsonText s) := by
  have := chars_flatMap_le jsonByte jsonByte_chars s
  unfold jsonText
  rw [chars_append, chars_append, show chars (ascii "\"") = 1 by decide]
  omega

theorem jsonLock_chars (l : Lock) : 47 + chars l.id + chars l.path + chars l.lockedAt ≤ chars (jsonLock l) := by
  have h1 := jsonText_chars l.id
  have h2 := jsonText_chars l.path
  have h3 := jsonText_chars l.lockedAt
  have h4 : ∀ o : Bytes, 4 ≤ chars o → 47 + chars l.id + chars l.path + chars l.lockedAt ≤ chars (ascii "{\"id\":" ++ jsonText l.id ++ ascii ",\"path\":" ++ jsonText l.path ++
      ascii ",\"locked_at\":" ++ jsonText l.lockedAt ++ ascii ",\"owner\":" ++ o ++ ascii "}") := by
    intro o ho
    simp only [chars_append]
    have e1 : chars (ascii "{\"id\":") = 6 := by decide
    have e2 : chars (ascii ",\"path\":") = 8 := by decide
    have e3 : chars (ascii ",\"locked_at\":") = 13 := by decide
    have e4 : chars (ascii ",\"owner\":") = 9 := by decide
    have e5 : chars (ascii "}") = 1 := by decide
    omega
  refine h4 _ ?_
  split
  · decide
  · rw [chars_append, chars_append]
    have : chars (ascii "{\"name\":") = 8 := by decide
    omega

theorem intercalate_chars : ∀ ls : List Bytes, chars ((ascii ",").intercalate ls) + 1 = (if ls = [] then 1 else 0) + (ls.map (fun x => chars x + 1)).sum
  | [] => by decide
  | [x] => by simp
  | x :: y :: ls => by
    have := intercalate_chars (y :: ls)
    rw [List.intercalate_cons_cons, chars_append, chars_append, show chars (ascii ",") = 1 by decide, List.map_cons, List.sum_cons, if_neg (by simp)]
    rw [if_neg (by simp)] at this
    omega

/-- The number of characters does not depend on the order. -/
theorem jsonLocks_chars (ls : List Lock) : chars (jsonLocks ls) = (if ls = [] then 1 else 0) + 1 + (ls.map (fun l => chars (jsonLock l) + 1)).sum := by
  have := intercalate_chars (ls.map jsonLock)
  simp only [List.map_eq_nil_iff, List.map_map] at this
  unfold jsonLocks
  rw [chars_append, chars_append, show chars (ascii "[") = 1 by decide, show chars (ascii "]") = 1 by decide]
  have e : (fun x => chars x + 1) ∘ jsonLock = fun l => chars (jsonLock l) + 1 := rfl
  rw [e] at this
  omega

theorem jsonLocks_perm {a b : List Lock} (h : a.Perm b) : chars (jsonLocks a) = chars (jsonLocks b) := by
  cases a with
  | nil => rw [h.nil_eq]
  | cons x a =>
    cases b with
    | nil => exact absurd h.eq_nil (by simp)
    | cons y b => rw [jsonLocks_chars, jsonLocks_chars, (h.map _).sum_eq, if_neg (by simp), if_neg (by simp)]

theorem sublist_sum {a b : List Nat} (h : a.Sublist b) : a.sum ≤ b.sum := by
  induction h with
  | slnil => exact Nat.le_refl _
  | cons x _ ih => rw [List.sum_cons]; omega
  | cons_cons x _ ih => rw [List.sum_cons, List.sum_cons]; omega

theorem jsonLocks_sublist {a b : List Lock} (h : a.Sublist b) : chars (jsonLocks a) ≤ chars (jsonLocks b) := by
  rw [jsonLocks_chars, jsonLocks_chars]
  have := sublist_sum (h.map (fun l => chars (jsonLock l) + 1))
  by_cases hb : b = []
  · subst hb
    rw [List.sublist_nil.1 h]
  · rw [if_neg hb]
    by_cases ha : a = []
    · subst ha
      rw [if_pos rfl]
      obtain ⟨x, b', rfl⟩ := List.exists_cons_of_ne_nil hb
      rw [List.map_cons, List.sum_cons, List.map_nil, List.sum_nil]
      omega
    · rw [if_neg ha]
      omega

theorem sum_bound {α : Type} (f : α → Nat) (b : Nat) : ∀ l : List α, (∀ x ∈ l, b ≤ f x) → l.length * b ≤ (l.map f).sum
  | [], _ => by simp
  | x :: l, h => by
    have h1 := sum_bound f b l (fun y hy => h y (by simp [hy]))
    have h2 := h x (by simp)
    rw [List.map_cons, List.sum_cons, List.length_cons, Nat.succ_mul]
    omega

/-! ## C121 -/

/-- Every row of the table was accepted by the database. -/
def RowsFit (D : DbExt) (t : LockTable) : Prop := ∀ k l, t k = some l → ∃ r, D.locksFit r l = true

theorem rowsFit_set {D : DbExt} {t : LockTable} (h : RowsFit D t) {r : Bytes} {l : List Lock} (hl : D.locksFit r l = true) (k : Bytes) : RowsFit D (setAt t k (some l)) := by
  intro k' l' e
  rw [setAt_eq] at e
  split at e
  · cases e; exact ⟨r, hl⟩
  · exact h k' l' e

theorem rowsFit_unset {D : DbExt} {t : LockTable} (h : RowsFit D t) (k : Bytes) : RowsFit D (setAt t k none) := by
  intro k' l' e
  rw [setAt_eq] at e
  split at e
  · cases e
  · exact h k' l' e

theorem rowsFit_add {D : DbExt} {t t' : LockTable} (h : RowsFit D t) {r : Bytes} {row : Option (List Lock)} {ls : List Lock} (ha : addLockWrite D t r row ls = some t') : RowsFit D t' := by
  cases row with
  | none =>
    simp only [addLockWrite, insertRow] at ha
    split at ha
    · rename_i hc
      cases ha
      exact rowsFit_set h (Bool.and_eq_true_iff.1 hc).2 _
    · cases ha
  | some old =>
    simp only [addLockWrite, updateRow] at ha
    split at ha
    · rename_i hc
      cases ha
      exact rowsFit_set h (Bool.and_eq_true_iff.1 hc).2 _
    · cases ha

theorem rowsFit_delete {D : DbExt} {t t' : LockTable} (h : RowsFit D t) {r id : Bytes} {row : Option (List Lock)} {force : Bool} {l : Lock}
    (hd : deleteLockWrite D t r row id force = some (l, t')) : RowsFit D t' := by
  unfold deleteLockWrite at hd
  split at hd
  · cases hd
  · split at hd
    · cases hd
    · rename_i del new _
      split at hd
      · cases hd
      · split at hd
        · cases hd
          exact rowsFit_unset h _
        · unfold updateRow at hd
          split at hd
          · rename_i hu
            cases hd
            split at hu
            · rename_i hc
              cases hu
              exact rowsFit_set h (Bool.and_eq_true_iff.1 hc).2 _
            · cases hu
          · cases hd

theorem reach_rowsFit (D : DbExt) (s : LockServer) (hs : LockServer.Reach D s) : RowsFit D s.table := by
  induction hs with
  | init => intro k l e; cases e
  | step s s' _ hst ih =>
    cases hst with
    | recvCreate r p i n => exact ih
    | recvDelete r i f => exact ih
    | act k task hk =>
      show RowsFit D (task.step D s.table).2
      cases task with
      | create r p i n =>
        simp only [LockTask.step]
        split
        · split <;> exact ih
        · exact ih
        · exact ih
      | createRead r l => exact ih
      | createWrite r row l =>
        simp only [LockTask.step]
        split
        · rename_i ha
          exact rowsFit_add ih ha
        · exact ih
      | delete r i f =>
        simp only [LockTask.step]
        split <;> exact ih
      | deleteWrite r row i f =>
        simp only [LockTask.step]
        split
        · rename_i hd
          exact rowsFit_delete ih hd
        · exact ih
      | done r => exact ih

/-- What is listed for a ref has room in the column, in every reachable state. -/
theorem listed_room {D : DbExt} (hD : Spec.DumpLimits D) {s : LockServer} (hs : LockServer.Reach D s) {r : Bytes} {ls : List Lock} (hl : Spec.Listed D s.table r ls) :
    chars (jsonLocks ls) ≤ 10000 := by
  rw [listed_iff] at hl
  subst hl
  cases e : s.table (D.fold r) with
  | none => decide
  | some l =>
    obtain ⟨r', h⟩ := reach_rowsFit D s hs _ _ e
    exact hD.locks r' l h

/-- **C121 is false**: with the tables of the dump, whatever requests have been sent and however they overlapped, no ref ever has more than 208 locks. If paths, ids and times of all locks of the ref have
together at least `b` characters each, there are fewer than 10000 / (48 + `b`). -/
theorem C121_bounded_false (D : DbExt) (hD : Spec.DumpLimits D) (s : LockServer) (hs : LockServer.Reach D s) (r : Bytes) (ls : List Lock) (hl : Spec.Listed D s.table r ls) :
    ls.length ≤ 208 ∧ ∀ b, (∀ l ∈ ls, b ≤ chars l.id + chars l.path + chars l.lockedAt) → ls.length * (48 + b) < 10000 := by
  have h1 := listed_room hD hs hl
  rw [jsonLocks_chars] at h1
  have key : ∀ b, (∀ l ∈ ls, b ≤ chars l.id + chars l.path + chars l.lockedAt) → ls.length * (48 + b) < 10000 := by
    intro b hb
    have := sum_bound (fun l => chars (jsonLock l) + 1) (48 + b) ls (fun l hm => by
      have h2 := jsonLock_chars l
      have h3 := hb l hm
      omega)
    omega
  refine ⟨?_, key⟩
  have := key 0 (fun l _ => Nat.zero_le _)
  omega

/-- **C121 is false**: a creation request that finds no more room is answered with status 500 and changes nothing, although nobody holds a lock for the path. (In every state, also an unreachable one.) -/
theorem C121_full_false (D : DbExt) (hD : Spec.DumpLimits D) (t : LockTable) (r path id now : Bytes) (ls : List Lock) (hl : Spec.Listed D t r ls) (hp : path ≠ [])
    (hfree : ∀ l ∈ ls, l.path ≠ path) (hfull : 10000 < chars (jsonLocks ({ id := id, path := path, lockedAt := now, owner := none } :: ls))) :
    createLock D t r path id now = (.status 500, t) := by
  rcases createLock_cases D t r path id now with ⟨h, -⟩ | ⟨-, -, h⟩ | ⟨-, t', h1, h2⟩
  · exfalso
    rw [listed_iff] at hl
    subst hl
    exact h (by rw [onlyPath_eq_nil, if_neg hp]; exact hfree)
  · exact h
  · exfalso
    rw [listed_iff] at hl
    subst hl
    have hperm : ∀ new : List Lock, new.Perm ((t (D.fold r)).getD [] ++ [newLock path id now]) → ¬ chars (jsonLocks new) ≤ 10000 := by
      intro new hn hc
      rw [jsonLocks_perm (hn.trans List.perm_append_comm)] at hc
      exact absurd hc (Nat.not_le.2 hfull)
    unfold lfsAddLock at h1
    cases e : t (D.fold r) with
    | none =>
      rw [e] at h1
      simp only [addLockWrite, insertRow] at h1
      split at h1
      · rename_i hc
        refine hperm _ ?_ (hD.locks _ _ (Bool.and_eq_true_iff.1 hc).2)
        rw [e]
        exact sortLocks_perm _
      · cases h1
    | some old =>
      rw [e] at h1
      simp only [addLockWrite, updateRow] at h1
      split at h1
      · rename_i hc
        refine hperm _ ?_ (hD.locks _ _ (Bool.and_eq_true_iff.1 hc).2)
        rw [e]
        exact sortLocks_perm _
      · cases h1

/-- **C121 (partial)** With the tables of the dump and a database that does not fail otherwise, a creation request for a path that is not locked is answered with the lock, and
the lock is listed, if there is room left for it. (Missing: see `C121_bounded_false` and `C121_full_false`; refs with names of more than 200 characters; overlapping requests, see C40.) -/
theorem C121_create_partial (D : DbExt) (hD : Spec.DumpLimitsOnly D) (t : LockTable) (r path id now : Bytes) (hr : chars r ≤ 200) (ls : List Lock) (hl : Spec.Listed D t r ls)
    (hp : path ≠ []) (hfree : ∀ l ∈ ls, l.path ≠ path) (hroom : chars (jsonLocks ({ id := id, path := path, lockedAt := now, owner := none } :: ls)) ≤ 10000) :
    ∃ t' ls', createLock D t r path id now = (.ok { id := id, path := path, lockedAt := now, owner := none }, t') ∧
      Spec.Listed D t' r ls' ∧ ls'.Perm ({ id := id, path := path, lockedAt := now, owner := none } :: ls) := by
  obtain ⟨t', ls', h1, h2, h3, _⟩ := C40_create D t r path id now ls hp hl hfree (fun l hperm => hD.locks_ok r l hr (by rw [jsonLocks_perm hperm]; exact hroom))
  exact ⟨t', ls', h1, h2, h3⟩

/-- **C121** In every reachable state every lock can be removed again by its id, however full the ref is. -/
theorem C121_unlock_partial (D : DbExt) (hD : Spec.DumpLimitsOnly D) (s : LockServer) (hs : LockServer.Reach D s) (r : Bytes) (hr : chars r ≤ 200) (ls : List Lock)
    (hl : Spec.Listed D s.table r ls) (l : Lock) (hm : l ∈ ls) (hne : l.id ≠ []) : ∃ l' t', deleteLock D s.table r l.id none = (.ok l', t') :=
  C66_anyone_unlocks D s hs r ls hl l hm hne (fun _ hx _ => hD.locks_ok r _ hr (Nat.le_trans (jsonLocks_sublist hx) (listed_room hD.toDumpLimits hs hl)))

/-! ## C120 -/

/-- Whoever announces this object says that it has 2 GiB or more. -/
def Spec.BigObject (D : DbExt) (oid : Bytes) (q : LfsReq) : Prop := ∀ op vs, q = .batch op vs → ∀ v ∈ vs, D.fold v.oid = D.fold oid → 2 ^ 31 ≤ v.size

/-- Phases of batch requests only. -/
def LfsPhase.ofBatch : LfsPhase → Bool
  | .next .. | .look .. | .check .. | .insert .. => true
  | _ => false

/-- How far a request can be when the object has no row. -/
def BigTask (D : DbExt) (oid : Bytes) (q : LfsReq) (ph : LfsPhase) : Prop :=
  match q with
  | .upload o _ => ph.ofBatch = false ∧ (D.fold o = D.fold oid → ph = .start ∨ ph = .lookup ∨ ph = .done .panic)
  | .download _ => ph.ofBatch = false
  | .batch op vs =>
    match ph with
    | .next vs' _ => vs' ⊆ vs ∧ (op = ascii "upload" → ∀ v ∈ vs, D.fold v.oid = D.fold oid → v ∈ vs')
    | .look _ w vs' _ => w :: vs' ⊆ vs ∧ (op = ascii "upload" → ∀ v ∈ vs, D.fold v.oid = D.fold oid → v ∈ vs')
    | .check w vs' _ => w :: vs' ⊆ vs ∧ (op = ascii "upload" → ∀ v ∈ vs, D.fold v.oid = D.fold oid → v ∈ w :: vs')
    | .insert w vs' _ => w :: vs' ⊆ vs ∧ (op = ascii "upload" → ∀ v ∈ vs, D.fold v.oid = D.fold oid → v ∈ w :: vs')
    | .start => True
    | .done (.ok _) => op = ascii "upload" → ∀ v ∈ vs, D.fold v.oid ≠ D.fold oid
    | .done _ => True
    | _ => False

theorem announces_iff {op : Bytes} {vs : List RequestVars} : (LfsReq.batch op vs).announces = true ↔ op = ascii "upload" := by
  simp [LfsReq.announces]

theorem bigTask_notFound {D : DbExt} {oid op : Bytes} {vs : List RequestVars} {w : RequestVars} {vs' : List RequestVars} {acc : List Rep} (h1 : w :: vs' ⊆ vs)
    (h2 : op = ascii "upload" → ∀ v ∈ vs, D.fold v.oid = D.fold oid → v ∈ w :: vs') :
    BigTask D oid (.batch op vs) (notFound (LfsReq.batch op vs).announces w vs' acc) := by
  unfold notFound
  split
  · exact ⟨h1, h2⟩
  · rename_i h
    exact ⟨fun x hx => h1 (List.mem_cons_of_mem _ hx), fun e => absurd (announces_iff.2 e) h⟩

theorem bigTask_step {D : DbExt} (hD : Spec.DumpLimits D) {E : StoreExt} {oid : Bytes} {n : Nat} {s : LfsState} {q : LfsReq} {ph : LfsPhase}
    (hs : s.metas (D.fold oid) = none) (hq : Spec.BigObject D oid q) (h : BigTask D oid q ph) :
    (LfsTask.step D E n s { req := q, phase := ph }).2.metas (D.fold oid) = none ∧ BigTask D oid q (LfsTask.step D E n s { req := q, phase := ph }).1 := by
  cases q with
  | upload o b =>
    obtain ⟨h1, h2⟩ := h
    cases ph <;> try (simp [LfsPhase.ofBatch] at h1; done)
    case start =>
      simp only [LfsTask.step]
      split
      · exact ⟨hs, rfl, fun _ => by simp⟩
      · exact ⟨hs, rfl, fun _ => by simp⟩
    case lookup =>
      simp only [LfsTask.step, lfsGetMeta]
      cases e : s.metas (D.fold o) with
      | none => exact ⟨hs, rfl, fun _ => by simp⟩
      | some row => exact ⟨hs, rfl, fun hf => by rw [hf, hs] at e; cases e⟩
    case done r => exact ⟨hs, h1, h2⟩
    all_goals
      have hne : D.fold o ≠ D.fold oid := fun e => by simpa using h2 e
      simp only [LfsTask.step]
      repeat' split
      all_goals first
        | exact ⟨hs, rfl, fun e => absurd e hne⟩
        | exact ⟨by simp only [lfsDeleteMeta, setAt]; rw [if_neg (fun e => hne e.symm)]; exact hs, rfl, fun e => absurd e hne⟩
  | download o =>
    cases ph <;> try (simp [BigTask, LfsPhase.ofBatch] at h; done)
    all_goals
      simp only [LfsTask.step]
      repeat' split
      all_goals exact ⟨hs, rfl⟩
  | batch op vs =>
    cases ph <;> try (exact absurd h id)
    case start =>
      simp only [LfsTask.step]
      split
      · exact ⟨hs, trivial⟩
      · exact ⟨hs, fun _ h => h, fun _ v hv _ => hv⟩
    case next vs' acc =>
      obtain ⟨h1, h2⟩ := h
      cases vs' with
      | nil =>
        refine ⟨hs, fun e v hv hf => ?_⟩
        cases h2 e v hv hf
      | cons w vs' =>
        simp only [LfsTask.step, lfsGetMeta]
        cases e : s.metas (D.fold w.oid) with
        | some row =>
          refine ⟨hs, h1, fun ho v hv hf => ?_⟩
          rcases List.mem_cons.1 (h2 ho v hv hf) with rfl | hm
          · rw [hf, hs] at e; cases e
          · exact hm
        | none => exact ⟨hs, bigTask_notFound h1 h2⟩
    case look row w vs' acc =>
      obtain ⟨h1, h2⟩ := h
      simp only [LfsTask.step]
      split
      · exact ⟨hs, fun x hx => h1 (List.mem_cons_of_mem _ hx), h2⟩
      · exact ⟨hs, bigTask_notFound h1 fun ho v hv hf => List.mem_cons_of_mem _ (h2 ho v hv hf)⟩
      · exact ⟨hs, trivial⟩
    case check w vs' acc =>
      obtain ⟨h1, h2⟩ := h
      simp only [LfsTask.step]
      cases e : s.metas (D.fold w.oid) with
      | some row =>
        refine ⟨hs, fun x hx => h1 (List.mem_cons_of_mem _ hx), fun ho v hv hf => ?_⟩
        rcases List.mem_cons.1 (h2 ho v hv hf) with rfl | hm
        · rw [hf, hs] at e; cases e
        · exact hm
      | none => exact ⟨hs, h1, h2⟩
    case insert w vs' acc =>
      obtain ⟨h1, h2⟩ := h
      simp only [LfsTask.step]
      cases e : s.metas (D.fold w.oid) with
      | some row => exact ⟨hs, trivial⟩
      | none =>
        dsimp only
        by_cases hm : D.metaFits w.oid w.size = true
        · rw [if_pos hm]
          have hne : D.fold w.oid ≠ D.fold oid := by
            intro hf
            have := hq op vs rfl w (h1 (List.mem_cons_self ..)) hf
            have := hD.metas _ _ hm
            omega
          refine ⟨?_, fun x hx => h1 (List.mem_cons_of_mem _ hx), fun ho v hv hf => ?_⟩
          · simp only [setAt]; rw [if_neg (fun e => hne e.symm)]; exact hs
          · rcases List.mem_cons.1 (h2 ho v hv hf) with rfl | hm'
            · exact absurd hf hne
            · exact hm'
        · rw [if_neg hm]; exact ⟨hs, trivial⟩
    case done r => exact ⟨hs, h⟩

/-- **C120 (false)** Objects of 2 GiB or more cannot be uploaded: on a server that has no row for an object, whatever requests overlap, if every announcement of the object
says that it has 2 GiB or more, then no request that announces it is ever answered with entries, no upload of it is ever answered as stored, and it never gets a row. -/
theorem C120_big_false (D : DbExt) (hD : Spec.DumpLimits D) (E : StoreExt) (s0 : LfsState) (oid : Bytes) (hs : s0.metas (D.fold oid) = none) (s : LfsServer)
    (hr : LfsServer.Runs D E (Spec.BigObject D oid) (.new s0) s) :
    s.state.metas (D.fold oid) = none ∧
    (∀ (i : Nat) vs l, s.tasks[i]? = some { req := .batch (ascii "upload") vs, phase := .done (.ok l) } → ∀ v ∈ vs, D.fold v.oid ≠ D.fold oid) ∧
    (∀ (i : Nat) oid' body r, s.tasks[i]? = some { req := .upload oid' body, phase := .done r } → D.fold oid' = D.fold oid → r = .panic) := by
  have inv : s.state.metas (D.fold oid) = none ∧ ∀ (i : Nat) t, s.tasks[i]? = some t → Spec.BigObject D oid t.req ∧ BigTask D oid t.req t.phase := by
    generalize hx : LfsServer.new s0 = x at hr
    induction hr with
    | refl => subst hx; exact ⟨hs, fun i t h => by cases h⟩
    | step t u _ hst ih =>
      obtain ⟨h1, h2⟩ := ih
      cases hst with
      | arrive q hq =>
        refine ⟨h1, fun i w hw => ?_⟩
        rcases List.mem_append.1 (List.mem_of_getElem? hw) with hm | hm
        · obtain ⟨j, hj⟩ := List.mem_iff_getElem?.1 hm
          exact h2 j w hj
        · rw [List.mem_singleton] at hm
          subst hm
          refine ⟨hq, ?_⟩
          cases q <;> simp [BigTask, LfsPhase.ofBatch]
      | run i n w hw =>
        obtain ⟨h3, h4⟩ := h2 i w hw
        have := bigTask_step (E := E) (n := n) hD h1 h3 h4
        refine ⟨this.1, fun j v hv => ?_⟩
        rcases getElem?_set_cases hv with ⟨_, rfl⟩ | ⟨_, hv⟩
        · exact ⟨h3, this.2⟩
        · exact h2 j v hv
  refine ⟨inv.1, fun i vs l hi => ?_, fun i o b r hi hf => ?_⟩
  · exact (inv.2 i _ hi).2 rfl
  · have := (inv.2 i _ hi).2.2 hf
    simpa using this

/-- **C120 (partial)** On a new server, whatever requests overlap: a batch request for objects of less than 2 GiB with names of at most 100 characters, which no other request
announces, is never answered by a crash; when it is answered, there is one entry for each object, in order. (Missing: bigger objects, see `C120_big_false`. Assumed: the limits
of the dump are the only ones, and names with characters of several bytes are not cut inside a character.) -/
theorem C120_announced_partial (D : DbExt) (hD : Spec.CollationOk D) (hL : Spec.DumpLimitsOnly D) (E : StoreExt) (s0 : LfsState) (hs : Spec.FreshStore E s0) (s : LfsServer)
    (hr : LfsServer.Runs D E Spec.RoutedReq (.new s0) s) (k : Nat) (op : Bytes) (vs : List RequestVars) (hsize : ∀ v ∈ vs, 0 ≤ v.size ∧ v.size < 2 ^ 31)
    (hname : ∀ v ∈ vs, chars v.oid ≤ 100)
    (hpath : ∀ v ∈ vs, ∀ o, D.fold o = D.fold v.oid → ∃ p, storePath E o = .ok p) (hone : op = ascii "upload" → Spec.OnlyOne D vs k s) (r : Reply LfsOut)
    (hd : s.tasks[k]? = some { req := .batch op vs, phase := .done r }) : ∃ l, r = .ok (.entries l) ∧ List.Forall₂ (Spec.EntryFor D) l vs :=
  C102_answered_partial D hD E s0 hs s hr k op vs (fun v hv => hL.metas_ok _ _ (hname v hv) (by have := hsize v hv; omega) (hsize v hv).2) hpath hone r hd

end Gust

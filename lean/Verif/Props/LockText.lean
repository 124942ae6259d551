import Verif.Model.LockText
import Verif.Props.JsonReply

/-! # C133: locks survive being stored as text -/

namespace Gust

/-- The texts of a table of locks. -/
def LockTable.texts (t : LockTable) : TextTable := fun k => (t k).map jsonLocks

/-- The database judges lists of locks by their texts. -/
def Spec.FitsAsText (D : DbExt) (F : TextFit) : Prop := ∀ r ls, D.locksFit r ls = F r (jsonLocks ls)

/-- A request whose strings are strings, as those are that come out of a JSON text, the random number generator and the clock. -/
def Spec.TextReq : LockReq → Prop
  | .create _ p i n => utf8Valid p = true ∧ utf8Valid i = true ∧ utf8Valid n = true
  | _ => True

theorem setAt_texts (t : LockTable) (k : Bytes) (o : Option (List Lock)) : setAt t.texts k (o.map jsonLocks) = (show LockTable from setAt t k o).texts := by
  funext k'
  show _ = (setAt t k o k').map jsonLocks
  rw [setAt_eq, setAt_eq]
  split <;> rfl

theorem read_texts {t : LockTable} (ht : t.Clean) (k : Bytes) : (t.texts k = none ∧ t k = none) ∨ ∃ ls, t k = some ls ∧ t.texts k = some (jsonLocks ls) ∧ readLocks (jsonLocks ls) = some ls := by
  cases e : t k with
  | none => exact .inl ⟨by rw [LockTable.texts, e]; rfl, rfl⟩
  | some ls => exact .inr ⟨ls, rfl, by rw [LockTable.texts, e]; rfl, readLocks_jsonLocks ls (ht k ls e)⟩

theorem textGet_eq (D : DbExt) {t : LockTable} (ht : t.Clean) (r : Bytes) : textGetLocks D t.texts r = .ok (lfsGetLocks D t r) := by
  rw [textGetLocks, lfsGetLocks]
  rcases read_texts ht (D.fold r) with ⟨e, e'⟩ | ⟨ls, e', e, hr⟩
  · rw [e, e']
  · rw [e, e']
    simp only [hr]

theorem textFiltered_eq (D : DbExt) {t : LockTable} (ht : t.Clean) (r p c n : Bytes) : textFilteredLocks D t.texts r p c n = lfsGetFilteredLocks D t r p c n := by
  rw [textFilteredLocks, textGet_eq D ht]
  rfl

theorem textRow_eq {ls : List Lock} (h : ∀ l ∈ ls, l.Clean) : textRow (jsonLocks ls) = some ls := by
  rw [textRow, if_neg (by simp [jsonLocks, ascii]), readLocks_jsonLocks ls h]

theorem textUpdate_eq {D : DbExt} {F : TextFit} (hF : Spec.FitsAsText D F) (t : LockTable) (r : Bytes) (ls : List Lock) :
    textUpdate D F t.texts r (jsonLocks ls) = (updateRow D t r ls).map LockTable.texts := by
  have e : (t.texts (D.fold r)).isSome = (t (D.fold r)).isSome := by simp [LockTable.texts]
  rw [textUpdate, updateRow, hF, e]
  split
  · rw [Option.map_some, ← setAt_texts]; rfl
  · rfl

theorem textInsert_eq {D : DbExt} {F : TextFit} (hF : Spec.FitsAsText D F) (t : LockTable) (r : Bytes) (ls : List Lock) :
    textInsert D F t.texts r (jsonLocks ls) = (insertRow D t r ls).map LockTable.texts := by
  have e : (t.texts (D.fold r)).isNone = (t (D.fold r)).isNone := by simp [LockTable.texts]
  rw [textInsert, insertRow, hF, e]
  split
  · rw [Option.map_some, ← setAt_texts]; rfl
  · rfl

theorem textAdd_eq {D : DbExt} {F : TextFit} (hF : Spec.FitsAsText D F) {t : LockTable} (ht : t.Clean) (r : Bytes) (ls : List Lock) :
    textAddLock D F t.texts r ls = .ok ((lfsAddLock D t r ls).map LockTable.texts) := by
  rw [textAddLock, lfsAddLock, addLockWrite.eq_def]
  cases e : t (D.fold r) with
  | none => rw [show t.texts (D.fold r) = none by rw [LockTable.texts, e]; rfl]; simp only [textInsert_eq hF]
  | some old => rw [show t.texts (D.fold r) = some (jsonLocks old) by rw [LockTable.texts, e]; rfl]; simp only [textRow_eq (ht _ _ e), textUpdate_eq hF]

theorem textDeleteLock_eq {D : DbExt} {F : TextFit} (hF : Spec.FitsAsText D F) {t : LockTable} (ht : t.Clean) (r i : Bytes) (f : Bool) :
    textDeleteLock D F t.texts r i f = .ok ((lfsDeleteLock D t r i f).map (fun x => (x.1, x.2.texts))) := by
  rw [textDeleteLock, lfsDeleteLock, deleteLockWrite.eq_def]
  cases e : t (D.fold r) with
  | none => rw [show t.texts (D.fold r) = none by rw [LockTable.texts, e]; rfl]; rfl
  | some old =>
    rw [show t.texts (D.fold r) = some (jsonLocks old) by rw [LockTable.texts, e]; rfl]
    simp only [textRow_eq (ht _ _ e)]
    cases deleteScan i f old (emptyLock D, []) with
    | none => rfl
    | some x =>
      simp only
      split
      · rfl
      · split
        · have := setAt_texts t (D.fold r) none
          simp only [Option.map_none] at this
          rw [this]; rfl
        · rw [textUpdate_eq hF]
          cases updateRow D t r x.2 <;> rfl

/-- **C133**, requests: kept as texts, the locks are answered as if they were kept themselves, and what is kept afterwards are the texts of what would be kept. -/
theorem C133_answers (D : DbExt) (F : TextFit) (hF : Spec.FitsAsText D F) (t : LockTable) (ht : t.Clean) :
    (∀ q, textRetrieve D t.texts q = retrieveLock D t q) ∧ (∀ r c n, textVerify D t.texts r c n = verifyLock D t r c n) ∧
    (∀ r p i n, textCreate D F t.texts r p i n = ((createLock D t r p i n).1, (createLock D t r p i n).2.texts)) ∧
    (∀ r i f, textDelete D F t.texts r i f = ((deleteLock D t r i f).1, (deleteLock D t r i f).2.texts)) := by
  refine ⟨fun q => ?_, fun r c n => ?_, fun r p i n => ?_, fun r i f => ?_⟩
  · simp only [textRetrieve, retrieveLock, textFiltered_eq D ht]
    rfl
  · simp only [textVerify, verifyLock, textFiltered_eq D ht]
    rfl
  · simp only [textCreate, createLock, textFiltered_eq D ht, textAdd_eq hF ht]
    cases lfsGetFilteredLocks D t r p [] (ascii "1") with
    | ok x =>
      simp only
      split
      · rfl
      · cases lfsAddLock D t r [newLock p i n] <;> rfl
    | _ => rfl
  · simp only [textDelete, deleteLock, textDeleteLock_eq hF ht]
    split
    · rfl
    · cases lfsDeleteLock D t r i (f.getD false) <;> rfl

theorem run_clean (D : DbExt) : ∀ (h : List LockReq) (t : LockTable), t.Clean → (∀ x ∈ h, Spec.TextReq x) → LockTable.Clean (h.foldl (LockReq.run D) t)
  | [], _, ht, _ => ht
  | x :: h, t, ht, hx => by
    refine run_clean D h _ ?_ (fun y hy => hx y (by simp [hy]))
    have h0 := hx x (by simp)
    cases x with
    | create r p i n => exact create_clean ht h0.1 h0.2.1 h0.2.2
    | delete r i f => exact delete_clean ht |>.1
    | _ => exact ht

theorem noLocks_clean : LockTable.Clean noLocks := by intro k ls h; cases h

/-- **C133**: after every history the column holds the texts of the locks. -/
theorem C133_stored (D : DbExt) (F : TextFit) (hF : Spec.FitsAsText D F) (h : List LockReq) (hh : ∀ x ∈ h, Spec.TextReq x) : runText D F h = (runLocks D h).texts := by
  have : ∀ (h : List LockReq) (t : LockTable), t.Clean → (∀ x ∈ h, Spec.TextReq x) →
      h.foldl (LockReq.runText D F) t.texts = (show LockTable from h.foldl (LockReq.run D) t).texts := by
    intro h
    induction h with
    | nil => intro t _ _; rfl
    | cons x h ih =>
      intro t ht hx
      have hc := run_clean D [x] t ht (by intro y hy; rw [List.mem_singleton] at hy; exact hy ▸ hx x (by simp))
      have e : LockReq.runText D F t.texts x = (LockReq.run D t x).texts := by
        obtain ⟨-, -, h3, h4⟩ := C133_answers D F hF t ht
        cases x with
        | create r p i n => exact congrArg Prod.snd (h3 r p i n)
        | delete r i f => exact congrArg Prod.snd (h4 r i f)
        | _ => rfl
      rw [List.foldl_cons, List.foldl_cons, e]
      exact ih _ hc (fun y hy => hx y (by simp [hy]))
  exact this h noLocks noLocks_clean hh

theorem keeps_lock (D : DbExt) {k : Bytes} {l : Lock} (hl : l.id ≠ []) : ∀ (h : List LockReq) (t : LockTable),
    (∀ r i f, LockReq.delete r i f ∈ h → i ≠ l.id) → (∃ ls, t k = some ls ∧ l ∈ ls) → ∃ ls, h.foldl (LockReq.run D) t k = some ls ∧ l ∈ ls
  | [], _, _, ht => ht
  | x :: h, t, hd, ⟨ls, h1, h2⟩ => by
    refine keeps_lock D hl h _ (fun r i f hm => hd r i f (by simp [hm])) ?_
    cases x with
    | create r p i n =>
      show ∃ ls, (createLock D t r p i n).2 k = some ls ∧ l ∈ ls
      rcases createLock_cases D t r p i n with ⟨-, e⟩ | ⟨-, -, e⟩ | ⟨-, t', ha, e⟩
      · rw [e]; exact ⟨ls, h1, h2⟩
      · rw [e]; exact ⟨ls, h1, h2⟩
      · rw [e]
        obtain ⟨new, rfl, hperm⟩ := addLockWrite_some ha
        by_cases hk : k = D.fold r
        · subst hk
          exact ⟨new, setAt_same _ _ _, hperm.mem_iff.2 (by rw [h1]; simp [h2])⟩
        · exact ⟨ls, by show setAt t (D.fold r) (some new) k = _; rw [setAt_eq, if_neg hk]; exact h1, h2⟩
    | delete r i f =>
      have hi := hd r i f (by simp)
      show ∃ ls, (deleteLock D t r i f).2 k = some ls ∧ l ∈ ls
      rcases deleteLock_cases D t r i f with ⟨c, e⟩ | ⟨l', t', hdl, e⟩
      · rw [e]; exact ⟨ls, h1, h2⟩
      · rw [e]
        obtain ⟨old, g1, -, -, g3⟩ := deleteLockWrite_some hdl
        have hkeep : k = D.fold r → l ∈ old.filter (fun x => x.id != i && decide (0 < x.id.length)) := by
          intro hk
          rw [← hk, h1] at g1
          cases g1
          refine List.mem_filter.2 ⟨h2, ?_⟩
          have : 0 < l.id.length := by
            cases e : l.id with
            | nil => exact absurd e hl
            | cons => simp
          simp [Ne.symm hi, this]
        by_cases hk : k = D.fold r
        · rcases g3 with ⟨-, e'⟩ | rfl
          · have := hkeep hk; rw [e'] at this; cases this
          · exact ⟨_, by rw [hk]; exact setAt_same _ _ _, hkeep hk⟩
        · refine ⟨ls, ?_, h2⟩
          rcases g3 with ⟨rfl, -⟩ | rfl <;> (show setAt _ _ _ k = _; rw [setAt_eq, if_neg hk]; exact h1)
    | _ => exact ⟨ls, h1, h2⟩

/-- **C133**, listing: a lock that was created is listed with exactly its path, its id and its time, whatever characters they have, until somebody deletes a lock with its id. -/
theorem C133_listed (D : DbExt) (F : TextFit) (hF : Spec.FitsAsText D F) (h1 h2 : List LockReq) (r p i n : Bytes) (l : Lock)
    (hh1 : ∀ x ∈ h1, Spec.TextReq x) (hh2 : ∀ x ∈ h2, Spec.TextReq x) (hp : utf8Valid p = true) (hi : utf8Valid i = true) (hn : utf8Valid n = true) (hne : i ≠ [])
    (hok : (textCreate D F (runText D F h1) r p i n).1 = .ok l) (hd : ∀ r' i' f, LockReq.delete r' i' f ∈ h2 → i' ≠ i) :
    l.path = p ∧ l.id = i ∧ l.lockedAt = n ∧
      ∃ ls, textRetrieve D (runText D F (h1 ++ .create r p i n :: h2)) { refspec := some r } = .ok (ls, []) ∧ l ∈ ls := by
  have hc1 : (runLocks D h1).Clean := run_clean D h1 noLocks noLocks_clean hh1
  rw [C133_stored D F hF h1 hh1, ((C133_answers D F hF _ hc1).2.2.1 r p i n)] at hok
  have hl : l = newLock p i n := by
    rcases createLock_cases D (runLocks D h1) r p i n with ⟨-, e⟩ | ⟨-, -, e⟩ | ⟨-, t', -, e⟩
    · rw [e] at hok; cases hok
    · rw [e] at hok; cases hok
    · rw [e] at hok; cases hok; rfl
  subst hl
  refine ⟨rfl, rfl, rfl, ?_⟩
  have hall : ∀ x ∈ h1 ++ .create r p i n :: h2, Spec.TextReq x := by
    intro x hx
    rcases List.mem_append.1 hx with hx | hx
    · exact hh1 x hx
    · rcases List.mem_cons.1 hx with rfl | hx
      · exact ⟨hp, hi, hn⟩
      · exact hh2 x hx
  have hc2 : (runLocks D (h1 ++ .create r p i n :: h2)).Clean := run_clean D _ noLocks noLocks_clean hall
  rw [C133_stored D F hF _ hall, (C133_answers D F hF _ hc2).1]
  have hcreated : ∃ ls, (createLock D (runLocks D h1) r p i n).2 (D.fold r) = some ls ∧ newLock p i n ∈ ls := by
    rcases createLock_cases D (runLocks D h1) r p i n with ⟨-, e⟩ | ⟨-, -, e⟩ | ⟨-, t', ha, e⟩
    · rw [e] at hok; cases hok
    · rw [e] at hok; cases hok
    · rw [e]
      obtain ⟨new, rfl, hperm⟩ := addLockWrite_some ha
      exact ⟨new, setAt_same _ _ _, hperm.mem_iff.2 (by simp)⟩
  obtain ⟨ls, e1, e2⟩ := keeps_lock D (l := newLock p i n) hne h2 _ hd hcreated
  have hrun : runLocks D (h1 ++ .create r p i n :: h2) = h2.foldl (LockReq.run D) (createLock D (runLocks D h1) r p i n).2 := by
    rw [runLocks, List.foldl_append, List.foldl_cons]; rfl
  refine ⟨ls, ?_, e2⟩
  have := (listed_iff D (runLocks D (h1 ++ .create r p i n :: h2)) r ls).2 (by rw [hrun, e1]; rfl)
  exact this

/-- **C133**, rows that the program did not write: an empty column, which the writing functions take for no locks, makes the listing crash. -/
theorem C133_empty_row (D : DbExt) (t : TextTable) (r : Bytes) (ht : t (D.fold r) = some []) :
    textRetrieve D t { refspec := some r } = .panic ∧ ∀ F p i n, textCreate D F t r p i n = (.panic, t) := by
  have e : textGetLocks D t r = .panic := by
    rw [textGetLocks, ht]
    have : readLocks [] = none := by decide +kernel
    simp only [this]
  constructor
  · simp only [textRetrieve, textFilteredLocks, Option.getD_some, e]
    rfl
  · intro F p i n
    simp only [textCreate, textFilteredLocks, e]
    rfl

/-! ## Examples -/

/-- A path with a quotation mark, a backslash, a line feed and a character outside ASCII. -/
def wildPath : Bytes := trickyPath ++ [0xf0, 0x9f, 0x98, 0x80]

/-- It is created and listed. -/
example : ∃ ls, textRetrieve demoDb (runText demoDb (fun _ _ => true)
      ([.create (ascii "r") (ascii "other") (ascii "1") (ascii "9")] ++ .create (ascii "r") wildPath (ascii "2") (ascii "5") :: [.delete (ascii "r") (ascii "1") none]))
      { refspec := some (ascii "r") } = .ok (ls, []) ∧ newLock wildPath (ascii "2") (ascii "5") ∈ ls := by
  refine (C133_listed demoDb (fun _ _ => true) (fun _ _ => rfl) [.create (ascii "r") (ascii "other") (ascii "1") (ascii "9")] [.delete (ascii "r") (ascii "1") none] (ascii "r") wildPath (ascii "2")
    (ascii "5") (newLock wildPath (ascii "2") (ascii "5")) ?_ ?_ (by decide +kernel) (by decide +kernel) (by decide +kernel) (by decide) (by decide +kernel) ?_).2.2.2
  · intro x hx
    rw [List.mem_singleton] at hx
    subst hx
    exact ⟨by decide +kernel, by decide +kernel, by decide +kernel⟩
  · intro x hx
    rw [List.mem_singleton] at hx
    subst hx
    trivial
  · intro r' i' f h
    rw [List.mem_singleton] at h
    cases h
    decide

/-- What the column holds then. -/
example : runText demoDb (fun _ _ => true) [.create (ascii "r") trickyPath (ascii "2") (ascii "5")] (ascii "r") =
    some (ascii "[{\"id\":\"2\",\"path\":\"a\\\"b\\\\c\\n\",\"locked_at\":\"5\",\"owner\":null}]") := by decide +kernel

end Gust

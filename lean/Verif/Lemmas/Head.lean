import Verif.Model.Storage
import Verif.Lemmas.Codec
import Verif.Base.Tactics

/-! # HEAD -/

namespace Gust

theorem order_head {E : SqlExt} {α : Type} {l : List α} {a : α} (h : (E.order l).head? = some a) : a ∈ l :=
  (E.order_perm l).mem_iff.1 (List.mem_of_mem_head? h)

theorem order_none {E : SqlExt} {α : Type} {l : List α} : (E.order l).head? = none ↔ l = [] := by
  rw [List.head?_eq_none_iff]
  constructor
  · intro h; have := E.order_perm l; rw [h] at this; exact this.symm.eq_nil
  · rintro rfl; exact (E.order_perm []).eq_nil

theorem order_singleton (E : SqlExt) {α : Type} (a : α) : E.order [a] = [a] := List.perm_singleton.1 (E.order_perm [a])

theorem order_head_some (E : SqlExt) {α : Type} {l : List α} (h : l ≠ []) : ∃ a ∈ l, (E.order l).head? = some a := by
  cases hh : (E.order l).head? with
  | none => exact absurd (order_none.1 hh) h
  | some a => exact ⟨a, order_head hh, rfl⟩

theorem chunks_one {α : Type} [DecidableEq α] (x : α) : chunks 100 1 [x] = [[x]] := by simp [chunks]

/-- What one generated commit and ref leave in the tables. -/
theorem saveChild_eq (E : SqlExt) (child : CommitObj) (r : RefRow) (path : Bytes) (db : Db) :
    insertRefs E (chunks 100 1 [r]) (saveCommits E [child] path db) =
      { db with
        commits := if E.acceptCommits db.inserts [child.row path] then db.commits ++ [child.row path] else db.commits
        refs := if E.acceptRefs (db.inserts + 1) [r] then db.refs ++ [r] else db.refs
        inserts := db.inserts + 2 } := by
  simp [saveCommits, chunks, insertCommits, insertRefs]

theorem mem_searchRefs {E : SqlExt} {db : Db} {path : Bytes} {r : RefRow} :
    r ∈ searchRefs E db path ↔ r ∈ db.refs ∧ E.like path r.repoPath = true ∧ E.fold r.refName = E.fold (ascii "refs/heads/master") := by
  rw [searchRefs, (E.order_perm _).mem_iff, List.mem_filter]
  simp

/-- A generated HEAD. -/
structure Generated (X : Ext) (E : SqlExt) (ref : RefRow) (path : Bytes) (db : Db) (id : Bytes) (db' : Db) where
  commit : CommitRow
  root : NodeRow
  child : CommitObj
  commit_mem : commit ∈ db.commits
  commit_id : E.fold commit.gitId = E.fold ref.refGitId
  root_found : searchRootNode E db path = .ok (some root)
  built : buildFromModel X commit root = .ok child
  id_eq : id = Hash.toPlainStr child.base.id
  db_eq : db' = { db with
        commits := if E.acceptCommits db.inserts [child.row path] then db.commits ++ [child.row path] else db.commits
        refs := if E.acceptRefs (db.inserts + 1) [{ repoPath := path, refName := ref.refName, refGitId := id }]
          then db.refs ++ [{ repoPath := path, refName := ref.refName, refGitId := id }] else db.refs
        inserts := db.inserts + 2 }

theorem generateChild_ok {X : Ext} {E : SqlExt} {ref : RefRow} {path : Bytes} {db db' : Db} {id : Bytes}
    (h : generateChild X E ref path db = (.ok id, db')) :
    Nonempty (Generated X E ref path db id db') ∨ searchRootNode E db path = .ok none ∧ id = zeroId ∧ db' = db := by
  unfold generateChild at h
  cases hc : (E.order (db.commits.filter (fun c => E.fold c.gitId == E.fold ref.refGitId))).head? with
  | none => rw [hc] at h; simp at h
  | some rc =>
    rw [hc] at h
    simp only at h
    have hm := order_head hc
    rw [List.mem_filter, beq_iff_eq] at hm
    cases hs : searchRootNode E db path with
    | ok o =>
      rw [hs] at h
      cases o with
      | none =>
        simp only [Prod.mk.injEq, Res.ok.injEq] at h
        exact .inr ⟨rfl, h.1.symm, h.2.symm⟩
      | some root =>
        simp only at h
        cases hb : buildFromModel X rc root with
        | ok child =>
          rw [hb] at h
          simp only [Prod.mk.injEq, Res.ok.injEq, saveChild_eq] at h
          obtain ⟨rfl, rfl⟩ := h
          exact .inl ⟨⟨rc, root, child, hm.1, hm.2, hs, hb, rfl, rfl⟩⟩
        | err e => rw [hb] at h; simp at h
        | panic => rw [hb] at h; simp at h
        | spin => rw [hb] at h; simp at h
    | err e => rw [hs] at h; simp at h
    | panic => rw [hs] at h; simp at h
    | spin => rw [hs] at h; simp at h

/-- How a successful HEAD request ended. -/
theorem getHead_ok {X : Ext} {E : SqlExt} {path : Bytes} {db db' : Db} {id : Bytes} (h : getHeadObjectId X E db path = (.ok id, db')) :
    (∃ r ∈ searchRefs E db path, r.repoPath = path ∧ id = r.refGitId ∧ db' = db) ∨
    (∀ r ∈ searchRefs E db path, r.repoPath ≠ path) ∧
      ((∃ r ∈ searchRefs E db path, pathStartsWith path r.repoPath = true ∧ generateChild X E r path db = (.ok id, db')) ∨
       (∀ r ∈ searchRefs E db path, pathStartsWith path r.repoPath = false) ∧ id = zeroId ∧ db' = db) := by
  unfold getHeadObjectId at h
  cases h1 : (searchRefs E db path).find? (fun r => path == r.repoPath) with
  | some r =>
    rw [h1] at h
    simp only [Prod.mk.injEq, Res.ok.injEq] at h
    have := List.find?_some h1
    simp only [beq_iff_eq] at this
    exact .inl ⟨r, List.mem_of_find?_eq_some h1, this.symm, h.1.symm, h.2.symm⟩
  | none =>
    rw [h1] at h
    simp only at h
    have hn : ∀ r ∈ searchRefs E db path, r.repoPath ≠ path := by
      intro r hr e
      have := List.find?_eq_none.1 h1 r hr
      simp [e] at this
    refine .inr ⟨hn, ?_⟩
    cases h2 : (searchRefs E db path).find? (fun r => pathStartsWith path r.repoPath) with
    | some r =>
      rw [h2] at h
      have := List.find?_some h2
      exact .inl ⟨r, List.mem_of_find?_eq_some h2, this, h⟩
    | none =>
      rw [h2] at h
      simp only [Prod.mk.injEq, Res.ok.injEq] at h
      refine .inr ⟨?_, h.1.symm, h.2.symm⟩
      intro r hr
      simpa using List.find?_eq_none.1 h2 r hr

theorem toPlainStr_hex (h : Hash) : ∀ c ∈ Hash.toPlainStr h, Spec.IsHexDigit c := by
  exact (Hash.fromBytes_some (Hash.fromBytes_toPlainStr h)).2.2

theorem zeroId_ok : zeroId.length = 40 ∧ ∀ x ∈ zeroId, Spec.IsHexDigit x := by
  constructor <;> decide +kernel

/-- Rows are only added. -/
theorem getHead_refs {X : Ext} {E : SqlExt} {path : Bytes} {db db' : Db} {id : Bytes} (h : getHeadObjectId X E db path = (.ok id, db')) :
    (∀ r ∈ db.refs, r ∈ db'.refs) ∧ (∀ r ∈ db.commits, r ∈ db'.commits) ∧ db'.nodes = db.nodes := by
  rcases getHead_ok h with ⟨_, _, _, _, rfl⟩ | ⟨_, ⟨r, _, _, hg⟩ | ⟨_, _, rfl⟩⟩
  · exact ⟨fun _ h => h, fun _ h => h, rfl⟩
  · rcases generateChild_ok hg with ⟨⟨g⟩⟩ | ⟨_, _, rfl⟩
    · rw [g.db_eq]
      refine ⟨?_, ?_, rfl⟩
      · intro r hr; simp only; split
        · simp [hr]
        · exact hr
      · intro r hr; simp only; split
        · simp [hr]
        · exact hr
    · exact ⟨fun _ h => h, fun _ h => h, rfl⟩
  · exact ⟨fun _ h => h, fun _ h => h, rfl⟩

/-- HEAD is an id when the stored refs are. -/
theorem getHead_hex {X : Ext} {E : SqlExt} {path : Bytes} {db db' : Db} {id : Bytes} (h : getHeadObjectId X E db path = (.ok id, db'))
    (hr : ∀ r ∈ db.refs, r.repoPath = path → r.refGitId.length = 40 ∧ ∀ x ∈ r.refGitId, Spec.IsHexDigit x) :
    id.length = 40 ∧ ∀ x ∈ id, Spec.IsHexDigit x := by
  rcases getHead_ok h with ⟨r, hm, hp, rfl, rfl⟩ | ⟨_, ⟨r, _, _, hg⟩ | ⟨_, rfl, rfl⟩⟩
  · exact hr r (mem_searchRefs.1 hm).1 hp
  · rcases generateChild_ok hg with ⟨⟨g⟩⟩ | ⟨_, rfl, rfl⟩
    · rw [g.id_eq]; exact ⟨Hash.toPlainStr_length _, toPlainStr_hex _⟩
    · exact zeroId_ok
  · exact zeroId_ok

end Gust

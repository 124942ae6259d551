import Verif.Base.Tactics
import Verif.Model.Schema
import Verif.Lemmas.Both
import Verif.Lemmas.NodeNames

/-! # What the limits of the columns leave in the tables -/

namespace Gust

theorem insertCommits_taken (E : SqlExt) : ∀ (bs : List (List CommitRow)) (db : Db), ∀ r ∈ (insertCommits E bs db).commits,
    r ∈ db.commits ∨ ∃ b ∈ bs, r ∈ b ∧ ∃ n, E.acceptCommits n b = true
  | [], _, _, h => .inl h
  | b :: bs, db, r, h => by
    rw [insertCommits] at h
    rcases insertCommits_taken E bs _ r h with h | ⟨b', h1, h2⟩
    · simp only at h
      split at h
      · rename_i ha
        rcases List.mem_append.1 h with h | h
        · exact .inl h
        · exact .inr ⟨b, by simp, h, _, ha⟩
      · exact .inl h
    · exact .inr ⟨b', by simp [h1], h2⟩

theorem insertRefs_taken (E : SqlExt) : ∀ (bs : List (List RefRow)) (db : Db), ∀ r ∈ (insertRefs E bs db).refs,
    r ∈ db.refs ∨ ∃ b ∈ bs, r ∈ b ∧ ∃ n, E.acceptRefs n b = true
  | [], _, _, h => .inl h
  | b :: bs, db, r, h => by
    rw [insertRefs] at h
    rcases insertRefs_taken E bs _ r h with h | ⟨b', h1, h2⟩
    · simp only at h
      split at h
      · rename_i ha
        rcases List.mem_append.1 h with h | h
        · exact .inl h
        · exact .inr ⟨b, by simp, h, _, ha⟩
      · exact .inl h
    · exact .inr ⟨b', by simp [h1], h2⟩

theorem insertNodes_taken (E : SqlExt) : ∀ (bs : List (List NodeRow)) (db : Db), ∀ r ∈ (insertNodes E bs db).2.nodes,
    r ∈ db.nodes ∨ ∃ b ∈ bs, r ∈ b ∧ ∃ n, E.acceptNodes n b = true
  | [], _, _, h => .inl h
  | b :: bs, db, r, h => by
    rw [insertNodes] at h
    split at h
    · rename_i ha
      rcases insertNodes_taken E bs _ r h with h | ⟨b', h1, h2⟩
      · simp only at h
        rcases List.mem_append.1 h with h | h
        · exact .inl h
        · exact .inr ⟨b, by simp, h, _, ha⟩
      · exact .inr ⟨b', by simp [h1], h2⟩
    · exact .inl h

/-- Every row of the database has room in its columns. -/
structure Spec.Within (db : Db) : Prop where
  nodes : ∀ r ∈ db.nodes, r.refused = false
  commits : ∀ r ∈ db.commits, r.refused = false
  refs : ∀ r ∈ db.refs, r.refused = false

theorem RefRow.refused_iff {r : RefRow} : r.refused = false ↔ (overlong 64 r.repoPath = false ∧ overlong 32 r.refName = false) ∧ overlong 40 r.refGitId = false := by
  simp only [RefRow.refused, Bool.or_eq_false_iff]

theorem Spec.Schema.node {E : SqlExt} (hE : Spec.Schema E) {n : Nat} {rows : List NodeRow} (h : E.acceptNodes n rows = true) : ∀ r ∈ rows, r.refused = false := by
  intro r hr
  by_contra hc
  rw [hE.nodes n rows ⟨r, hr, by simpa using hc⟩] at h
  cases h

theorem Spec.Schema.commit {E : SqlExt} (hE : Spec.Schema E) {n : Nat} {rows : List CommitRow} (h : E.acceptCommits n rows = true) : ∀ r ∈ rows, r.refused = false := by
  intro r hr
  by_contra hc
  rw [hE.commits n rows ⟨r, hr, by simpa using hc⟩] at h
  cases h

theorem Spec.Schema.ref {E : SqlExt} (hE : Spec.Schema E) {n : Nat} {rows : List RefRow} (h : E.acceptRefs n rows = true) : ∀ r ∈ rows, r.refused = false := by
  intro r hr
  by_contra hc
  rw [hE.refs n rows ⟨r, hr, by simpa using hc⟩] at h
  cases h

theorem saveCommits_within {E : SqlExt} (hE : Spec.Schema E) {cs : List CommitObj} {path : Bytes} {db : Db} (h : ∀ r ∈ db.commits, r.refused = false) :
    ∀ r ∈ (saveCommits E cs path db).commits, r.refused = false := by
  intro r hr
  rcases insertCommits_taken E _ _ r hr with hr | ⟨b, _, hb, n, ha⟩
  · exact h r hr
  · exact hE.commit ha r hb

theorem saveNodes_within {E : SqlExt} (hE : Spec.Schema E) {rows : List NodeRow} {db : Db} (h : ∀ r ∈ db.nodes, r.refused = false) :
    ∀ r ∈ (saveNodes E rows db).2.nodes, r.refused = false := by
  intro r hr
  rcases insertNodes_taken E _ _ r hr with hr | ⟨b, _, hb, n, ha⟩
  · exact h r hr
  · exact hE.node ha r hb

theorem savePackfile_within {E : SqlExt} (hE : Spec.Schema E) (fuel : Nat) (p : Pack) (path : Bytes) {db : Db} (h : Spec.Within db) :
    Spec.Within (savePackfile E fuel p path db).2 := by
  have key : ∀ rows, Spec.Within (saveNodes E rows db).2 := by
    intro rows
    obtain ⟨_, _, _, _, k, _, h3, h4, _⟩ := C51_batches_partial E rows db
    exact ⟨saveNodes_within hE h.nodes, by rw [h3]; exact h.commits, by rw [h4]; exact h.refs⟩
  unfold savePackfile
  split
  · split
    · rename_i rows _
      have k := key rows
      split <;> rename_i db1 e <;> rw [e] at k
      · obtain ⟨c1, c2, _⟩ := saveCommits_eq E (by assumption : ObjDecodedMap).commits path db1
        exact ⟨by rw [c1]; exact k.nodes, saveCommits_within hE k.commits, by rw [c2]; exact k.refs⟩
      · exact k
      · exact k
    · exact h
    · exact h
  · exact h
  · exact h

theorem handleRefs_within {E : SqlExt} (hE : Spec.Schema E) (cmd : RefCommand) (path : Bytes) {db : Db} (h : Spec.Within db) :
    Spec.Within (handleRefs E cmd path db).2 := by
  obtain ⟨h1, h2⟩ := handleRefs_only E cmd path db
  refine ⟨by rw [h1]; exact h.nodes, by rw [h2]; exact h.commits, ?_⟩
  intro r hr
  unfold handleRefs at hr
  split at hr
  · rcases insertRefs_taken E _ _ r hr with hr | ⟨b, _, hb, n, ha⟩
    · exact h.refs r hr
    · exact hE.ref ha r hb
  · exact h.refs r hr
  · unfold updateRefs at hr
    split at hr
    · rename_i i _
      split at hr
      · rename_i ha
        simp only at hr
        obtain ⟨k, hk, e⟩ := List.mem_iff_getElem.1 hr
        rw [List.getElem_modify] at e
        rw [List.length_modify] at hk
        have := h.refs _ (List.getElem_mem hk)
        split at e <;> subst e
        · refine RefRow.refused_iff.2 ⟨(RefRow.refused_iff.1 this).1, ?_⟩
          by_contra hc
          rw [hE.updates _ _ (by simpa using hc)] at ha
          cases ha
        · exact this
      · exact h.refs r hr
    · exact h.refs r hr

theorem getHead_within {X : Ext} {E : SqlExt} (hE : Spec.Schema E) (path : Bytes) {db : Db} (h : Spec.Within db) :
    Spec.Within (getHeadObjectId X E db path).2 := by
  unfold getHeadObjectId
  split
  · exact h
  · split
    · unfold generateChild
      split
      · exact h
      · split
        · split
          · simp only [saveChild_eq]
            refine ⟨h.nodes, fun r hr => ?_, fun r hr => ?_⟩
            · simp only at hr
              split at hr
              · rename_i ha
                rcases List.mem_append.1 hr with hr | hr
                · exact h.commits r hr
                · exact hE.commit ha r hr
              · exact h.commits r hr
            · simp only at hr
              split at hr
              · rename_i ha
                rcases List.mem_append.1 hr with hr | hr
                · exact h.refs r hr
                · exact hE.ref ha r hr
              · exact h.refs r hr
          · exact h
          · exact h
        · exact h
        · exact h
        · exact h
    · exact h

theorem effect_within {X : Ext} {E : SqlExt} {fuel : Nat} {a : Bytes} {S : Bytes → Prop} {db db' : Db} (hE : Spec.Schema E) (he : DbEffect X E fuel a S db db')
    (h : Spec.Within db) : Spec.Within db' := by
  cases he with
  | same => exact h
  | head => exact getHead_within hE a h
  | push file p _ _ => exact savePackfile_within hE fuel p a h
  | pushRef file p cmd _ _ => exact handleRefs_within hE cmd a (savePackfile_within hE fuel p a h)

/-- All use a database with the tables of the dump. -/
def Spec.SchemaAny (h : BothHist) : Prop := ∀ p ∈ h, Spec.Schema p.1.sql

theorem runBoth_within (P : ServerExt) : ∀ (h : BothHist) (s : Both), Spec.SchemaAny h → Spec.Within s.web.db → Spec.Within (runBoth P s h).web.db
  | [], _, _, hs => hs
  | (m, v) :: h, s, hh, hs => by
    refine runBoth_within P h _ (fun p hp => hh p (by simp [hp])) ?_
    rcases both_effect P m s v with e | ⟨a, _, he⟩
    · show Spec.Within (bothStep P m s v).web.db
      rw [e]
      exact hs
    · exact effect_within (hh (m, v) (by simp)) he hs

end Gust

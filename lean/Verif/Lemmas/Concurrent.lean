import Verif.Lemmas.Live
import Verif.Props.Clone

/-! # What holds at all times when requests overlap -/

namespace Gust

open Spec (nodeObj StoreReach commitsAt InRepo)

/-- What a push is going to write. -/
theorem pack_rows {X : Ext} {St : ObjectSource} {file : Bytes} {fuel0 : Nat} {p : Pack} (hdec : decodePack X St fuel0 file = .ok p) {D : ObjDecodedMap}
    (hD : UpdateFromCache ObjDecodedMap.default p.result (.ok D)) {fuel : Nat} {rows : List NodeRow} (hb : buildNodeTree fuel D = .ok rows) :
    (∀ r ∈ rows, ∃ o, p.result.hashObject o.id = some o ∧ o = metaOf X (nodeObj r) ∧ r.gitId = Hash.toPlainStr o.id ∧
      (r.nodeType = ascii "tree" ∧ (∃ items, decodeTree r.data = .ok items) ∨ r.nodeType = ascii "blob")) ∧
    (∀ x, Spec.PackReach p.result.hashObject x → ∃ n ∈ rows, n.gitId = Hash.toPlainStr x) ∧
    (∀ co ∈ D.commits, p.result.hashObject co.base.id = some co.base ∧ co.base = metaOf X (.commit, co.base.data) ∧ co.base.t = .commit ∧
      Commit.decode co.base.data = .ok co.commit ∧ ∃ n ∈ rows, n.gitId = Hash.toPlainStr co.commit.treeId ∧ n.nodeType = ascii "tree") ∧
    ∀ o, p.result.hashObject o.id = some o → o.t = .commit → ∃ co ∈ D.commits, co.base = o := by
  obtain ⟨hist, ehist, hok⟩ := decodePack_hist hdec
  have objs : ∀ o, p.result.hashObject o.id = some o → metaOf X (o.t, o.data) = o := by
    intro o ho
    rw [ehist, PackCache.hashObject_run] at ho
    obtain ⟨q, hq, rfl⟩ := Option.map_eq_some_iff.1 ho
    exact (metaOf_of_new (hok q (PackCache.lastWith_some hq).1).2).2
  have hH : D.Holds p.result := C36_each_object_once hdec hD
  obtain ⟨r1, r2⟩ := buildCommits_ok (repo_faithful hH) (repo_disjoint hH) D.commits [] rows (by intro h hh; cases hh) hb
  have below : ∀ x, Below (Repo.of D) (D.commits.map (fun c => c.commit.treeId)) x → ∃ n ∈ rows, n.gitId = Hash.toPlainStr x := by
    intro x hx
    rcases r2 x hx with hh | hh
    · cases hh
    · exact hh
  refine ⟨?_, fun x hx => below x ((repo_below hH x).2 hx), ?_, ?_⟩
  · intro r hr
    cases r1 r hr with
    | tree x t _ a b c d =>
      obtain ⟨hm, _⟩ := (repo_tree hH x t).1 a
      obtain ⟨q1, q2⟩ := (hH.trees t.base).1 (List.mem_map_of_mem hm)
      refine ⟨t.base, q2, ?_, b, .inl ⟨c, t.items, by rw [d]; exact hH.treeItems t hm⟩⟩
      rw [nodeObj_tree c, d, ← q1, objs _ q2]
    | blob x t _ a b c d =>
      obtain ⟨hm, _⟩ := (repo_blob hH x t).1 a
      obtain ⟨q1, q2⟩ := (hH.blobs t.base).1 (List.mem_map_of_mem hm)
      refine ⟨t.base, q2, ?_, b, .inr c⟩
      rw [nodeObj_blob (by rw [c]; decide), d, ← q1, objs _ q2]
  · intro co hm
    obtain ⟨q1, q2⟩ := (hH.commits co.base).1 (List.mem_map_of_mem hm)
    refine ⟨q2, ?_, q1, hH.commitFields co hm, ?_⟩
    · conv_lhs => rw [← objs _ q2]
      rw [q1]
    obtain ⟨n, hn, e⟩ := below co.commit.treeId (.root _ (List.mem_map_of_mem hm))
    obtain ⟨t, ht⟩ := buildCommits_roots D.commits [] rows hb co hm
    refine ⟨n, hn, e, ?_⟩
    cases r1 n hn with
    | tree x t _ a b c d => exact c
    | blob x t' _ a b c d =>
      have := ((repo_blob hH x t').1 a).2
      rw [b, this] at e
      rw [Hash.toPlainStr_injective e] at a
      exact (repo_disjoint hH _ _ _ ht a).elim
  · intro o ho ht
    obtain ⟨co, hm, e⟩ := List.mem_map.1 ((hH.commits o).2 ⟨ht, ho⟩)
    exact ⟨co, hm, e⟩

/-- A row of a tree or blob, under its own id, readable. -/
def RowOk (X : Ext) (n : NodeRow) : Prop :=
  n.gitId = Hash.toPlainStr (idOf X (nodeObj n)) ∧ (n.nodeType = ascii "tree" ∧ (∃ items, decodeTree n.data = .ok items) ∨ n.nodeType = ascii "blob")

/-- The rows hold all that is reachable in the pack. -/
def HasAll (X : Ext) (nodes : List NodeRow) (p : Pack) : Prop :=
  ∀ x, Spec.PackReach p.result.hashObject x → ∃ n ∈ nodes, ∃ o, p.result.hashObject o.id = some o ∧ o.id = x ∧ o = metaOf X (nodeObj n) ∧
    n.gitId = Hash.toPlainStr x

/-- A commit of the pack, with all that is reachable in the pack among the rows. -/
def FromPack (X : Ext) (nodes : List NodeRow) (p : Pack) (r : CommitRow) : Prop :=
  HasAll X nodes p ∧ ∃ o c, p.result.hashObject o.id = some o ∧ o = metaOf X (.commit, r.data) ∧ r.gitId = Hash.toPlainStr o.id ∧ Commit.decode r.data = .ok c ∧
    Acc (PackChild p.result.hashObject) c.treeId ∧ ∃ n ∈ nodes, n.gitId = Hash.toPlainStr c.treeId ∧ n.nodeType = ascii "tree"

/-- A commit of a pack that was pushed to the path. -/
def CommitOk (X : Ext) (fold : Bytes → Bytes) (path : Bytes) (log : List (Nat × Bytes × Pack)) (nodes : List NodeRow) (r : CommitRow) : Prop :=
  ∃ e ∈ log, fold e.2.1 = fold path ∧ FromPack X nodes e.2.2 r

theorem HasAll.mono {X : Ext} {nodes nodes' : List NodeRow} {p : Pack} (h : HasAll X nodes p) (hs : ∀ n ∈ nodes, n ∈ nodes') : HasAll X nodes' p := by
  intro x hx
  obtain ⟨n, hn, r⟩ := h x hx
  exact ⟨n, hs n hn, r⟩

theorem CommitOk.mono {X : Ext} {fold : Bytes → Bytes} {path : Bytes} {log log' : List (Nat × Bytes × Pack)} {nodes nodes' : List NodeRow} {r : CommitRow}
    (h : CommitOk X fold path log nodes r) (hl : ∀ e ∈ log, e ∈ log') (hs : ∀ n ∈ nodes, n ∈ nodes') : CommitOk X fold path log' nodes' r := by
  obtain ⟨e, he, h1, h2, o, c, h3, h4, hg, h5, ha, n, hn, h6⟩ := h
  exact ⟨e, hl e he, h1, h2.mono hs, o, c, h3, h4, hg, h5, ha, n, hs n hn, h6⟩

/-- What a task is going to do is all right, in a state that has (at least) some rows. -/
def ActsOk (X : Ext) (fold : Bytes → Bytes) (R : Bytes → Prop) (path : Bytes) (log : List (Nat × Bytes × Pack)) : List NodeRow → List Act → Prop
  | _, [] => True
  | ns, a :: as =>
    match a with
    | .nodes b => (∀ n ∈ b, RowOk X n) ∧ ActsOk X fold R path log (ns ++ b) as
    | .commits b => (∀ r ∈ b, fold r.repoPath = fold path → CommitOk X fold path log ns r) ∧ ActsOk X fold R path log ns as
    | .refs b => (∀ r ∈ b, R r.repoPath) ∧ ActsOk X fold R path log ns as
    | .headRefs q => R q ∧ ActsOk X fold R path log ns as
    | .headCommit _ q => (R q ∧ fold q ≠ fold path) ∧ ActsOk X fold R path log ns as
    | .headRoot _ _ q _ => (R q ∧ fold q ≠ fold path) ∧ ActsOk X fold R path log ns as
    | _ => ActsOk X fold R path log ns as

theorem ActsOk.mono {X : Ext} {fold : Bytes → Bytes} {R : Bytes → Prop} {path : Bytes} {log log' : List (Nat × Bytes × Pack)} (hl : ∀ e ∈ log, e ∈ log') :
    ∀ {as : List Act} {ns ns' : List NodeRow}, ActsOk X fold R path log ns as → (∀ n ∈ ns, n ∈ ns') → ActsOk X fold R path log' ns' as
  | [], _, _, _, _ => trivial
  | a :: as, ns, ns', h, hs => by
    cases a with
    | nodes b =>
      refine ⟨h.1, h.2.mono hl ?_⟩
      intro n hn
      rcases List.mem_append.1 hn with hn | hn
      · exact List.mem_append_left _ (hs n hn)
      · exact List.mem_append_right _ hn
    | commits b => exact ⟨fun r hr hp => (h.1 r hr hp).mono hl hs, h.2.mono hl hs⟩
    | refs b => exact ⟨h.1, h.2.mono hl hs⟩
    | headRefs q => exact ⟨h.1, h.2.mono hl hs⟩
    | headCommit r q => exact ⟨h.1, h.2.mono hl hs⟩
    | headRoot _ _ q _ => exact ⟨h.1, h.2.mono hl hs⟩
    | findRef _ _ => exact ActsOk.mono (as := as) hl h hs
    | setRef _ _ => exact ActsOk.mono (as := as) hl h hs
    | fail => exact ActsOk.mono (as := as) hl h hs

/-- Appending to statements that are all right. -/
theorem ActsOk.append {X : Ext} {fold : Bytes → Bytes} {R : Bytes → Prop} {path : Bytes} {log : List (Nat × Bytes × Pack)} {as : List Act} :
    ∀ {pre : List Act} {ns : List NodeRow}, ActsOk X fold R path log ns pre → ActsOk X fold R path log ns as → ActsOk X fold R path log ns (pre ++ as)
  | [], _, _, h => h
  | a :: pre, ns, h, h' => by
    cases a with
    | nodes b => exact ⟨h.1, h.2.append (h'.mono (fun _ h => h) (fun n hn => List.mem_append_left _ hn))⟩
    | commits b => exact ⟨h.1, h.2.append h'⟩
    | refs b => exact ⟨h.1, h.2.append h'⟩
    | headRefs q => exact ⟨h.1, h.2.append h'⟩
    | headCommit r q => exact ⟨h.1, h.2.append h'⟩
    | headRoot _ _ q _ => exact ⟨h.1, h.2.append h'⟩
    | findRef _ _ => exact ActsOk.append (pre := pre) h h'
    | setRef _ _ => exact ActsOk.append (pre := pre) h h'
    | fail => exact ActsOk.append (pre := pre) h h'

/-- One statement only adds nodes and commits. -/
theorem step_extends (X : Ext) (E : SqlExt) (db : Db) (a : Act) : Extends db (a.step X E db).2 := by
  have same : Extends db db := ⟨fun _ h => h, fun _ h => h⟩
  cases a with
  | nodes b =>
    simp only [Act.step]
    split
    · exact ⟨fun n h => List.mem_append_left _ h, fun _ h => h⟩
    · exact ⟨fun _ h => h, fun _ h => h⟩
  | commits b =>
    refine ⟨fun _ h => h, fun c h => ?_⟩
    show c ∈ if E.acceptCommits db.inserts b then db.commits ++ b else db.commits
    split
    · exact List.mem_append_left _ h
    · exact h
  | refs b => exact ⟨fun _ h => h, fun _ h => h⟩
  | findRef cmd path =>
    simp only [Act.step]
    split <;> exact same
  | setRef i id =>
    simp only [Act.step]
    split <;> exact ⟨fun _ h => h, fun _ h => h⟩
  | headRefs path =>
    simp only [Act.step]
    split
    · exact same
    · split <;> exact same
  | headCommit r path =>
    simp only [Act.step]
    split <;> exact same
  | headRoot row r path second =>
    simp only [Act.step]
    split
    · exact same
    · split
      · exact same
      · split <;> exact same
  | fail => exact same

theorem sysStep_extends {W : Pack → RefCommand → Prop} {X : Ext} {Q : SqlExt → Prop} {R : Bytes → Prop} {s t : Sys} (h : SysStep X Q R W s t) : Extends s.db t.db := by
  cases h with
  | push => exact ⟨fun _ h => h, fun _ h => h⟩
  | head => exact ⟨fun _ h => h, fun _ h => h⟩
  | act i a as E _ _ => exact step_extends X E s.db a

theorem SysRun.trans {W : Pack → RefCommand → Prop} {X : Ext} {Q : SqlExt → Prop} {R : Bytes → Prop} {s t u : Sys} (h : SysRun X Q R W s t) (h' : SysRun X Q R W t u) : SysRun X Q R W s u := by
  induction h' with
  | refl => exact h
  | step a b _ hs ih => exact .step _ _ _ ih hs

theorem sysRun_extends {W : Pack → RefCommand → Prop} {X : Ext} {Q : SqlExt → Prop} {R : Bytes → Prop} {s t : Sys} (h : SysRun X Q R W s t) : Extends s.db t.db := by
  induction h with
  | refl => exact ⟨fun _ h => h, fun _ h => h⟩
  | step t u _ hs ih =>
    have := sysStep_extends hs
    exact ⟨fun n h => this.nodes n (ih.nodes n h), fun c h => this.commits c (ih.commits c h)⟩

/-- What holds at all times. -/
structure SysInv (X : Ext) (fold : Bytes → Bytes) (R : Bytes → Prop) (path : Bytes) (s : Sys) : Prop where
  nodes : ∀ n ∈ s.db.nodes, RowOk X n
  commits : ∀ r ∈ commitsAt fold s.db.commits path, CommitOk X fold path s.pushed s.db.nodes r
  refs : ∀ r ∈ s.db.refs, R r.repoPath
  tasks : ∀ as, some as ∈ s.tasks → ActsOk X fold R path s.pushed s.db.nodes as

theorem mem_set_task {α : Type} {l : List α} {i : Nat} {a b : α} (h : b ∈ l.set i a) : b ∈ l ∨ b = a := List.mem_or_eq_of_mem_set h

/-- What one statement keeps. -/
theorem step_inv {X : Ext} {fold : Bytes → Bytes} {R : Bytes → Prop} {path : Bytes} {log : List (Nat × Bytes × Pack)}
    (hR : ∀ a q, R a → R q → fold q = fold path → pathStartsWith q a = true → a = q)
    {db : Db} (hn : ∀ n ∈ db.nodes, RowOk X n) (hc : ∀ r ∈ commitsAt fold db.commits path, CommitOk X fold path log db.nodes r)
    (hr : ∀ r ∈ db.refs, R r.repoPath) {a : Act} {as : List Act} (ha : ActsOk X fold R path log db.nodes (a :: as)) {E : SqlExt} (hf : E.fold = fold) :
    (∀ n ∈ (a.step X E db).2.nodes, RowOk X n) ∧
    (∀ r ∈ commitsAt fold (a.step X E db).2.commits path, CommitOk X fold path log (a.step X E db).2.nodes r) ∧
    (∀ r ∈ (a.step X E db).2.refs, R r.repoPath) ∧
    ∀ more, (a.step X E db).1 = some more → ActsOk X fold R path log (a.step X E db).2.nodes (more ++ as) := by
  cases a with
  | nodes b =>
    obtain ⟨h1, h2⟩ := ha
    simp only [Act.step]
    split
    · refine ⟨?_, ?_, hr, ?_⟩
      · intro n h
        rcases List.mem_append.1 h with h | h
        · exact hn n h
        · exact h1 n h
      · intro r h
        exact (hc r h).mono (fun _ h => h) (fun n hn => List.mem_append_left _ hn)
      · intro more e
        cases e
        exact h2
    · exact ⟨hn, hc, hr, fun more e => (nomatch e)⟩
  | commits b =>
    obtain ⟨h1, h2⟩ := ha
    refine ⟨hn, ?_, hr, ?_⟩
    · intro r h
      obtain ⟨q1, q2⟩ := commitsAt_mem.1 h
      have q1 : r ∈ if E.acceptCommits db.inserts b then db.commits ++ b else db.commits := q1
      split at q1
      · rcases List.mem_append.1 q1 with q | q
        · exact hc r (commitsAt_mem.2 ⟨q, q2⟩)
        · exact h1 r q q2
      · exact hc r (commitsAt_mem.2 ⟨q1, q2⟩)
    · intro more e
      cases e
      exact h2
  | refs b =>
    obtain ⟨h1, h2⟩ := ha
    refine ⟨hn, hc, ?_, ?_⟩
    · intro r h
      have h : r ∈ if E.acceptRefs db.inserts b then db.refs ++ b else db.refs := h
      split at h
      · rcases List.mem_append.1 h with q | q
        · exact hr r q
        · exact h1 r q
      · exact hr r h
    · intro more e
      cases e
      exact h2
  | findRef cmd q =>
    simp only [Act.step]
    split
    · exact ⟨hn, hc, hr, fun more e => by cases e; exact ha⟩
    · exact ⟨hn, hc, hr, fun more e => (nomatch e)⟩
  | setRef i id =>
    simp only [Act.step]
    split
    · refine ⟨hn, hc, ?_, fun more e => by cases e; exact ha⟩
      intro r h
      obtain ⟨j, hj⟩ := List.mem_iff_getElem?.1 h
      have hj : (db.refs.modify i (fun r => { r with refGitId := id }))[j]? = some r := hj
      rw [List.getElem?_modify] at hj
      obtain ⟨r0, h0, e⟩ := Option.map_eq_some_iff.1 hj
      have := hr r0 (List.mem_of_getElem? h0)
      rw [← e]
      split <;> exact this
    · exact ⟨hn, hc, hr, fun more e => (nomatch e)⟩
  | headRefs q =>
    obtain ⟨h1, h2⟩ := ha
    simp only [Act.step]
    cases h : (searchRefs E db q).find? (fun r => q == r.repoPath) with
    | some r => exact ⟨hn, hc, hr, fun more e => by cases e; exact h2⟩
    | none =>
      simp only
      cases h' : (searchRefs E db q).find? (fun r => pathStartsWith q r.repoPath) with
      | none => exact ⟨hn, hc, hr, fun more e => by cases e; exact h2⟩
      | some r =>
        refine ⟨hn, hc, hr, fun more e => ?_⟩
        cases e
        refine ⟨⟨h1, fun hq => ?_⟩, h2⟩
        have hm := List.mem_of_find?_eq_some h'
        have hs := List.find?_some h'
        have hrefs : r ∈ db.refs := (List.mem_filter.1 ((E.order_perm _).mem_iff.1 hm)).1
        have := hR _ q (hr r hrefs) h1 hq hs
        have := List.find?_eq_none.1 h r hm
        simp_all
  | headCommit r q =>
    obtain ⟨h1, h2⟩ := ha
    simp only [Act.step]
    split
    · exact ⟨hn, hc, hr, fun more e => (nomatch e)⟩
    · exact ⟨hn, hc, hr, fun more e => by cases e; exact ⟨h1, h2⟩⟩
  | headRoot row r q second =>
    obtain ⟨h1, h2⟩ := ha
    simp only [Act.step]
    split
    · exact ⟨hn, hc, hr, fun more e => (nomatch e)⟩
    · split
      · rename_i root _
        refine ⟨hn, hc, hr, fun more e => ?_⟩
        cases e
        refine ActsOk.append ?_ h2
        unfold childActs
        split
        · rename_i child _
          refine ⟨?_, ?_, trivial⟩
          · intro x hx hp
            rw [List.mem_singleton.1 hx] at hp
            exact absurd hp h1.2
          · intro x hx
            rw [List.mem_singleton.1 hx]
            exact h1.1
        · trivial
      · split
        · exact ⟨hn, hc, hr, fun more e => by cases e; exact h2⟩
        · exact ⟨hn, hc, hr, fun more e => by cases e; exact ⟨h1, h2⟩⟩
  | fail => exact ⟨hn, hc, hr, fun more e => (nomatch e)⟩

/-- A task may lose what it still has to do without harm; the tail of statements. -/
theorem actsOk_nodes {X : Ext} {fold : Bytes → Bytes} {R : Bytes → Prop} {path : Bytes} {log : List (Nat × Bytes × Pack)} {as : List Act} :
    ∀ {bs : List (List NodeRow)} {ns : List NodeRow}, (∀ n ∈ bs.flatten, RowOk X n) → ActsOk X fold R path log (ns ++ bs.flatten) as →
      ActsOk X fold R path log ns (bs.map Act.nodes ++ as)
  | [], ns, _, h => by simpa using h
  | b :: bs, ns, hr, h => by
    rw [List.flatten_cons] at hr h
    refine ⟨fun n hn => hr n (List.mem_append_left _ hn), actsOk_nodes (fun n hn => hr n (List.mem_append_right _ hn)) ?_⟩
    rw [List.append_assoc]
    exact h

theorem actsOk_commits {X : Ext} {fold : Bytes → Bytes} {R : Bytes → Prop} {path : Bytes} {log : List (Nat × Bytes × Pack)} {as : List Act} {ns : List NodeRow} :
    ∀ {bs : List (List CommitRow)}, (∀ r ∈ bs.flatten, fold r.repoPath = fold path → CommitOk X fold path log ns r) → ActsOk X fold R path log ns as →
      ActsOk X fold R path log ns (bs.map Act.commits ++ as)
  | [], _, h => h
  | b :: bs, hr, h => by
    rw [List.flatten_cons] at hr
    exact ⟨fun r hm => hr r (List.mem_append_left _ hm), actsOk_commits (fun r hm => hr r (List.mem_append_right _ hm)) h⟩

/-- What a push adds to the tasks is all right. -/
theorem actsOk_push {X : Ext} {fold : Bytes → Bytes} {R : Bytes → Prop} {path : Bytes} {log : List (Nat × Bytes × Pack)} {St : ObjectSource} {fuel0 : Nat}
    {file : Bytes} {p : Pack} (hdec : decodePack X St fuel0 file = .ok p) (E : SqlExt) (fuel : Nat) {q : Bytes} (cmd : RefCommand) (hq : R q) {i : Nat}
    (hlog : (i, q, p) ∈ log) (ns : List NodeRow) : ActsOk X fold R path log ns (pushActs E.pool fuel p q cmd) := by
  unfold pushActs
  cases hp : E.pool p.result with
  | ok D =>
    simp only
    cases hb : buildNodeTree fuel D with
    | ok rows =>
      simp only
      obtain ⟨k1, k2, k3, _⟩ := pack_rows hdec (by have := E.pool_outcome p.result; rwa [hp] at this) hb
      have hfl : (nodeBatches 0 [] rows).flatten = rows := by simpa using nodeBatches_flatten rows 0 []
      rw [List.append_assoc]
      refine actsOk_nodes ?_ (actsOk_commits ?_ ?_)
      · rw [hfl]
        intro n hn
        obtain ⟨o, _, e1, e2, e3⟩ := k1 n hn
        exact ⟨by rw [e2, e1]; rfl, e3⟩
      · rw [hfl, chunks_flatten 100 (by simp) _ _ (by simp)]
        intro r hr hpath
        obtain ⟨co, hco, rfl⟩ := List.mem_map.1 hr
        obtain ⟨g1, g2, _, g3, n, hn, g4⟩ := k3 co hco
        refine ⟨_, hlog, hpath, ?_, co.base, co.commit, g1, g2, rfl, g3, buildNodeTree_acyclic (C36_each_object_once hdec (by have := E.pool_outcome p.result; rwa [hp] at this)) hb co hco, n, List.mem_append_right _ hn, g4⟩
        intro x hx
        obtain ⟨n, hn, e⟩ := k2 x hx
        obtain ⟨o, e0, e1, e2, _⟩ := k1 n hn
        exact ⟨n, List.mem_append_right _ hn, o, e0, Hash.toPlainStr_injective (by rw [← e2, e]), e1, e⟩
      · unfold refActs
        cases cmd.commandType with
        | create => exact ⟨fun r hr => by rw [List.mem_singleton.1 hr]; exact hq, trivial⟩
        | delete => trivial
        | update => trivial
    | _ => trivial
  | _ => trivial

theorem sysStep_inv {W : Pack → RefCommand → Prop} {X : Ext} {fold : Bytes → Bytes} {R : Bytes → Prop} {path : Bytes} {Q : SqlExt → Prop} (hQ : ∀ E, Q E → E.fold = fold)
    (hR : ∀ a q, R a → R q → fold q = fold path → pathStartsWith q a = true → a = q) {s t : Sys} (h : SysInv X fold R path s) (hs : SysStep X Q R W s t) :
    SysInv X fold R path t := by
  cases hs with
  | push St fuel0 file p E fuel q cmd hdec hq hw =>
    have hl : ∀ e ∈ s.pushed, e ∈ (s.tasks.length, q, p) :: s.pushed := fun _ h => .tail _ h
    refine ⟨h.nodes, fun r hr => (h.commits r hr).mono hl (fun _ h => h), h.refs, fun as ha => ?_⟩
    rcases List.mem_append.1 ha with ha | ha
    · exact (h.tasks as ha).mono hl (fun _ h => h)
    · cases List.mem_singleton.1 ha
      exact actsOk_push hdec E fuel cmd hq (.head _) _
  | head q hq =>
    refine ⟨h.nodes, h.commits, h.refs, fun as ha => ?_⟩
    rcases List.mem_append.1 ha with ha | ha
    · exact h.tasks as ha
    · cases List.mem_singleton.1 ha
      exact ⟨hq, trivial⟩
  | act i a as E hi hE =>
    obtain ⟨h1, h2, h3, h4⟩ := step_inv hR h.nodes h.commits h.refs (h.tasks _ (List.mem_of_getElem? hi)) (hQ E hE)
    refine ⟨h1, h2, h3, fun as' ha => ?_⟩
    rcases mem_set_task ha with ha | ha
    · exact (h.tasks as' ha).mono (fun _ h => h) (step_extends X E s.db a).nodes
    · obtain ⟨more, e1, e2⟩ := Option.map_eq_some_iff.1 ha.symm
      rw [← e2]
      exact h4 more e1

theorem sysRun_inv {W : Pack → RefCommand → Prop} {X : Ext} {fold : Bytes → Bytes} {R : Bytes → Prop} {path : Bytes} {Q : SqlExt → Prop} (hQ : ∀ E, Q E → E.fold = fold)
    (hR : ∀ a q, R a → R q → fold q = fold path → pathStartsWith q a = true → a = q) {s t : Sys} (h : SysInv X fold R path s) (hs : SysRun X Q R W s t) :
    SysInv X fold R path t := by
  induction hs with
  | refl => exact h
  | step t u _ hs ih => exact sysStep_inv hQ hR ih hs

theorem sysInv_empty (X : Ext) (fold : Bytes → Bytes) (R : Bytes → Prop) (path : Bytes) : SysInv X fold R path Sys.empty :=
  ⟨(by intro _ h; cases h), (by intro _ h; cases h), (by intro _ h; cases h), (by intro _ h; cases h)⟩

theorem HasAll.reach {X : Ext} {nodes : List NodeRow} {p : Pack} (h : HasAll X nodes p)
    (hsame : ∀ a ∈ nodes, ∀ b ∈ nodes, a.gitId = b.gitId → nodeObj a = nodeObj b) {root x : Hash} (h0 : Spec.PackReach p.result.hashObject root)
    (hx : StoreReach nodes root x) : Spec.PackReach p.result.hashObject x := by
  induction hx with
  | refl => exact h0
  | item n t items i _ g1 g2 g3 g4 g5 ih =>
    obtain ⟨n0, hn0, o, ho, et, eo, e0⟩ := h t ih
    have e := hsame n0 hn0 n g1 (by rw [e0, g2])
    rw [e, nodeObj_tree g3] at eo
    exact .item o items i (by rw [et]; exact ih) ho (by rw [eo]; rfl) (by rw [eo]; exact g4) g5

/-- In terms of what one sees. -/
theorem SysInv.store {X : Ext} {fold : Bytes → Bytes} {R : Bytes → Prop} {path : Bytes} {s : Sys} (h : SysInv X fold R path s) (hu : UniqueIds X s.db) :
    StoreInv X fold path s.db ∧ ∀ o, InRepo fold s.db path o → ∃ e ∈ s.pushed, fold e.2.1 = fold path ∧ ∃ m, e.2.2.result.hashObject m.id = some m ∧ m = metaOf X o := by
  have hsame : ∀ a ∈ s.db.nodes, ∀ b ∈ s.db.nodes, a.gitId = b.gitId → nodeObj a = nodeObj b := by
    intro a ha b hb e
    rw [(h.nodes a ha).1, (h.nodes b hb).1] at e
    exact hu _ _ (.inl ⟨a, ha, rfl⟩) (.inl ⟨b, hb, rfl⟩) (Hash.toPlainStr_injective e)
  refine ⟨⟨?_, fun n hn => (h.nodes n hn).1, ?_, ?_, ?_⟩, ?_⟩
  · intro n hn
    rcases (h.nodes n hn).2 with h | h
    · exact .inl h.1
    · exact .inr h
  · intro n hn ht
    rcases (h.nodes n hn).2 with h | h
    · exact h.2
    · rw [ht] at h; exact absurd h (by decide)
  · intro r hr
    obtain ⟨e, _, _, hall, o, c, h3, h4, _, h5, _, n, hn, h6⟩ := h.commits r hr
    refine ⟨c, h5, ⟨n, hn, h6⟩, fun x hx => ?_⟩
    obtain ⟨n', hn', _, _, _, _, e'⟩ := hall x (hall.reach hsame (.commit o c h3 (by rw [h4]; rfl) (by rw [h4]; exact h5)) hx)
    exact ⟨n', hn', e'⟩
  · intro r hr c hc
    obtain ⟨e, _, _, hall, o, c', h3, h4, _, h5, ha, _⟩ := h.commits r hr
    rw [hc] at h5
    cases h5
    exact acyclic_of_pack hsame hall ha (.commit o c h3 (by rw [h4]; rfl) (by rw [h4]; exact hc))
  · intro o ho
    cases ho with
    | commit r hr =>
      obtain ⟨e, he, hp, _, m, _, h3, h4, _⟩ := h.commits r hr
      exact ⟨e, he, hp, m, h3, h4⟩
    | node r c x n hr hd hre hn e =>
      obtain ⟨q, hq, hp, hall, o, c', h3, h4, _, h5, _⟩ := h.commits r hr
      rw [hd] at h5
      cases h5
      obtain ⟨n', hn', m, g1, g2, g3, e'⟩ := hall x (hall.reach hsame (.commit o c h3 (by rw [h4]; rfl) (by rw [h4]; exact hd)) hre)
      refine ⟨q, hq, hp, m, g1, ?_⟩
      rw [g3, hsame n hn n' hn' (by rw [e, e'])]

/-! ## Finished pushes -/

/-- What is left of a push covers what is not stored yet. -/
def Covers (X : Ext) (db : Db) (as : List Act) (q : Bytes) (p : Pack) : Prop :=
  (∀ x, Spec.PackReach p.result.hashObject x → ∃ n o, p.result.hashObject o.id = some o ∧ o.id = x ∧ o = metaOf X (nodeObj n) ∧
    n.gitId = Hash.toPlainStr x ∧ (n ∈ db.nodes ∨ ∃ b, Act.nodes b ∈ as ∧ n ∈ b)) ∧
  ∀ o, p.result.hashObject o.id = some o → o.t = .commit → ∃ r : CommitRow, r.repoPath = q ∧ o = metaOf X (.commit, r.data) ∧
    (r ∈ db.commits ∨ ∃ b, Act.commits b ∈ as ∧ r ∈ b)

theorem Covers.mono {X : Ext} {db db' : Db} {as as' : List Act} {q : Bytes} {p : Pack} (h : Covers X db as q p)
    (hn : ∀ b, Act.nodes b ∈ as → Act.nodes b ∈ as' ∨ ∀ n ∈ b, n ∈ db'.nodes) (hc : ∀ b, Act.commits b ∈ as → Act.commits b ∈ as' ∨ ∀ r ∈ b, r ∈ db'.commits)
    (ext : Extends db db') : Covers X db' as' q p := by
  constructor
  · intro x hx
    obtain ⟨n, o, h1, h2, h3, h4, h5⟩ := h.1 x hx
    refine ⟨n, o, h1, h2, h3, h4, ?_⟩
    rcases h5 with h5 | ⟨b, hb, hm⟩
    · exact .inl (ext.nodes n h5)
    · rcases hn b hb with h | h
      · exact .inr ⟨b, h, hm⟩
      · exact .inl (h n hm)
  · intro o ho ht
    obtain ⟨r, h1, h2, h5⟩ := h.2 o ho ht
    refine ⟨r, h1, h2, ?_⟩
    rcases h5 with h5 | ⟨b, hb, hm⟩
    · exact .inl (ext.commits r h5)
    · rcases hc b hb with h | h
      · exact .inr ⟨b, h, hm⟩
      · exact .inl (h r hm)

/-- The state of a push: panicked, going to panic, or on its way. -/
def PushTask (X : Ext) (s : Sys) (e : Nat × Bytes × Pack) : Prop :=
  s.tasks[e.1]? = some none ∨ ∃ as, s.tasks[e.1]? = some (some as) ∧ (Act.fail ∈ as ∨ Covers X s.db as e.2.1 e.2.2)

theorem covers_push {X : Ext} {St : ObjectSource} {fuel0 : Nat} {file : Bytes} {p : Pack} (hdec : decodePack X St fuel0 file = .ok p) (E : SqlExt) (fuel : Nat)
    (q : Bytes) (cmd : RefCommand) (db : Db) : Act.fail ∈ pushActs E.pool fuel p q cmd ∨ Covers X db (pushActs E.pool fuel p q cmd) q p := by
  unfold pushActs
  cases hp : E.pool p.result with
  | ok D =>
    simp only
    cases hb : buildNodeTree fuel D with
    | ok rows =>
      simp only
      obtain ⟨k1, k2, k3, k4⟩ := pack_rows hdec (by have := E.pool_outcome p.result; rwa [hp] at this) hb
      have hfl : (nodeBatches 0 [] rows).flatten = rows := by simpa using nodeBatches_flatten rows 0 []
      refine .inr ⟨?_, ?_⟩
      · intro x hx
        obtain ⟨n, hn, e⟩ := k2 x hx
        obtain ⟨o, e0, e1, e2, _⟩ := k1 n hn
        rw [← hfl] at hn
        obtain ⟨b, hb, hnb⟩ := List.mem_flatten.1 hn
        exact ⟨n, o, e0, Hash.toPlainStr_injective (by rw [← e2, e]), e1, e, .inr ⟨b, List.mem_append_left _ (List.mem_append_left _ (List.mem_map_of_mem hb)), hnb⟩⟩
      · intro o ho ht
        obtain ⟨co, hco, rfl⟩ := k4 o ho ht
        obtain ⟨_, g2, _⟩ := k3 co hco
        have hm : co.row q ∈ (chunks 100 D.commits.length (D.commits.map (fun c => c.row q))).flatten := by
          rw [chunks_flatten 100 (by simp) _ _ (by simp)]
          exact List.mem_map_of_mem hco
        obtain ⟨b, hb, hrb⟩ := List.mem_flatten.1 hm
        exact ⟨co.row q, rfl, g2, .inr ⟨b, List.mem_append_left _ (List.mem_append_right _ (List.mem_map_of_mem hb)), hrb⟩⟩
    | _ => exact .inl (.head _)
  | _ => exact .inl (.head _)

theorem pushTask_step {W : Pack → RefCommand → Prop} {X : Ext} {Q : SqlExt → Prop} {R : Bytes → Prop} (hQ : ∀ E, Q E → ∀ n b, E.acceptCommits n b = true) {s t : Sys}
    (hs : SysStep X Q R W s t) (h : ∀ e ∈ s.pushed, PushTask X s e) : ∀ e ∈ t.pushed, PushTask X t e := by
  have keep : ∀ {e} (x : Option (List Act)) (log), PushTask X s e → PushTask X { s with tasks := s.tasks ++ [x], pushed := log } e := by
    intro e x log he
    have lt : ∀ {y}, s.tasks[e.1]? = some y → (s.tasks ++ [x])[e.1]? = some y := by
      intro y hy
      rw [List.getElem?_append_left (List.getElem?_eq_some_iff.1 hy).1]
      exact hy
    rcases he with he | ⟨as, he, hc⟩
    · exact .inl (lt he)
    · exact .inr ⟨as, lt he, hc⟩
  cases hs with
  | push St fuel0 file p E fuel q cmd hdec hq hw =>
    intro e he
    rcases List.mem_cons.1 he with rfl | he
    · exact .inr ⟨_, by simp, covers_push hdec E fuel q cmd s.db⟩
    · exact keep _ _ (h e he)
  | head q hq => exact fun e he => keep _ _ (h e he)
  | act i a as E hi hE =>
    intro e he
    have ext := step_extends X E s.db a
    by_cases hei : e.1 = i
    · have hlt : i < s.tasks.length := (List.getElem?_eq_some_iff.1 hi).1
      have hget : (s.tasks.set i ((a.step X E s.db).1.map (· ++ as)))[e.1]? = some ((a.step X E s.db).1.map (· ++ as)) := by
        rw [hei, List.getElem?_set_self hlt]
      rcases h e he with h0 | ⟨as', h0, hc⟩
      · rw [hei, hi] at h0
        cases h0
      · rw [hei, hi] at h0
        cases h0
        cases hst : (a.step X E s.db).1 with
        | none => exact .inl (by rw [hst] at hget; exact hget)
        | some more =>
          rw [hst] at hget
          refine .inr ⟨_, hget, ?_⟩
          rcases hc with hc | hc
          · left
            rcases List.mem_cons.1 hc with rfl | hc
            · cases hst
            · exact List.mem_append_right _ hc
          · right
            refine hc.mono ?_ ?_ ext
            · intro b hb
              rcases List.mem_cons.1 hb with rfl | hb
              · right
                simp only [Act.step] at hst ⊢
                split at hst
                · rename_i hacc
                  rw [if_pos hacc]
                  exact fun n hn => List.mem_append_right _ hn
                · cases hst
              · exact .inl (List.mem_append_right _ hb)
            · intro b hb
              rcases List.mem_cons.1 hb with rfl | hb
              · right
                intro r hr
                show r ∈ if E.acceptCommits s.db.inserts b then s.db.commits ++ b else s.db.commits
                rw [if_pos (hQ E hE _ _)]
                exact List.mem_append_right _ hr
              · exact .inl (List.mem_append_right _ hb)
    · have hget : (s.tasks.set i ((a.step X E s.db).1.map (· ++ as)))[e.1]? = s.tasks[e.1]? := List.getElem?_set_ne (by omega)
      rcases h e he with h0 | ⟨as', h0, hc⟩
      · exact .inl (by rw [← h0]; exact hget)
      · refine .inr ⟨as', by rw [← h0]; exact hget, ?_⟩
        rcases hc with hc | hc
        · exact .inl hc
        · exact .inr (hc.mono (fun b hb => .inl hb) (fun b hb => .inl hb) ext)

theorem pushTask_run {W : Pack → RefCommand → Prop} {X : Ext} {Q : SqlExt → Prop} {R : Bytes → Prop} (hQ : ∀ E, Q E → ∀ n b, E.acceptCommits n b = true) {s : Sys}
    (hs : SysRun X Q R W Sys.empty s) : ∀ e ∈ s.pushed, PushTask X s e := by
  generalize h0 : Sys.empty = s0 at hs
  induction hs with
  | refl => subst h0; intro e he; cases he
  | step t u _ hs ih => exact pushTask_step hQ hs ih

/-- A finished push has stored all it brought. -/
theorem finished_inRepo {X : Ext} {fold : Bytes → Bytes} {db : Db} {q : Bytes} {p : Pack} (h : Covers X db [] q p) {m : MetaData}
    (hm : p.result.hashObject m.id = some m) (hr : m.t = .commit ∨ Spec.PackReach p.result.hashObject m.id) : ∃ o, InRepo fold db q o ∧ m = metaOf X o := by
  have hcommit : ∀ o, p.result.hashObject o.id = some o → o.t = .commit → ∃ r ∈ commitsAt fold db.commits q, o = metaOf X (.commit, r.data) := by
    intro o ho ht
    obtain ⟨r, h1, h2, h3 | ⟨_, h3, _⟩⟩ := h.2 o ho ht
    · exact ⟨r, commitsAt_mem.2 ⟨h3, by rw [h1]⟩, h2⟩
    · cases h3
  have hnode : ∀ x, Spec.PackReach p.result.hashObject x → ∃ n ∈ db.nodes, ∃ o, p.result.hashObject o.id = some o ∧ o.id = x ∧ o = metaOf X (nodeObj n) ∧
      n.gitId = Hash.toPlainStr x := by
    intro x hx
    obtain ⟨n, o, h1, h2, h3, h4, h5 | ⟨_, h5, _⟩⟩ := h.1 x hx
    · exact ⟨n, h5, o, h1, h2, h3, h4⟩
    · cases h5
  have hreach : ∀ x, Spec.PackReach p.result.hashObject x → ∃ r ∈ commitsAt fold db.commits q, ∃ c, Commit.decode r.data = .ok c ∧ StoreReach db.nodes c.treeId x := by
    intro x hx
    induction hx with
    | commit o c ho ht hd =>
      obtain ⟨r, hr, e⟩ := hcommit o ho ht
      refine ⟨r, hr, c, ?_, .refl⟩
      rw [e] at hd
      exact hd
    | item o items i hpr ho ht hd hi ih =>
      obtain ⟨r, hr, c, h1, h2⟩ := ih
      obtain ⟨n, hn, o', g1, g2, g3, g4⟩ := hnode o.id hpr
      rw [g2, ho] at g1
      obtain rfl := Option.some.inj g1
      have ety : (nodeObj n).1 = .tree := by
        rw [g3] at ht
        exact ht
      have hty : n.nodeType = ascii "tree" := by
        by_contra hne
        rw [nodeObj_blob hne] at ety
        cases ety
      rw [g3, nodeObj_tree hty] at hd
      exact ⟨r, hr, c, h1, .item n _ items i h2 hn g4 hty hd hi⟩
  rcases hr with ht | hx
  · obtain ⟨r, hr, e⟩ := hcommit m hm ht
    exact ⟨_, .commit r hr, e⟩
  · obtain ⟨r, hr, c, h1, h2⟩ := hreach _ hx
    obtain ⟨n, hn, o', g1, g2, g3, g4⟩ := hnode _ hx
    rw [g2, hm] at g1
    obtain rfl := Option.some.inj g1
    exact ⟨_, .node r c _ n hr h1 h2 hn g4, g3⟩

end Gust

import Verif.Props.Checkout
import Verif.Props.Publish
import Verif.Props.PublishExamples
import Verif.Props.ConcurrentExamples
import Mathlib.Data.List.Perm.Basic

/-! # C142: what a stop of the server does to pushes under way -/

namespace Gust

open Spec (nodeObj StoreReach commitsAt InRepo)

/-- A server that is stopped now and then. When it is stopped, whatever was under way is lost; what the statements executed so far have written is still in the database (MySQL is another process, and every
statement is a transaction of its own: the connection of /repo/src/gust/driver/database/mysql/storage.rs 31-39 is used without transactions). A connection that breaks is a task that is not continued. -/
inductive Spec.Stopping (X : Ext) (Q : SqlExt → Prop) (R : Bytes → Prop) (W : Pack → RefCommand → Prop) : Sys → Sys → Prop
  | refl (s : Sys) : Spec.Stopping X Q R W s s
  | step (s t u : Sys) : Spec.Stopping X Q R W s t → SysStep X Q R W t u → Spec.Stopping X Q R W s u
  | stop (s t : Sys) : Spec.Stopping X Q R W s t → Spec.Stopping X Q R W s { db := t.db, tasks := [], pushed := [] }

/-- The second server has the same database and, besides those of the first, only tasks that are not continued. -/
structure Idle (t t' : Sys) : Prop where
  db : t'.db = t.db
  tasks : ∃ xs, t'.tasks.Perm (xs ++ t.tasks)

theorem perm_set {α : Type} {l l' xs : List α} {i : Nat} {x : α} (h : l'.Perm (xs ++ l)) (hi : l[i]? = some x) (y : α) :
    ∃ i', l'[i']? = some x ∧ (l'.set i' y).Perm (xs ++ l.set i y) := by
  have lt := (List.getElem?_eq_some_iff.1 hi).1
  have ex := (List.getElem?_eq_some_iff.1 hi).2
  have hx : x ∈ l' := h.symm.subset (List.mem_append_right _ (ex ▸ List.getElem_mem lt))
  obtain ⟨i', lt', ex'⟩ := List.getElem_of_mem hx
  refine ⟨i', List.getElem?_eq_some_iff.2 ⟨lt', ex'⟩, ?_⟩
  have a1 := List.set_perm_cons_eraseIdx lt' y
  have a2 := List.set_perm_cons_eraseIdx lt y
  have b1 := List.getElem_cons_eraseIdx_perm lt'
  have b2 := List.getElem_cons_eraseIdx_perm lt
  rw [ex'] at b1
  rw [ex] at b2
  have c : (l'.eraseIdx i').Perm (xs ++ l.eraseIdx i) := by
    refine (List.perm_cons x).1 (b1.trans (h.trans ?_))
    exact ((List.Perm.append_left xs b2.symm).trans List.perm_middle)
  exact a1.trans ((c.cons y).trans (List.perm_middle.symm.trans (List.Perm.append_left xs a2.symm)))

theorem idle_step {X : Ext} {Q : SqlExt → Prop} {R : Bytes → Prop} {W : Pack → RefCommand → Prop} {t u t' : Sys} (h : SysStep X Q R W t u) (hi : Idle t t') :
    ∃ u', SysStep X Q R W t' u' ∧ Idle u u' := by
  obtain ⟨hd, xs, hp⟩ := hi
  cases h with
  | push St fuel0 file p E fuel path cmd a b c =>
    refine ⟨_, .push t' St fuel0 file p E fuel path cmd a b c, hd, xs, ?_⟩
    rw [← List.append_assoc]
    exact hp.append_right _
  | head path a =>
    refine ⟨_, .head t' path a, hd, xs, ?_⟩
    rw [← List.append_assoc]
    exact hp.append_right _
  | act i a as E g hq =>
    obtain ⟨i', g', k⟩ := perm_set hp g ((a.step X E t.db).1.map (· ++ as))
    refine ⟨_, .act t' i' a as E g' hq, ?_, xs, ?_⟩
    · rw [hd]
    · rw [hd]
      exact k

/-- What a server that is stopped now and then does to the database, a server that just does not continue some tasks does as well. -/
theorem stopping_idle {X : Ext} {Q : SqlExt → Prop} {R : Bytes → Prop} {W : Pack → RefCommand → Prop} {s t s' : Sys} (h : Spec.Stopping X Q R W s t) (hi : Idle s s') :
    ∃ t', SysRun X Q R W s' t' ∧ Idle t t' := by
  induction h with
  | refl => exact ⟨s', .refl _, hi⟩
  | step t u _ hs ih =>
    obtain ⟨t', h1, h2⟩ := ih
    obtain ⟨u', h3, h4⟩ := idle_step hs h2
    exact ⟨u', .step _ _ _ h1 h3, h4⟩
  | stop t _ ih =>
    obtain ⟨t', h1, h2, xs, h3⟩ := ih
    exact ⟨t', h1, h2, t'.tasks, by simp⟩

theorem Idle.self (s : Sys) : Idle s s := ⟨rfl, [], by simp⟩

/-! ## Rows have the ids of their objects -/

def ActNodes (X : Ext) : Act → Prop
  | .nodes b => ∀ n ∈ b, (n.nodeType = ascii "tree" ∨ n.nodeType = ascii "blob") ∧ n.gitId = Hash.toPlainStr (idOf X (nodeObj n))
  | _ => True

theorem step_nodes {X : Ext} {E : SqlExt} {db : Db} {a : Act} (h : NodesOk X db) (ha : ActNodes X a) :
    NodesOk X (a.step X E db).2 ∧ ∀ more, (a.step X E db).1 = some more → ∀ b ∈ more, ActNodes X b := by
  have none_ : ∀ more, (some [] : Option (List Act)) = some more → ∀ b ∈ more, ActNodes X b := by
    intro more e b hb
    cases e
    cases hb
  cases a with
  | nodes b =>
    simp only [Act.step]
    split
    · refine ⟨⟨fun n hn => ?_, fun n hn => ?_⟩, none_⟩
      · rcases List.mem_append.1 hn with hn | hn
        · exact h.type n hn
        · exact (ha n hn).1
      · rcases List.mem_append.1 hn with hn | hn
        · exact h.id n hn
        · exact (ha n hn).2
    · exact ⟨⟨h.type, h.id⟩, fun _ e => nomatch e⟩
  | commits b => exact ⟨⟨h.type, h.id⟩, none_⟩
  | refs b => exact ⟨⟨h.type, h.id⟩, none_⟩
  | findRef cmd q =>
    simp only [Act.step]
    split
    · refine ⟨h, fun more e b hb => ?_⟩
      cases e
      rw [List.mem_singleton.1 hb]
      trivial
    · exact ⟨h, fun _ e => nomatch e⟩
  | setRef i id =>
    simp only [Act.step]
    split
    · exact ⟨⟨h.type, h.id⟩, none_⟩
    · exact ⟨h, fun _ e => nomatch e⟩
  | headRefs q =>
    simp only [Act.step]
    split
    · exact ⟨h, none_⟩
    · split
      · refine ⟨h, fun more e b hb => ?_⟩
        cases e
        rw [List.mem_singleton.1 hb]
        trivial
      · exact ⟨h, none_⟩
  | headCommit r q =>
    simp only [Act.step]
    split
    · exact ⟨h, fun _ e => nomatch e⟩
    · refine ⟨h, fun more e b hb => ?_⟩
      cases e
      rw [List.mem_singleton.1 hb]
      trivial
  | headRoot row r q second =>
    simp only [Act.step]
    split
    · exact ⟨h, fun _ e => nomatch e⟩
    · split
      · refine ⟨h, fun more e b hb => ?_⟩
        cases e
        unfold childActs at hb
        split at hb
        · simp only [List.mem_cons, List.not_mem_nil, or_false] at hb
          rcases hb with rfl | rfl <;> trivial
        · rw [List.mem_singleton.1 hb]
          trivial
      · split
        · exact ⟨h, none_⟩
        · refine ⟨h, fun more e b hb => ?_⟩
          cases e
          rw [List.mem_singleton.1 hb]
          trivial
  | fail => exact ⟨h, fun _ e => nomatch e⟩

theorem push_nodes {X : Ext} {St : ObjectSource} {fuel0 : Nat} {file : Bytes} {p : Pack} (hdec : decodePack X St fuel0 file = .ok p) (E : SqlExt) (fuel : Nat) (q : Bytes)
    (cmd : RefCommand) : ∀ a ∈ pushActs E.pool fuel p q cmd, ActNodes X a := by
  unfold pushActs
  cases hp : E.pool p.result with
  | ok D =>
    simp only
    cases hb : buildNodeTree fuel D with
    | ok rows =>
      obtain ⟨k1, _⟩ := pack_rows hdec (by have := E.pool_outcome p.result; rwa [hp] at this) hb
      have hfl : (nodeBatches 0 [] rows).flatten = rows := by simpa using nodeBatches_flatten rows 0 []
      intro a ha
      simp only [List.mem_append, List.mem_map] at ha
      rcases ha with (⟨b, hb, rfl⟩ | ⟨b, hb, rfl⟩) | ha
      · intro n hn
        obtain ⟨o, _, e1, e2, h⟩ := k1 n (by rw [← hfl]; exact List.mem_flatten.2 ⟨b, hb, hn⟩)
        refine ⟨?_, ?_⟩
        · rcases h with h | h
          · exact .inl h.1
          · exact .inr h
        · rw [e2, e1]
          rfl
      · trivial
      · unfold refActs at ha
        split at ha <;> (rw [List.mem_singleton.1 ha]; trivial)
    | _ =>
      intro a ha
      rw [List.mem_singleton.1 ha]
      trivial
  | _ =>
    intro a ha
    rw [List.mem_singleton.1 ha]
    trivial

structure SysNodes (X : Ext) (s : Sys) : Prop where
  db : NodesOk X s.db
  tasks : ∀ as, some as ∈ s.tasks → ∀ a ∈ as, ActNodes X a

theorem sysRun_nodes {X : Ext} {Q : SqlExt → Prop} {R : Bytes → Prop} {W : Pack → RefCommand → Prop} {s t : Sys} (h : SysNodes X s) (hs : SysRun X Q R W s t) : SysNodes X t := by
  induction hs with
  | refl => exact h
  | step t u _ hs ih =>
    cases hs with
    | push St fuel0 file p E fuel q cmd hdec hq hw =>
      refine ⟨ih.db, fun as ha => ?_⟩
      rcases List.mem_append.1 ha with ha | ha
      · exact ih.tasks as ha
      · cases List.mem_singleton.1 ha
        exact push_nodes hdec E fuel q cmd
    | head q hq =>
      refine ⟨ih.db, fun as ha => ?_⟩
      rcases List.mem_append.1 ha with ha | ha
      · exact ih.tasks as ha
      · cases List.mem_singleton.1 ha
        intro a ha
        rw [List.mem_singleton.1 ha]
        trivial
    | act i a as E hi hq =>
      have old := ih.tasks _ (List.mem_of_getElem? hi)
      obtain ⟨k1, k2⟩ := step_nodes (E := E) ih.db (old a (.head _))
      refine ⟨k1, fun as' ha => ?_⟩
      rcases List.mem_or_eq_of_mem_set ha with ha | ha
      · exact ih.tasks as' ha
      · cases hm : (a.step X E t.db).1 with
        | none => rw [hm] at ha; cases ha
        | some more =>
          rw [hm] at ha
          cases ha
          intro b hb
          rcases List.mem_append.1 hb with hb | hb
          · exact k2 more hm b hb
          · exact old b (.tail _ hb)

theorem sysNodes_empty (X : Ext) : SysNodes X Sys.empty := ⟨nodesOk_empty X, (by intro as h; cases h)⟩

/-! ## A request that is not interrupted -/

/-- A task that runs on its own. -/
theorem solo_run {X : Ext} {E : SqlExt} {Q : SqlExt → Prop} {R : Bytes → Prop} {W : Pack → RefCommand → Prop} (hq : Q E) {a b : Option (List Act) × Db} (h : Solo X E a b) :
    ∀ (s : Sys) (i : Nat), s.db = a.2 → s.tasks[i]? = some a.1 → SysRun X Q R W s { s with db := b.2, tasks := s.tasks.set i b.1 } := by
  induction h with
  | refl t =>
    intro s i h1 h2
    have : ({ s with db := t.2, tasks := s.tasks.set i t.1 } : Sys) = s := by
      obtain ⟨lt, e⟩ := List.getElem?_eq_some_iff.1 h2
      rw [← h1, ← e, List.set_getElem_self]
    rw [this]
    exact .refl _
  | step a as db t _ ih =>
    intro s i h1 h2
    have lt := (List.getElem?_eq_some_iff.1 h2).1
    have first : SysRun X Q R W s { s with db := (a.step X E db).2, tasks := s.tasks.set i ((a.step X E db).1.map (· ++ as)) } := by
      have := SysStep.act (X := X) (Q := Q) (R := R) (W := W) s i a as E h2 hq
      rw [h1] at this
      exact .step _ _ _ (.refl _) this
    have := ih { s with db := (a.step X E db).2, tasks := s.tasks.set i ((a.step X E db).1.map (· ++ as)) } i rfl (List.getElem?_set_self lt)
    simp only [List.set_set] at this
    exact first.trans this

/-- The pushes among the tasks, from a state without any. -/
theorem pushTask_from {W : Pack → RefCommand → Prop} {X : Ext} {Q : SqlExt → Prop} {R : Bytes → Prop} (hQ : ∀ E, Q E → ∀ n b, E.acceptCommits n b = true) {s0 s : Sys} (h0 : s0.pushed = [])
    (hs : SysRun X Q R W s0 s) : ∀ e ∈ s.pushed, PushTask X s e := by
  induction hs with
  | refl => rw [h0]; intro e he; cases he
  | step t u _ hs ih => exact pushTask_step hQ hs ih

/-- A push that is stored without interruption. -/
theorem solo_stored {X : Ext} {E : SqlExt} {fuel : Nat} {p : Pack} {path : Bytes} {cmd : RefCommand} {db db1 db2 : Db} (h1 : savePackfile E fuel p path db = (.ok (), db1))
    (h2 : handleRefs E cmd path db1 = (.ok (), db2)) : Solo X E (some (pushActs E.pool fuel p path cmd), db) (some [], db2) := by
  have := solo_push X E fuel p path cmd db
  rw [h1] at this
  simp only [h2] at this
  exact this

theorem stored_run {X : Ext} {E : SqlExt} {Q : SqlExt → Prop} {R : Bytes → Prop} {W : Pack → RefCommand → Prop} (hq : Q E) {fuel fuel0 : Nat} {p : Pack} {St : ObjectSource} {file : Bytes}
    (hd : decodePack X St fuel0 file = .ok p) {path : Bytes} (hR : R path) {cmd : RefCommand} (hW : W p cmd) {s : Sys} {db1 db2 : Db}
    (h1 : savePackfile E fuel p path s.db = (.ok (), db1)) (h2 : handleRefs E cmd path db1 = (.ok (), db2)) :
    SysRun X Q R W s { db := db2, tasks := s.tasks ++ [some []], pushed := (s.tasks.length, path, p) :: s.pushed } := by
  have a := SysStep.push (X := X) (Q := Q) (R := R) (W := W) s St fuel0 file p E fuel path cmd hd hR hW
  have b := solo_run (Q := Q) (R := R) (W := W) hq (solo_stored (X := X) h1 h2)
    { s with tasks := s.tasks ++ [some (pushActs E.pool fuel p path cmd)], pushed := (s.tasks.length, path, p) :: s.pushed } s.tasks.length rfl (by simp)
  have e : (s.tasks ++ [some (pushActs E.pool fuel p path cmd)]).set s.tasks.length (some []) = s.tasks ++ [some []] := by
    rw [List.set_append_right _ _ (Nat.le_refl _)]
    simp
  simp only [e] at b
  exact SysRun.trans (.step _ _ _ (.refl _) a) b

/-- It has stored all it brought. -/
theorem stored_covers {X : Ext} {E : SqlExt} (hacc : ∀ n b, E.acceptCommits n b = true) {fuel fuel0 : Nat} {p : Pack} {St : ObjectSource} {file : Bytes}
    (hd : decodePack X St fuel0 file = .ok p) {path : Bytes} {cmd : RefCommand} {db db1 db2 : Db}
    (h1 : savePackfile E fuel p path db = (.ok (), db1)) (h2 : handleRefs E cmd path db1 = (.ok (), db2)) : Covers X db2 [] path p := by
  have r := stored_run (Q := fun E' => E' = E) (R := fun _ => True) (W := fun _ _ => True) rfl hd trivial (cmd := cmd) trivial (s := { db := db, tasks := [], pushed := [] }) h1 h2
  rcases pushTask_from (by rintro _ rfl; exact hacc) rfl r (0, path, p) (by simp) with h | ⟨as, h, hc⟩
  · cases h
  · cases h
    rcases hc with hc | hc
    · cases hc
    · exact hc

/-! ## Clones -/

/-- **C142 (partial)** However requests overlap, and wherever the server was stopped while it handled them: a client that clones a repository in which a commit is stored gets an answer it can read, with exactly
the objects of the commits stored; these commits are complete. `hR`: no request names a directory above the path (see C55). (Missing from the full claim: a failed insert of commits goes unnoticed, see C26;
crashes of the database.) -/
theorem C142_clone_partial (P : ServerExt) (hfold : ∀ a b : Hash, P.D.fold (Hash.toPlainStr a) = P.D.fold (Hash.toPlainStr b) → a = b)
    (R : Bytes → Prop) (W : Pack → RefCommand → Prop) (u g : Bytes) (hu : Spec.CleanUrl u) (hg : g = [] ∨ g = ascii ".git")
    (hR : ∀ a q, R a → R q → P.D.fold q = P.D.fold u → pathStartsWith q a = true → a = q) (s : Sys) (h : Spec.Stopping P.X (fun E => E.fold = P.D.fold) R W Sys.empty s)
    (hun : UniqueIds P.X s.db) (hfit : FitsPack P.X s.db) (hne : commitsAt P.D.fold s.db.commits u ≠ [])
    (m : Moment) (hm : m.sql.fold = P.D.fold) (hfuel : s.db.nodes.length ≤ m.fuel) (hord : ∀ l x, x ∈ m.ord l ↔ x ∈ l) (hcut : Spec.CutOk m.cut)
    (st : ServerState) (hst : st.db = s.db) (ls : List Spec.ReqLine) (t rest : Bytes) (hr : Spec.CloneReq ls t) :
    ∃ out file ms, (serve P m st (Spec.fetchReq (u ++ g) (doneBody ls t rest))).1 = .reply (.ok (.bytes out)) ∧ Spec.readClone out = some file ∧ PackHas P.X file ms ∧
      (∀ x, x ∈ ms ↔ ∃ o, InRepo P.D.fold s.db u o ∧ x = metaOf P.X o) ∧
      ∀ r ∈ commitsAt P.D.fold s.db.commits u, ∃ c, Commit.decode r.data = .ok c ∧ r.gitId = Hash.toPlainStr (idOf P.X (.commit, r.data)) ∧
        (∃ n ∈ s.db.nodes, n.gitId = Hash.toPlainStr c.treeId ∧ n.nodeType = ascii "tree") ∧
        ∀ x, StoreReach s.db.nodes c.treeId x → ∃ n ∈ s.db.nodes, n.gitId = Hash.toPlainStr x ∧ idOf P.X (nodeObj n) = x := by
  obtain ⟨s', h1, h2, _⟩ := stopping_idle h (Idle.self _)
  have T : Spec.FetchDuring P.X P.D.fold R W s' ⟨fun _ => (m.sql, s'), fun _ => (m.sql, s'), fun _ => (m.sql, s')⟩ s' :=
    ⟨h1, fun _ => .refl _, fun _ => .refl _, fun _ => .refl _, fun _ _ => .refl _, fun _ => .refl _, fun _ => hm, fun _ => hm, fun _ => hm⟩
  obtain ⟨out, file, ms, c1, c2, c3, c4⟩ := C108_clone_partial P.X P.D.fold hfold R W u hR s' s' _ T (by rw [h2]; exact hun) (by rw [h2]; exact hfit) m.fuel (by rw [h2]; exact hfuel)
    (by rw [h2]; exact hne) m.ord hord m.cut hcut ls t rest hr
  have c1' : httpUploadPack (mysqlFetch P.X m.sql m.fuel s'.db u) m.ord m.cut (doneBody ls t rest) = .ok out := by
    rw [← httpUploadPackL_same]
    exact c1
  refine ⟨out, file, ms, ?_, c2, c3, ?_, ?_⟩
  · have hroute := route_fetch hu hg
    rw [h2] at c1'
    simp only [serve, Spec.fetchReq, hroute, hst, c1']
    rfl
  · rw [h2] at c4
    exact c4
  · have := (C82_overlapping_pushes_partial P.X P.D.fold R W u hR s' h1 (by rw [h2]; exact hun)).1
    rw [h2] at this
    exact this

/-- **C142 (partial)** Refs are never ahead of what is stored: however requests overlap, and wherever the server was stopped, if every push names a commit of its own pack and inserts of commits do not fail, then
every stored ref names a commit stored for the path of the ref; and if no request names a directory above that path, this commit can be read, has the id the ref says, and all that is reachable from it is
stored. So a push whose ref is there has been stored completely, although nobody may have been told. (Missing from the full claim: failing inserts, see `C84_lost_commits_false`.) -/
theorem C142_refs_partial (X : Ext) (fold : Bytes → Bytes) (R : Bytes → Prop) (s : Sys)
    (h : Spec.Stopping X (fun E => E.fold = fold ∧ ∀ n b, E.acceptCommits n b = true) R OwnCommit Sys.empty s) (r : RefRow) (hr : r ∈ s.db.refs) :
    ∃ c ∈ commitsAt fold s.db.commits r.repoPath, c.gitId = r.refGitId ∧
      ((∀ a q, R a → R q → fold q = fold r.repoPath → pathStartsWith q a = true → a = q) → UniqueIds X s.db →
        Hash.toPlainStr (idOf X (.commit, c.data)) = r.refGitId ∧ ∃ d, Commit.decode c.data = .ok d ∧
          (∃ n ∈ s.db.nodes, n.gitId = Hash.toPlainStr d.treeId ∧ n.nodeType = ascii "tree") ∧
          ∀ x, StoreReach s.db.nodes d.treeId x → ∃ n ∈ s.db.nodes, n.gitId = Hash.toPlainStr x) := by
  obtain ⟨s', h1, h2, _⟩ := stopping_idle h (Idle.self _)
  have := C84_refs_partial X fold R s' h1 r (by rw [h2]; exact hr)
  rw [h2] at this
  exact this

theorem stopping_of_run {X : Ext} {Q : SqlExt → Prop} {R : Bytes → Prop} {W : Pack → RefCommand → Prop} {s t : Sys} (h : SysRun X Q R W s t) : Spec.Stopping X Q R W s t := by
  induction h with
  | refl => exact .refl _
  | step t u _ hs ih => exact .step _ _ _ ih hs

/-- The push of a complete project is stored and answered. -/
theorem project_stored {X : Ext} {fold : Bytes → Bytes} (hfold : ∀ a b : Hash, fold (Hash.toPlainStr a) = fold (Hash.toPlainStr b) → a = b) {db : Db} (hn : NodesOk X db)
    (hun : UniqueIds X db) {E : SqlExt} (hf : E.fold = fold) (hacc : Spec.Accepts E) {u : Bytes} {c : Spec.PushCmd} (hc : c.Ok) {caps : Bytes} (hcaps : caps.length ≤ 4000)
    (hascii : ∀ x ∈ caps, x.toNat < 128) (happ : Spec.Applies fold db u c) {os : List (Nat × Spec.Obj)} {pack : Bytes} (hpack : Spec.PackOf X fold db pack os)
    (hproj : Spec.Project X os) {fuel : Nat} (hfuel : os.length < fuel) :
    ∃ p db1 rep st', decodePack X (getHashObject X E db) fuel pack = .ok p ∧ p.result.hashObject = Spec.found X os ∧ savePackfile E fuel p u db = (.ok (), db1) ∧
      handleRefs E (RefCommand.new c.old c.new (c.name ++ [0])) u db1 = (.ok (), st'.db) ∧
      httpReceivePack (mysqlPush X E fuel) { caps := [], commands := [], path := u, db := db } (Spec.pushBody c [] caps pack) = .ok (rep, st') ∧
      Spec.reportLines (decide (.sideBand ∈ parseCapabilities caps ∨ .sideBand64k ∈ parseCapabilities caps)) rep =
        some [ascii "unpack ok\n", Spec.statusLine (c.name ++ [0]) none] := by
  obtain ⟨p, d1, d2⟩ := packOf_read hfold hn hun hf hpack (fuel := fuel) (by omega)
  obtain ⟨hist, e, _⟩ := decodePack_hist d1
  obtain ⟨db1, s1⟩ := C48_push_acyclic_partial (p := p) (by rw [e]; exact PackCache.keyed_run hist) (by rw [d2]; exact hproj.complete) (by rw [d2]; exact hproj.finite)
    (os.map (fun q => idOf X q.2)) (by
      intro x o ho
      rw [d2] at ho
      obtain ⟨q, hq, e1, e2⟩ := (found_iff hpack.ids _ _).1 ho
      exact List.mem_map.2 ⟨q, hq, by rw [← e2, ← e1]; rfl⟩) fuel (by rw [List.length_map]; omega) E hacc.nodes u db
  have hrefs : db1.refs = db.refs := by
    have := savePackfile_refs E fuel p u db
    rwa [s1] at this
  obtain ⟨db2, s2⟩ := handleRefs_applies (E := E) (by rw [hf]; exact happ) (fun n => hacc.updates n _) db1 hrefs
  obtain ⟨rep, st', r1, r3, r2⟩ := (C70_report_partial (mysqlPush X E fuel) u _ db1 c hc caps hcaps hascii pack (decodePack_magic d1) p d1).1 db2 s1 s2
  exact ⟨p, db1, rep, st', d1, d2, s1, by rw [r3]; exact s2, r1, r2⟩

/-- **C142 (partial)** A push can be made again: on a server that started empty and has handled any requests, overlapping as they like and stopped wherever it was stopped, the push of a complete project, whether
parts of it are stored already or not, is answered with success. From then on, whatever requests follow or are still being worked on, and wherever the server is stopped, who clones the repository and
checks out one of its commits finds exactly the files of the project. (Missing from the full claim: as in C111.) -/
theorem C142_again_partial (P : ServerExt) (hfold : ∀ a b : Hash, P.D.fold (Hash.toPlainStr a) = P.D.fold (Hash.toPlainStr b) → a = b)
    (R : Bytes → Prop) (u g g' : Bytes) (hu : Spec.CleanUrl u) (hg : g = [] ∨ g = ascii ".git") (hg' : g' = [] ∨ g' = ascii ".git") (hRu : R u)
    (hR : ∀ a q, R a → R q → P.D.fold q = P.D.fold u → pathStartsWith q a = true → a = q)
    (s1 : Sys) (h1 : Spec.Stopping P.X (fun E => E.fold = P.D.fold) R (fun _ _ => True) Sys.empty s1)
    (m1 : Moment) (hm1 : m1.sql.fold = P.D.fold) (hacc : Spec.Accepts m1.sql) (st1 : ServerState) (hst1 : st1.db = s1.db)
    (c : Spec.PushCmd) (hc : c.Ok) (caps : Bytes) (hcaps : caps.length ≤ 4000) (hascii : ∀ x ∈ caps, x.toNat < 128) (happ : Spec.Applies P.D.fold s1.db u c)
    (os : List (Nat × Spec.Obj)) (pack : Bytes) (hpack : Spec.PackOf P.X P.D.fold s1.db pack os) (hproj : Spec.Project P.X os) (hcommit : ∃ p ∈ os, p.2.1 = .commit) (hfuel1 : os.length < m1.fuel)
    (push : HttpReq) (hreq : push = Spec.pushReq (u ++ g) (Spec.pushBody c [] caps pack))
    (s2 : Sys) (h2 : Spec.Stopping P.X (fun E => E.fold = P.D.fold) R (fun _ _ => True) { s1 with db := (serve P m1 st1 push).2.db } s2) (hun : UniqueIds P.X s2.db) (hfit : FitsPack P.X s2.db)
    (m2 : Moment) (hm2 : m2.sql.fold = P.D.fold) (hfuel2 : s2.db.nodes.length ≤ m2.fuel) (hord : ∀ l x, x ∈ m2.ord l ↔ x ∈ l) (hcut : Spec.CutOk m2.cut)
    (st2 : ServerState) (hst2 : st2.db = s2.db) (ls : List Spec.ReqLine) (t rest : Bytes) (hr : Spec.CloneReq ls t) :
    ∃ rep out file, (serve P m1 st1 push).1 = .reply (.ok (.bytes rep)) ∧
      Spec.reportLines (decide (.sideBand ∈ parseCapabilities caps ∨ .sideBand64k ∈ parseCapabilities caps)) rep =
        some [ascii "unpack ok\n", Spec.statusLine (c.name ++ [0]) none] ∧
      (serve P m2 st2 (Spec.fetchReq (u ++ g') (doneBody ls t rest))).1 = .reply (.ok (.bytes out)) ∧ Spec.readClone out = some file ∧
      ∀ St fuel, ∃ q, decodePack P.X St (fuel + 1) file = .ok q ∧ ∀ p ∈ os, p.2.1 = .commit →
        ∀ path mode data, Spec.CheckedOut (Spec.found P.X os) (idOf P.X p.2) path mode data ↔ Spec.CheckedOut q.result.hashObject (idOf P.X p.2) path mode data := by
  obtain ⟨s1', a1, a2, xs, a3⟩ := stopping_idle h1 (Idle.self _)
  have hroute := route_push hu hg
  have hnodes : NodesOk P.X s1.db := by
    rw [← a2]
    exact (sysRun_nodes (sysNodes_empty _) a1).db
  -- uniqueness before the push
  have hex : Extends s1.db s2.db := by
    obtain ⟨s2', b1, b2, _⟩ := stopping_idle h2 (Idle.self _)
    have e1 := sysRun_extends b1
    rw [b2] at e1
    have e0 : Extends s1.db (serve P m1 st1 push).2.db := by
      have := serve_extends P m1 st1 push
      rwa [hst1] at this
    exact e0.trans e1
  have hun1 := hex.unique hun
  obtain ⟨p, db1, rep, st', d1, d2, v1, v2, r1, r2⟩ := project_stored hfold hnodes hun1 hm1 hacc hc hcaps hascii happ hpack hproj hfuel1
  have edb : (serve P m1 st1 push).2.db = st'.db := by
    rw [serve_db, hreq]
    simp only [Spec.pushReq, hroute, hst1]
    exact httpReceiveDb_ok _ _ _ _ _ r1
  rw [edb] at h2
  have b1 := stored_run (Q := fun E => E.fold = P.D.fold) (R := R) (W := fun _ _ => True) hm1 d1 hRu (cmd := RefCommand.new c.old c.new (c.name ++ [0])) trivial (s := s1') (by rw [a2]; exact v1) v2
  obtain ⟨s2', b2, b3, ys, b4⟩ := stopping_idle h2 (s' := { db := st'.db, tasks := s1'.tasks ++ [some []], pushed := (s1'.tasks.length, u, p) :: s1'.pushed }) ⟨rfl, some [] :: xs, by
    refine List.perm_append_comm.trans ?_
    exact a3.cons _⟩
  have run := (a1.trans b1).trans b2
  have hcov : Covers P.X s2'.db [] u p := by
    refine (stored_covers hacc.commits d1 v1 v2).mono (fun b hb => nomatch hb) (fun b hb => nomatch hb) (sysRun_extends b2)
  obtain ⟨o0, ho0, et0⟩ := hcommit
  have hin : ∀ m, p.result.hashObject m.id = some m → m.t = .commit ∨ Spec.PackReach p.result.hashObject m.id → ∃ o, InRepo P.D.fold s2'.db u o ∧ m = metaOf P.X o := fun m hm hr =>
    finished_inRepo (fold := P.D.fold) hcov hm hr
  have hat : ∀ o ∈ os, p.result.hashObject (metaOf P.X o.2).id = some (metaOf P.X o.2) := fun o ho => by
    rw [d2]
    exact (found_iff hpack.ids _ _).2 ⟨o, ho, rfl, rfl⟩
  have hne : commitsAt P.D.fold s2'.db.commits u ≠ [] := by
    obtain ⟨x, hx, _⟩ := hin _ (hat o0 ho0) (.inl et0)
    cases hx with
    | commit r hr => exact List.ne_nil_of_mem hr
    | node r c y n hr => exact List.ne_nil_of_mem hr
  obtain ⟨out, file, ms, c1, c2, c3, c4, _⟩ := C142_clone_partial P hfold R (fun _ _ => True) u g' hu hg' hR s2' (stopping_of_run run) (by rw [b3]; exact hun) (by rw [b3]; exact hfit) hne m2 hm2
    (by rw [b3]; exact hfuel2) hord hcut st2 (by rw [b3]; exact hst2) ls t rest hr
  refine ⟨rep, out, file, ?_, r2, c1, c2, fun St fuel => ?_⟩
  · rw [hreq]
    simp only [serve, Spec.pushReq, hroute, hst1, r1]
    rfl
  obtain ⟨q, q1, _, q2⟩ := c3.2 St fuel
  refine ⟨q, q1, fun o ho et path mode data => ?_⟩
  have := CheckedOut.same (find' := q.result.hashObject) (fun x hx hf => ?_) (fun h hh => ?_) (hat o ho) et path mode data
  · rw [d2] at this
    exact this
  · obtain ⟨y, y1, y2⟩ := hin x hf hx
    exact (q2 _ _).2 ⟨(c4 x).2 ⟨y, y1, y2⟩, rfl⟩
  · obtain ⟨n, o, o1, o2, _⟩ := hcov.1 h hh
    exact ⟨o, o1, o2⟩

/-! ## Examples -/

/-- C142: while a push to `/other` is under way, the server is stopped. Afterwards the ref of `/app` names the commit pushed before, and a clone of `/app` is answered with the five objects. -/
example : ∃ (b s : Sys) (c : CommitRow) (m : Moment) (out file : Bytes) (ms : List MetaData), b.tasks = [some [], some (refActs appCreate (ascii "/other"))] ∧ s = { db := b.db, tasks := [], pushed := [] } ∧
    Spec.Stopping polyExt AppSql AppPaths OwnCommit Sys.empty s ∧ c ∈ commitsAt demoFold s.db.commits (ascii "/app") ∧ Hash.toPlainStr (idOf polyExt (.commit, c.data)) = appCmd.new ∧
    (serve demoServer m { ServerState.empty with db := s.db } (Spec.fetchReq (ascii "/app" ++ []) (doneBody cloneLines (ascii "\n") []))).1 = .reply (.ok (.bytes out)) ∧
    Spec.readClone out = some file ∧ PackHas polyExt file ms ∧ ∀ x, x ∈ ms ↔ x ∈ appObjects := by
  obtain ⟨p, a, b, h1, h2, hobj, ha1, ha2, hrefs, hb1, hb2, hb3, objs, _⟩ := app_two
  have st : Spec.Stopping polyExt AppSql AppPaths OwnCommit Sys.empty { db := b.db, tasks := [], pushed := [] } := .stop _ _ (stopping_of_run (h1.trans h2))
  obtain ⟨c, hc, _, h⟩ := C142_refs_partial polyExt demoFold AppPaths _ st { repoPath := ascii "/app", refName := ascii "refs/heads/master", refGitId := appCmd.new }
    (by show _ ∈ b.db.refs; rw [hb3, hrefs]; exact .head _)
  have stf : Spec.Stopping polyExt (fun E => E.fold = demoFold) AppPaths OwnCommit Sys.empty { db := b.db, tasks := [], pushed := [] } :=
    .stop _ _ (stopping_of_run ((h1.trans h2).weaken fun E h => h.1))
  obtain ⟨out, file, ms, c1, c2, c3, c4, _⟩ := C142_clone_partial demoServer demoFold_hash AppPaths OwnCommit (ascii "/app") [] app_clean_url (.inl rfl) (appPaths_above _) _ stf
    (app_unique objs) (app_fits objs) (List.ne_nil_of_mem hc) { demoMoment with fuel := b.db.nodes.length } rfl (Nat.le_refl _) (fun _ _ => .rfl) demoCut_ok { ServerState.empty with db := b.db } rfl
    cloneLines (ascii "\n") [] cloneLines_ok
  refine ⟨b, _, c, _, out, file, ms, hb2, rfl, st, hc, (h (appPaths_above _) (app_unique objs)).1, c1, c2, c3, fun x => ?_⟩
  rw [c4]
  constructor
  · rintro ⟨o, ho, rfl⟩
    exact objs o (inRepo_stored ho)
  · intro hx
    refine (C82_overlapping_pushes_partial polyExt demoFold AppPaths OwnCommit (ascii "/app") (appPaths_above _) b ((h1.trans h2).weaken fun E h => h.1) (app_unique objs)).2.2
      ((h1.trans h2).weaken fun E h => h.2) (0, ascii "/app", p) (by rw [hb1]; simp) (by rw [hb2]; rfl) x ((hobj _ _).2 ⟨hx, rfl⟩) ?_
    exact app_reached (fun m hm => (hobj _ _).2 ⟨appThin_sub m hm, rfl⟩) hx

theorem app_packOf_any (fold : Bytes → Bytes) : ∃ pack, ∀ db, Spec.PackOf polyExt fold db pack appEntries := by
  have small : ∀ m ∈ appObjects, m.data.length < 2 ^ 61 := by decide +kernel
  obtain ⟨hd, h1, h2, h3⟩ := packFile_written appObjects_new small (by decide) (by decide) (⟨List.replicate 20 7, rfl⟩ : Hash)
  refine ⟨_, fun db => ⟨⟨_, _, fun _ => none, h3, by decide +kernel, (fun _ _ e => by cases e), resolves_written (fun m hm => (new_ok (appObjects_new m hm)).1) 12 []⟩, appEntries_ids, ?_⟩⟩
  intro p hp
  obtain ⟨a, m, b, e, rfl⟩ := mem_objectsAt.1 hp
  have := small m (by rw [e]; simp)
  simp only
  omega

theorem app_save_objs {St : ObjectSource} {fuel0 : Nat} {file : Bytes} {p : Pack} (hdec : decodePack polyExt St fuel0 file = .ok p)
    (hf : ∀ h m, p.result.hashObject h = some m ↔ m ∈ appObjects ∧ m.id = h) (E : SqlExt) (fuel : Nat) (path : Bytes) (db : Db) (hdb : ∀ o, StoredObj db o → metaOf polyExt o ∈ appObjects)
    (o : Spec.Obj) (ho : StoredObj (savePackfile E fuel p path db).2 o) : metaOf polyExt o ∈ appObjects := by
  obtain ⟨rows, h1, h2, _, h4⟩ := push_effect hdec E fuel path db
  rcases ho with ⟨n, hn, rfl⟩ | ⟨r, hr, rfl⟩
  · rw [h1] at hn
    rcases List.mem_append.1 hn with hn | hn
    · exact hdb _ (.inl ⟨n, hn, rfl⟩)
    obtain ⟨m, hm, e, _⟩ := h2 n hn
    rw [← e]
    exact ((hf _ _).1 hm).1
  · rcases h4 r hr with h | ⟨_, _, m, c, hm, ht, hd, _⟩
    · exact hdb _ (.inr ⟨r, h, rfl⟩)
    · have hmem := ((hf _ _).1 hm).1
      have := (metaOf_of_new (appObjects_new m hmem)).2
      rw [hd, ← ht, this]
      exact hmem

/-- C142: the five objects are pushed to `/app`, and the server is stopped when it has stored them but not made the branch. The same push is made again and answered; the server is stopped again; a client
that clones `/app` then finds the file `src/a`. -/
example : ∃ (s0 : Sys) (pack rep out file : Bytes) (m1 m2 : Moment) (q : Pack),
    Spec.Stopping polyExt (fun E => E.fold = demoFold) (fun a => a = ascii "/app") (fun _ _ => True) Sys.empty s0 ∧ s0.db.refs = [] ∧ s0.db.nodes ≠ [] ∧
    s0.tasks = [some (refActs (RefCommand.new appCmd.old appCmd.new (appCmd.name ++ [0])) (ascii "/app"))] ∧
    (serve demoServer m1 { ServerState.empty with db := s0.db } (Spec.pushReq (ascii "/app" ++ ascii ".git") (Spec.pushBody appCmd [] (ascii "report-status") pack))).1 = .reply (.ok (.bytes rep)) ∧
    Spec.reportLines false rep = some [ascii "unpack ok\n", ascii "ok refs/heads/master" ++ [0]] ∧
    (serve demoServer m2 (serve demoServer m1 { ServerState.empty with db := s0.db } (Spec.pushReq (ascii "/app" ++ ascii ".git") (Spec.pushBody appCmd [] (ascii "report-status") pack))).2
      (Spec.fetchReq (ascii "/app" ++ []) (doneBody cloneLines (ascii "\n") []))).1 = .reply (.ok (.bytes out)) ∧
    Spec.readClone out = some file ∧ decodePack polyExt (fun _ => none) 1 file = .ok q ∧
    Spec.CheckedOut q.result.hashObject (idOf polyExt (.commit, appCommit.encode)) [ascii "src", ascii "a"] (ascii "100644") (ascii "one") := by
  obtain ⟨pack, hpack⟩ := app_packOf_any demoServer.D.fold
  obtain ⟨m1, hm1⟩ : ∃ m1 : Moment, m1 = { demoMoment with fuel := 6 } := ⟨_, rfl⟩
  have hlen : appEntries.length = 5 := objectsAt_length polyExt 12 appObjects
  have hsql : m1.sql = demoSql := by rw [hm1]; rfl
  have hfo : m1.sql.fold = demoServer.D.fold := by rw [hsql]; rfl
  have hacc : Spec.Accepts m1.sql := by rw [hsql]; exact ⟨fun _ _ => rfl, fun _ _ => rfl, fun _ _ => rfl, fun _ _ => rfl⟩
  have hfu : appEntries.length < m1.fuel := by rw [hlen, hm1]; decide
  have hun0 : UniqueIds polyExt Db.empty := by
    intro a b ha
    rcases ha with ⟨n, hn, _⟩ | ⟨n, hn, _⟩ <;> cases hn
  obtain ⟨p, db1, _, _, d1, d2, v1, _⟩ := project_stored (u := ascii "/app") demoFold_hash (nodesOk_empty polyExt) hun0 hfo hacc appCmd_ok (caps := ascii "report-status") (by decide) (by decide) (.inl rfl)
    (hpack Db.empty) app_project hfu
  have hfind : ∀ h m, p.result.hashObject h = some m ↔ m ∈ appObjects ∧ m.id = h := fun h m => by rw [d2]; exact app_found h m
  have objs1 : ∀ o, StoredObj db1 o → metaOf polyExt o ∈ appObjects := by
    have := app_save_objs d1 hfind m1.sql m1.fuel (ascii "/app") Db.empty (by rintro o (⟨n, hn, _⟩ | ⟨n, hn, _⟩) <;> cases hn)
    rwa [v1] at this
  -- stored, but without the branch
  have run1 : SysRun polyExt (fun E => E.fold = demoFold) (fun a => a = ascii "/app") (fun _ _ => True) Sys.empty
      { db := db1, tasks := [some (refActs (RefCommand.new appCmd.old appCmd.new (appCmd.name ++ [0])) (ascii "/app"))], pushed := [(0, ascii "/app", p)] } := by
    have a := SysStep.push (X := polyExt) (Q := fun E => E.fold = demoFold) (R := fun a => a = ascii "/app") (W := fun _ _ => True) Sys.empty _ _ _ p m1.sql m1.fuel (ascii "/app")
      (RefCommand.new appCmd.old appCmd.new (appCmd.name ++ [0])) d1 rfl trivial
    have b := solo_save polyExt m1.sql m1.fuel p (ascii "/app") (RefCommand.new appCmd.old appCmd.new (appCmd.name ++ [0])) Db.empty
    rw [v1] at b
    exact SysRun.trans (.step _ _ _ (.refl _) a) (solo_run (by rw [hsql]; rfl) b _ 0 rfl rfl)
  obtain ⟨s0, hs0⟩ : ∃ s0 : Sys, s0 = { db := db1, tasks := [some (refActs (RefCommand.new appCmd.old appCmd.new (appCmd.name ++ [0])) (ascii "/app"))], pushed := [(0, ascii "/app", p)] } := ⟨_, rfl⟩
  have stop0 : Spec.Stopping polyExt (fun E => E.fold = demoFold) (fun a => a = ascii "/app") (fun _ _ => True) Sys.empty s0 := by
    rw [hs0]
    exact stopping_of_run run1
  obtain ⟨push, hpush⟩ : ∃ push, push = Spec.pushReq (ascii "/app" ++ ascii ".git") (Spec.pushBody appCmd [] (ascii "report-status") pack) := ⟨_, rfl⟩
  have hroute : route push.method push.path push.service = .receivePack (ascii "/app") := by rw [hpush]; exact route_push app_clean_url (.inr rfl)
  obtain ⟨st1, hst1⟩ : ∃ st1 : ServerState, st1 = { ServerState.empty with db := db1 } := ⟨_, rfl⟩
  have nodes1 : NodesOk polyExt db1 := by
    have := (sysRun_nodes (sysNodes_empty polyExt) run1).db
    exact this
  -- what is stored in the end
  have objs2 : ∀ o, StoredObj (serve demoServer m1 st1 push).2.db o → metaOf polyExt o ∈ appObjects := by
    obtain ⟨p', db1', rep', st', g1, g2, g3, g4, g5, _⟩ := project_stored (u := ascii "/app") demoFold_hash nodes1 (app_unique objs1) hfo hacc appCmd_ok (caps := ascii "report-status") (by decide) (by decide)
      (.inl rfl) (hpack db1) app_project hfu
    have edb : (serve demoServer m1 st1 push).2.db = st'.db := by
      rw [serve_db, hroute, hst1, hpush]
      exact httpReceiveDb_ok _ _ _ _ _ g5
    rw [edb]
    have e1 := app_save_objs g1 (fun h m => by rw [g2]; exact app_found h m) m1.sql m1.fuel (ascii "/app") db1 objs1
    rw [g3] at e1
    have e2 := handleRefs_only m1.sql (RefCommand.new appCmd.old appCmd.new (appCmd.name ++ [0])) (ascii "/app") db1'
    rw [g4] at e2
    intro o ho
    refine e1 o ?_
    rcases ho with ⟨n, hn, e⟩ | ⟨n, hn, e⟩
    · exact .inl ⟨n, by rw [← e2.1]; exact hn, e⟩
    · exact .inr ⟨n, by rw [← e2.2]; exact hn, e⟩
  obtain ⟨m2, hm2⟩ : ∃ m2 : Moment, m2 = { demoMoment with fuel := (serve demoServer m1 st1 push).2.db.nodes.length } := ⟨_, rfl⟩
  obtain ⟨rep, out, file, r1, r2, r3, r4, r5⟩ := C142_again_partial demoServer demoFold_hash (fun a => a = ascii "/app") (ascii "/app") (ascii ".git") [] app_clean_url (.inr rfl) (.inl rfl) rfl
    (by rintro a q rfl rfl _ _; rfl) { db := db1, tasks := [], pushed := [] } (by have := Spec.Stopping.stop _ _ stop0; rw [hs0] at this; exact this) m1 hfo hacc st1 (by rw [hst1]) appCmd appCmd_ok (ascii "report-status") (by decide) (by decide) (.inl rfl)
    appEntries pack (hpack db1) app_project ⟨_, .head _, rfl⟩ hfu push hpush { db := (serve demoServer m1 st1 push).2.db, tasks := [], pushed := [] } (.stop _ _ (.refl _)) (app_unique objs2) (app_fits objs2)
    m2 (by rw [hm2]; rfl) (by rw [hm2]) (by rw [hm2]; exact fun _ _ => .rfl) (by rw [hm2]; exact demoCut_ok) (serve demoServer m1 st1 push).2 rfl cloneLines (ascii "\n") [] cloneLines_ok
  obtain ⟨q, q1, q2⟩ := r5 (fun _ => none) 0
  have hside : decide (Capability.sideBand ∈ parseCapabilities (ascii "report-status") ∨ Capability.sideBand64k ∈ parseCapabilities (ascii "report-status")) = false := by
    decide +kernel
  rw [hside, show Spec.statusLine (appCmd.name ++ [0]) none = ascii "ok refs/heads/master" ++ [0] by decide] at r2
  have hrefs : db1.refs = [] := by
    have := savePackfile_refs m1.sql m1.fuel p (ascii "/app") Db.empty
    rw [v1] at this
    exact this
  have hnod : db1.nodes ≠ [] := by
    have k := stored_covers (E := m1.sql) (cmd := RefCommand.new appCmd.old appCmd.new (appCmd.name ++ [0])) hacc.commits d1 v1 (by rfl)
    obtain ⟨n, _, _, _, _, _, h | ⟨_, h, _⟩⟩ := k.1 _ (.commit (metaOf polyExt (.commit, appCommit.encode)) appCommit ((hfind _ _).2 ⟨by simp [appObjects, appThin], rfl⟩) rfl appCommit_decode)
    · exact List.ne_nil_of_mem h
    · cases h
  refine ⟨s0, pack, rep, out, file, m1, m2, q, stop0, by rw [hs0]; exact hrefs, by rw [hs0]; exact hnod, by rw [hs0], ?_, r2, ?_, r4, q1, (q2 _ (.head _) rfl _ _ _).1 ?_⟩
  · rw [hs0, ← hpush, ← hst1]
    exact r1
  · rw [hs0, ← hpush, ← hst1]
    exact r3
  show Spec.CheckedOut (Spec.found polyExt appEntries) (metaOf polyExt (.commit, appCommit.encode)).id _ _ _
  have find : ∀ m ∈ appObjects, Spec.found polyExt appEntries m.id = some m := fun m hm => (app_found _ _).2 ⟨hm, rfl⟩
  refine ⟨metaOf polyExt (.commit, appCommit.encode), appCommit, rfl, find _ (by simp [appObjects, appThin]), rfl, appCommit_decode, ?_⟩
  refine .dir (metaOf polyExt (.tree, encodeTree appItems)) appItems (dirItem "src" (idOf polyExt (.tree, encodeTree srcA))) _ _ _
    (find _ (by simp [appObjects, appThin])) rfl appItems_decode (by simp [appItems]) rfl ?_
  exact .file (metaOf polyExt (.tree, encodeTree srcA)) appBlob srcA (fileItem "a" (polyId .blob (ascii "one"))) (find _ (by simp [appObjects, appThin])) rfl srcA_decode
    (by simp [srcA]) (by decide) rfl (find _ (by simp [appObjects])) rfl

end Gust

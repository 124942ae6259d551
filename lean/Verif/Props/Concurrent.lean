import Verif.Lemmas.ConcurrentRefs

/-! # C81 - C84: requests that overlap in time -/

namespace Gust

open Spec (nodeObj StoreReach commitsAt InRepo)

/-! ## The statements of one request, run without interruption, are the functions of `Model/Storage.lean` -/

/-- A task runs some of its statements, alone. -/
inductive Solo (X : Ext) (E : SqlExt) : Option (List Act) × Db → Option (List Act) × Db → Prop
  | refl (t : Option (List Act) × Db) : Solo X E t t
  | step (a : Act) (as : List Act) (db : Db) (t : Option (List Act) × Db) :
      Solo X E ((a.step X E db).1.map (· ++ as), (a.step X E db).2) t → Solo X E (some (a :: as), db) t

theorem Solo.trans {X : Ext} {E : SqlExt} {a b c : Option (List Act) × Db} (h : Solo X E a b) (h' : Solo X E b c) : Solo X E a c := by
  induction h with
  | refl => exact h'
  | step a as db t _ ih => exact .step a as db _ (ih h')

/-- One statement that leaves nothing behind. -/
theorem Solo.one {X : Ext} {E : SqlExt} {a : Act} {as : List Act} {db db' : Db} (h : a.step X E db = (some [], db')) : Solo X E (some (a :: as), db) (some as, db') := by
  refine .step a as db _ ?_
  rw [h]
  exact .refl _

theorem Solo.dead {X : Ext} {E : SqlExt} {a : Act} {as : List Act} {db db' : Db} (h : a.step X E db = (none, db')) : Solo X E (some (a :: as), db) (none, db') := by
  refine .step a as db _ ?_
  rw [h]
  exact .refl _

theorem solo_nodes (X : Ext) (E : SqlExt) (as : List Act) : ∀ (bs : List (List NodeRow)) (db : Db),
    Solo X E (some (bs.map Act.nodes ++ as), db) (match insertNodes E bs db with | (.ok (), db') => (some as, db') | (_, db') => (none, db'))
  | [], db => .refl _
  | b :: bs, db => by
    by_cases h : E.acceptNodes db.inserts b = true
    · have ih := solo_nodes X E as bs { db with nodes := db.nodes ++ b, inserts := db.inserts + 1 }
      rw [insertNodes, if_pos h]
      exact (Solo.one (by rw [Act.step, if_pos h])).trans ih
    · rw [insertNodes, if_neg h]
      exact Solo.dead (by rw [Act.step, if_neg h])

theorem solo_commits (X : Ext) (E : SqlExt) (as : List Act) : ∀ (bs : List (List CommitRow)) (db : Db),
    Solo X E (some (bs.map Act.commits ++ as), db) (some as, insertCommits E bs db)
  | [], db => .refl _
  | b :: bs, db => (Solo.one rfl).trans (solo_commits X E as bs _)

/-- The outcome of a handler as the state of its task. -/
def outcome (r : Res Unit × Db) : Option (List Act) × Db :=
  match r with
  | (.ok (), db) => (some [], db)
  | (_, db) => (none, db)

theorem solo_refs (X : Ext) (E : SqlExt) (cmd : RefCommand) (path : Bytes) (db : Db) :
    Solo X E (some (refActs cmd path), db) (outcome (handleRefs E cmd path db)) := by
  unfold refActs handleRefs
  cases cmd.commandType with
  | create => exact Solo.one rfl
  | delete => exact Solo.dead rfl
  | update =>
    simp only [updateRefs]
    cases h : (E.order ((List.range db.refs.length).filter (fun i => (db.refs[i]?).any (updateMatches E cmd path)))).head? with
    | none => exact Solo.dead (by simp only [Act.step, h])
    | some i =>
      refine .step _ _ _ _ ?_
      simp only [Act.step, h, Option.map_some, List.append_nil]
      cases ha : E.acceptUpdate db.inserts cmd.newId with
      | true => exact Solo.one (by simp only [Act.step, ha, if_true])
      | false => exact Solo.dead (by simp [Act.step, ha])

/-- Up to the refs. -/
theorem solo_save (X : Ext) (E : SqlExt) (fuel : Nat) (p : Pack) (path : Bytes) (cmd : RefCommand) (db : Db) :
    Solo X E (some (pushActs E.pool fuel p path cmd), db)
      (match savePackfile E fuel p path db with | (.ok (), db') => (some (refActs cmd path), db') | (_, db') => (none, db')) := by
  unfold pushActs savePackfile
  cases hp : E.pool p.result with
  | ok D =>
    simp only
    cases hb : buildNodeTree fuel D with
    | ok rows =>
      simp only
      have h1 := solo_nodes X E ((chunks 100 D.commits.length (D.commits.map (fun c => c.row path))).map Act.commits ++ refActs cmd path) (nodeBatches 0 [] rows) db
      rw [List.append_assoc]
      unfold saveNodes
      revert h1
      rcases insertNodes E (nodeBatches 0 [] rows) db with ⟨r, db'⟩
      cases r with
      | ok u => exact fun h1 => h1.trans (solo_commits X E (refActs cmd path) _ db')
      | err e => exact fun h1 => h1
      | panic => exact fun h1 => h1
      | spin => exact fun h1 => h1
    | _ => exact Solo.dead rfl
  | _ => exact Solo.dead rfl

/-- A push that is not interrupted is `save_packfile` followed by `handle_refs`. -/
theorem solo_push (X : Ext) (E : SqlExt) (fuel : Nat) (p : Pack) (path : Bytes) (cmd : RefCommand) (db : Db) :
    Solo X E (some (pushActs E.pool fuel p path cmd), db)
      (match savePackfile E fuel p path db with | (.ok (), db') => outcome (handleRefs E cmd path db') | (_, db') => (none, db')) := by
  have h := solo_save X E fuel p path cmd db
  revert h
  rcases savePackfile E fuel p path db with ⟨r, db'⟩
  cases r with
  | ok u => exact fun h => h.trans (solo_refs X E cmd path db')
  | err e => exact fun h => h
  | panic => exact fun h => h
  | spin => exact fun h => h

/-- A request for HEAD that is not interrupted is `get_head_object_id`. -/
theorem solo_head (X : Ext) (E : SqlExt) (path : Bytes) (db : Db) :
    Solo X E (some [.headRefs path], db)
      (match getHeadObjectId X E db path with | (.ok _, db') => (some [], db') | (_, db') => (none, db')) := by
  unfold getHeadObjectId
  cases h1 : (searchRefs E db path).find? (fun r => path == r.repoPath) with
  | some r => exact Solo.one (by simp only [Act.step, h1])
  | none =>
    simp only
    cases h2 : (searchRefs E db path).find? (fun r => pathStartsWith path r.repoPath) with
    | none => exact Solo.one (by simp only [Act.step, h1, h2])
    | some r =>
      refine .step _ _ _ _ ?_
      simp only [Act.step, h1, h2, Option.map_some, List.append_nil]
      unfold generateChild
      cases h3 : (E.order (db.commits.filter (fun c => E.fold c.gitId == E.fold r.refGitId))).head? with
      | none => exact Solo.dead (by simp only [Act.step, h3])
      | some row =>
        refine .step _ _ _ _ ?_
        simp only [Act.step, h3, Option.map_some, List.append_nil]
        have found : ∀ (second : Bool) (root : NodeRow), (Act.headRoot row r path second).step X E db = (some (childActs X row r path root), db) →
            Solo X E (some [.headRoot row r path second], db) (match (match buildFromModel X row root with
              | .ok child => (Res.ok (Hash.toPlainStr child.base.id),
                  insertRefs E (chunks 100 1 [{ repoPath := path, refName := r.refName, refGitId := Hash.toPlainStr child.base.id }]) (saveCommits E [child] path db))
              | .spin => (.spin, db)
              | _ => (.panic, db)) with | (.ok _, db') => (some [], db') | (_, db') => (none, db')) := by
          intro second root hst
          refine .step _ _ _ _ ?_
          rw [hst]
          simp only [Option.map_some, List.append_nil]
          unfold childActs
          cases buildFromModel X row root with
          | ok child => exact (Solo.one rfl).trans (Solo.one rfl)
          | _ => exact Solo.dead rfl
        unfold searchRootNode
        cases h4 : fileName path with
        | none => exact Solo.dead (by simp only [Act.step, h4])
        | some name =>
          simp only [Res.unwrapOpt, Res.bind_ok, Res.pure_eq]
          cases h5 : (E.order (db.nodes.filter (fun n => E.fold n.name == E.fold name))).head? with
          | some root => exact found false root (by simp only [Act.step, h4, Bool.false_eq_true, if_false, h5])
          | none =>
            refine .step _ _ _ _ ?_
            simp only [Act.step, h4, Bool.false_eq_true, if_false, h5, Option.map_some, List.append_nil]
            cases h6 : (E.order (db.nodes.filter (fun n => E.fold n.name == E.fold []))).head? with
            | some root => exact found true root (by simp only [Act.step, h4, if_true, h6])
            | none => exact Solo.one (by simp only [Act.step, h4, if_true, h6])

/-- A task running alone is a run of the system. -/
theorem Solo.run {W : Pack → RefCommand → Prop} {X : Ext} {E : SqlExt} {Q : SqlExt → Prop} {R : Bytes → Prop} (hE : Q E) {a b : Option (List Act) × Db} (h : Solo X E a b) :
    ∀ (tasks : List (Option (List Act))) (log : List (Nat × Bytes × Pack)) (i : Nat), tasks[i]? = some a.1 →
      SysRun X Q R W ⟨a.2, tasks, log⟩ ⟨b.2, tasks.set i b.1, log⟩ := by
  induction h with
  | refl t =>
    intro tasks log i hi
    obtain ⟨hlt, hi⟩ := List.getElem?_eq_some_iff.1 hi
    have : tasks.set i t.1 = tasks := by rw [← hi, List.set_getElem_self]
    rw [this]
    exact .refl _
  | step a as db t _ ih =>
    intro tasks log i hi
    have hlt := (List.getElem?_eq_some_iff.1 hi).1
    have hstep := SysStep.act (X := X) (R := R) (W := W) ⟨db, tasks, log⟩ i a as E hi hE
    have := ih (tasks.set i ((a.step X E db).1.map (· ++ as))) log i (by rw [List.getElem?_set_self hlt])
    rw [List.set_set] at this
    exact SysRun.trans (.step _ _ _ (.refl _) hstep) this

theorem SysRun.weaken {X : Ext} {Q Q' : SqlExt → Prop} {R : Bytes → Prop} {W : Pack → RefCommand → Prop} (hQ : ∀ E, Q E → Q' E) {s t : Sys}
    (h : SysRun X Q R W s t) : SysRun X Q' R W s t := by
  induction h with
  | refl => exact .refl _
  | step t u _ hs ih =>
    refine .step _ _ _ ih ?_
    cases hs with
    | push St fuel0 file p E fuel q cmd hdec hq hw => exact .push t St fuel0 file p E fuel q cmd hdec hq hw
    | head q hq => exact .head t q hq
    | act i a as E hi hE => exact .act t i a as E hi (hQ E hE)

/-! A clone during which nothing is written is the function of `Model/Storage.lean`. -/

theorem childLoop_const {X : Ext} {recL : NodeRow → HashMeta → Nat → Res (HashMeta × Nat)} {rec : NodeRow → HashMeta → Res HashMeta}
    (hrec : ∀ c hm k, Prod.fst <$> recL c hm k = rec c hm) : ∀ (l : List NodeRow) (hm : HashMeta) (k : Nat),
    Prod.fst <$> childLoopL X recL l hm k = childLoop X rec l hm
  | [], _, _ => rfl
  | c :: cs, hm, k => by
    have h1 : Prod.fst <$> childOneL X recL c hm k = childOne X rec c hm := by
      unfold childOneL childOne
      split
      · exact hrec c hm k
      · cases MetaData.new X .blob c.data <;> rfl
    rw [childLoop, childLoopL, ← h1]
    cases childOneL X recL c hm k with
    | ok a => exact childLoop_const hrec cs a.1 a.2
    | _ => rfl

theorem getChildTrees_const (X : Ext) (E : SqlExt) (db : Db) : ∀ (fuel : Nat) (root : NodeRow) (hm : HashMeta) (k : Nat),
    Prod.fst <$> getChildTreesL X (fun _ => (E, db)) fuel root hm k = getChildTrees X E db fuel root hm
  | 0, _, _, _ => rfl
  | fuel + 1, root, hm, k => by
    rw [getChildTrees, getChildTreesL]
    cases MetaData.new X .tree root.data with
    | ok m =>
      rw [Res.bind_ok, Res.bind_ok]
      cases (decodeTree root.data).unwrap with
      | ok items =>
        rw [Res.bind_ok, Res.bind_ok, ← childLoop_const (getChildTrees_const X E db fuel) (childRows E db items hm) hm (k + 1)]
        cases childLoopL X (getChildTreesL X (fun _ => (E, db)) fuel) (childRows E db items hm) hm (k + 1) <;> rfl
      | _ => rfl
    | _ => rfl

theorem fullLoop_const (X : Ext) (E : SqlExt) (db : Db) (fuel : Nat) (trees : Hash → Option NodeRow) : ∀ (cs : List CommitObj) (hm : HashMeta) (k : Nat),
    Prod.fst <$> fullLoopL X (fun _ => (E, db)) fuel trees cs hm k = fullLoop X E db fuel trees cs hm
  | [], _, _ => rfl
  | c :: cs, hm, k => by
    rw [fullLoop, fullLoopL]
    cases trees c.commit.treeId with
    | none => rfl
    | some root =>
      simp only
      rw [← getChildTrees_const X E db fuel root _ k]
      cases getChildTreesL X (fun _ => (E, db)) fuel root (entryInsert hm (Hash.toPlainStr c.base.id) c.base) k with
      | ok a => exact fullLoop_const X E db fuel trees cs a.1 a.2
      | _ => rfl

theorem getFullPack_const (X : Ext) (E : SqlExt) (db : Db) (fuel : Nat) (path : Bytes) :
    getFullPackL X (fun _ => (E, db)) fuel path = getFullPack X E fuel db path := by
  have h : Prod.fst <$> fullObjectsL X (fun _ => (E, db)) fuel path = fullObjects X E fuel db path := by
    unfold fullObjectsL fullObjects
    cases loadCommits X (commitsByPath E db path) with
    | ok cs =>
      rw [Res.bind_ok, Res.bind_ok]
      cases nodesByIds E db (cs.map (fun c => Hash.toPlainStr c.commit.treeId)) with
      | ok trees => exact fullLoop_const X E db fuel trees cs [] 2
      | _ => rfl
    | _ => rfl
  rw [getFullPack, getFullPackL, ← h]
  cases fullObjectsL X (fun _ => (E, db)) fuel path <;> rfl

/-! ## C81 -/

/-- **C81 (partial)** A clone that overlaps with any number of pushes and discoveries, of this and other repositories, with any interleaving of their statements, succeeds
and contains exactly the repository at the moment of the clone's first query. `V k`: database behaviour and state at the `k`-th query; `last`: the state in
the end. `hR`: no request names a directory above the path (see C55). The other hypotheses are those of C49. (Missing from the full claim: as in C49, a path
without commits.) -/
theorem C81_snapshot_partial (X : Ext) (fold : Bytes → Bytes) (hfold : ∀ a b : Hash, fold (Hash.toPlainStr a) = fold (Hash.toPlainStr b) → a = b)
    (R : Bytes → Prop) (W : Pack → RefCommand → Prop) (path : Bytes) (hR : ∀ a q, R a → R q → fold q = fold path → pathStartsWith q a = true → a = q)
    (V : Nat → SqlExt × Sys) (last : Sys) (hV : ∀ k, (V k).1.fold = fold)
    (h0 : SysRun X (fun E => E.fold = fold) R W Sys.empty (V 0).2) (hnext : ∀ k, SysRun X (fun E => E.fold = fold) R W (V k).2 (V (k + 1)).2)
    (hlast : ∀ k, SysRun X (fun E => E.fold = fold) R W (V k).2 last)
    (hu : UniqueIds X last.db) (hfit : FitsPack X last.db) (fuel : Nat)
    (hdeep : ∀ r ∈ commitsAt fold (V 0).2.db.commits path, ∀ c, Commit.decode r.data = .ok c → Spec.NestedWithin last.db.nodes fuel c.treeId)
    (hne : commitsAt fold (V 0).2.db.commits path ≠ []) :
    ∃ file ms, getFullPackL X (fun k => ((V k).1, (V k).2.db)) fuel path = .ok file ∧ PackHas X file ms ∧
      ∀ m, m ∈ ms ↔ ∃ o, InRepo fold (V 0).2.db path o ∧ m = metaOf X o := by
  have hlo : ∀ k, SysRun X (fun E => E.fold = fold) R W (V 0).2 (V k).2 := by
    intro k
    induction k with
    | zero => exact .refl _
    | succ k ih => exact ih.trans (hnext k)
  have views : Views (V 0).1 (V 0).2.db last.db (fun k => ((V k).1, (V k).2.db)) :=
    ⟨fun k => sysRun_extends (hlo k), fun k => sysRun_extends (hlast k), fun k => by rw [hV 0]; exact hV k⟩
  have ext := sysRun_extends (hlast 0)
  have inv0 := sysRun_inv (fun E h => h) hR (sysInv_empty X fold R path) h0
  have invl := sysRun_inv (fun E h => h) hR inv0 (hlast 0)
  have si0 := (inv0.store (ext.unique hu)).1
  have sil := (invl.store hu).1
  have hS : StoreOk X (V 0).1 last.db := ⟨sil.type, sil.id, hu, by rw [hV 0]; exact hfold, sil.tree⟩
  have si0' : StoreInv X (V 0).1.fold path (V 0).2.db := by rw [hV 0]; exact si0
  obtain ⟨⟨hm, k⟩, h1⟩ := fullObjectsL_total (V := fun k => ((V k).1, (V k).2.db)) views hS si0' (fuel := fuel) (by rw [hV 0]; exact hdeep)
  obtain ⟨h2, h3⟩ := fullObjectsL_ok (V := fun k => ((V k).1, (V k).2.db)) views hS si0' h1
  rw [hV 0] at h3
  have hg : Good X last.db hm := good_of_entries h2 _ (fun o ho => ext.stored (inRepo_stored ho)) h3
  have hne' : hm ≠ [] := by
    obtain ⟨r, hr⟩ := List.exists_mem_of_ne_nil _ hne
    intro e
    have := (h3 _).2 ⟨_, .commit r hr, rfl⟩
    rw [e] at this
    cases this
  obtain ⟨file, f1, ms, f2, f3⟩ := packOf_has (E := (V k).1) hu hfit hg hne'
  refine ⟨file, ms, by rw [getFullPackL, h1, Res.bind_ok]; exact f1, f2, fun m => ?_⟩
  rw [f3]
  constructor
  · rintro ⟨p, hp, rfl⟩
    obtain ⟨o, ho, rfl⟩ := (h3 p).1 hp
    exact ⟨o, ho, rfl⟩
  · rintro ⟨o, ho, rfl⟩
    exact ⟨_, (h3 _).2 ⟨o, ho, rfl⟩, rfl⟩

/-! ## C82 -/

/-- **C82 (partial)** However the statements of any number of pushes and discoveries are interleaved, and wherever they were cut off: at every moment every
commit stored for the path can be read, with its tree and all that is reachable from it stored; every object of the repository was in a pack pushed to it; and if inserts of
commits do not fail, every push that has finished has all its commits and what they reach in its repository. `hR`: no request names a directory above the path (see C55).
(Missing from the full claim: a failed insert of commits goes unnoticed, see C26.) -/
theorem C82_overlapping_pushes_partial (X : Ext) (fold : Bytes → Bytes) (R : Bytes → Prop) (W : Pack → RefCommand → Prop) (path : Bytes)
    (hR : ∀ a q, R a → R q → fold q = fold path → pathStartsWith q a = true → a = q) (s : Sys)
    (h : SysRun X (fun E => E.fold = fold) R W Sys.empty s) (hu : UniqueIds X s.db) :
    (∀ r ∈ commitsAt fold s.db.commits path, ∃ c, Commit.decode r.data = .ok c ∧ r.gitId = Hash.toPlainStr (idOf X (.commit, r.data)) ∧
      (∃ n ∈ s.db.nodes, n.gitId = Hash.toPlainStr c.treeId ∧ n.nodeType = ascii "tree") ∧
      ∀ x, StoreReach s.db.nodes c.treeId x → ∃ n ∈ s.db.nodes, n.gitId = Hash.toPlainStr x ∧ idOf X (nodeObj n) = x) ∧
    (∀ o, InRepo fold s.db path o → ∃ e ∈ s.pushed, fold e.2.1 = fold path ∧ ∃ m, e.2.2.result.hashObject m.id = some m ∧ m = metaOf X o) ∧
    (SysRun X (fun E => ∀ n b, E.acceptCommits n b = true) R W Sys.empty s → ∀ e ∈ s.pushed, s.tasks[e.1]? = some (some []) →
      ∀ m, e.2.2.result.hashObject m.id = some m → m.t = .commit ∨ Spec.PackReach e.2.2.result.hashObject m.id → ∃ o, InRepo fold s.db e.2.1 o ∧ m = metaOf X o) := by
  have inv := sysRun_inv (fun E h => h) hR (sysInv_empty X fold R path) h
  obtain ⟨si, hs⟩ := inv.store hu
  refine ⟨fun r hr => ?_, hs, fun hrun e he hfin m hm hr => ?_⟩
  · obtain ⟨c, h1, h2, h3⟩ := si.commits r hr
    obtain ⟨_, _, _, _, o, _, _, h4, h5, _⟩ := inv.commits r hr
    refine ⟨c, h1, by rw [h5, h4]; rfl, h2, fun x hx => ?_⟩
    obtain ⟨n, hn, e⟩ := h3 x hx
    refine ⟨n, hn, e, ?_⟩
    rw [si.id n hn] at e
    exact Hash.toPlainStr_injective e
  · rcases pushTask_run (fun E hE => hE) hrun e he with h0 | ⟨as, h0, hc⟩
    · rw [hfin] at h0; cases h0
    · rw [hfin] at h0
      cases h0
      rcases hc with hc | hc
      · cases hc
      · exact finished_inRepo hc hm hr

/-! ## C83 -/

/-- With a database that accepts the rows, whether a pack can be stored does not depend on what is stored already. -/
theorem savePackfile_any {E : SqlExt} (hacc : ∀ n b, E.acceptNodes n b = true) {fuel : Nat} {p : Pack} {path : Bytes} {db db1 : Db}
    (h : savePackfile E fuel p path db = (.ok (), db1)) (db' : Db) : ∃ db1', savePackfile E fuel p path db' = (.ok (), db1') ∧ db1'.refs = db'.refs := by
  obtain ⟨D, rows, db0, p1, p2, p3, rfl⟩ := savePackfile_ok h
  have all : ∀ (bs : List (List NodeRow)) (db : Db), (insertNodes E bs db).1 = .ok () ∧ (insertNodes E bs db).2.refs = db.refs := by
    intro bs
    induction bs with
    | nil => exact fun db => ⟨rfl, rfl⟩
    | cons b bs ih =>
      intro db
      rw [insertNodes, if_pos (hacc _ _)]
      exact ih _
  obtain ⟨a1, a2⟩ := all (nodeBatches 0 [] rows) db'
  refine ⟨saveCommits E D.commits path (insertNodes E (nodeBatches 0 [] rows) db').2, ?_, by rw [(saveCommits_eq E D.commits path _).2.1, a2]⟩
  rw [savePackfile, p1]
  simp only
  rw [p2]
  simp only
  rw [saveNodes]
  revert a1
  rcases insertNodes E (nodeBatches 0 [] rows) db' with ⟨r, d⟩
  intro a1
  simp only at a1
  rw [a1]

/-- **C83 is false** when pushes overlap, in every state: two pushes that update a branch from the same commit can both finish, and the first update is lost. -/
theorem C83_race_false {X : Ext} {Q : SqlExt → Prop} {R : Bytes → Prop} {W : Pack → RefCommand → Prop} (s : Sys) (E : SqlExt) (hQ : Q E)
    (hacc : ∀ n b, E.acceptNodes n b = true) (hup : ∀ n id, E.acceptUpdate n id = true) (path : Bytes) (hpath : R path) (fuel : Nat) (c1 c2 : RefCommand)
    (ht1 : c1.commandType = .update) (ht2 : c2.commandType = .update) (hold : c1.oldId = c2.oldId)
    (hrow : ∃ r ∈ s.db.refs, E.fold r.refGitId = E.fold c1.oldId ∧ E.fold r.repoPath = E.fold path)
    {St1 St2 : ObjectSource} {f1 f2 : Nat} {file1 file2 : Bytes} {p1 p2 : Pack} (hd1 : decodePack X St1 f1 file1 = .ok p1) (hd2 : decodePack X St2 f2 file2 = .ok p2)
    (hw1 : W p1 c1) (hw2 : W p2 c2) {db1 db2 : Db} (hs1 : savePackfile E fuel p1 path s.db = (.ok (), db1)) (hs2 : savePackfile E fuel p2 path s.db = (.ok (), db2)) :
    ∃ t i r, SysRun X Q R W s t ∧ t.pushed = (s.tasks.length + 1, path, p2) :: (s.tasks.length, path, p1) :: s.pushed ∧
      t.tasks[s.tasks.length]? = some (some []) ∧ t.tasks[s.tasks.length + 1]? = some (some []) ∧
      s.db.refs[i]? = some r ∧ E.fold r.refGitId = E.fold c1.oldId ∧ E.fold r.repoPath = E.fold path ∧
      t.db.refs = s.db.refs.set i { r with refGitId := c2.newId } := by
  -- the row both find
  have hmatch : (fun i : Nat => (s.db.refs[i]?).any (updateMatches E c1 path)) = fun i : Nat => (s.db.refs[i]?).any (updateMatches E c2 path) := by
    funext i
    congr 1
    funext r
    rw [updateMatches, updateMatches, hold]
  obtain ⟨i, hi⟩ : ∃ i, (E.order ((List.range s.db.refs.length).filter (fun i => (s.db.refs[i]?).any (updateMatches E c1 path)))).head? = some i := by
    obtain ⟨r, hr, e1, e2⟩ := hrow
    obtain ⟨j, hj⟩ := List.mem_iff_getElem?.1 hr
    have hlt := (List.getElem?_eq_some_iff.1 hj).1
    have hm : j ∈ E.order ((List.range s.db.refs.length).filter (fun i => (s.db.refs[i]?).any (updateMatches E c1 path))) :=
      (E.order_perm _).mem_iff.2 (List.mem_filter.2 ⟨List.mem_range.2 hlt, by
        rw [hj, Option.any_some, updateMatches, e1, e2, beq_self_eq_true, beq_self_eq_true]
        rfl⟩)
    cases h : E.order ((List.range s.db.refs.length).filter (fun i => (s.db.refs[i]?).any (updateMatches E c1 path))) with
    | nil => rw [h] at hm; cases hm
    | cons a l => exact ⟨a, rfl⟩
  obtain ⟨hm, hx⟩ := List.mem_filter.1 ((E.order_perm _).mem_iff.1 (List.mem_of_head? hi))
  have hlt := List.mem_range.1 hm
  rw [List.getElem?_eq_getElem hlt, Option.any_some, updateMatches, Bool.and_eq_true] at hx
  -- the run
  obtain ⟨_, hs1', hr1⟩ := savePackfile_any hacc hs1 s.db
  rw [hs1] at hs1'
  obtain rfl : db1 = _ := (Prod.mk.inj hs1').2
  obtain ⟨db2', hs2', hr2⟩ := savePackfile_any hacc hs2 db1
  rw [hr1] at hr2
  set n := s.tasks.length with hn
  set a1 := pushActs E.pool fuel p1 path c1
  set a2 := pushActs E.pool fuel p2 path c2
  set log := (n + 1, path, p2) :: (n, path, p1) :: s.pushed with hlog
  have arrive : SysRun X Q R W s ⟨s.db, s.tasks ++ [some a1] ++ [some a2], log⟩ := by
    refine .step _ _ _ (.step _ _ _ (.refl _) (.push s St1 f1 file1 p1 E fuel path c1 hd1 hpath hw1)) ?_
    have := SysStep.push (X := X) (Q := Q) (R := R) (W := W) ⟨s.db, s.tasks ++ [some a1], (n, path, p1) :: s.pushed⟩ St2 f2 file2 p2 E fuel path c2 hd2 hpath hw2
    simpa [hlog, hn] using this
  have get1 : ∀ (x : Option (List Act)), (s.tasks ++ [x] ++ [some a2])[n]? = some x := by
    intro x
    rw [List.append_assoc, hn, List.getElem?_append_right (by omega)]
    simp
  have get2 : ∀ (x y : Option (List Act)), (s.tasks ++ [x] ++ [y])[n + 1]? = some y := by
    intro x y
    rw [List.getElem?_append_right (by simp [hn])]
    simp [hn]
  have set1 : ∀ (x y z : Option (List Act)), (s.tasks ++ [x] ++ [y]).set n z = s.tasks ++ [z] ++ [y] := by
    intro x y z
    rw [List.append_assoc, List.append_assoc, hn, List.set_append_right _ _ (by omega)]
    simp
  have set2 : ∀ (x y z : Option (List Act)), (s.tasks ++ [x] ++ [y]).set (n + 1) z = s.tasks ++ [x] ++ [z] := by
    intro x y z
    rw [List.set_append_right _ _ (by simp [hn])]
    simp [hn]
  have find1 : Solo X E (some [.findRef c1 path], db1) (some [.setRef i c1.newId], db1) := by
    refine .step _ _ _ _ ?_
    rw [Act.step, hr1, hi]
    exact .refl _
  have find2 : Solo X E (some [.findRef c2 path], db2') (some [.setRef i c2.newId], db2') := by
    refine .step _ _ _ _ ?_
    rw [Act.step, hr2, ← hmatch, hi]
    exact .refl _
  have g1 := (solo_save X E fuel p1 path c1 s.db)
  rw [hs1] at g1
  simp only [refActs, ht1] at g1
  have g2 := (solo_save X E fuel p2 path c2 db1)
  rw [hs2'] at g2
  simp only [refActs, ht2] at g2
  have run1 := (g1.trans find1).run (R := R) (W := W) hQ (s.tasks ++ [some a1] ++ [some a2]) log n (get1 _)
  rw [set1] at run1
  have run2 := (g2.trans find2).run (R := R) (W := W) hQ (s.tasks ++ [some [.setRef i c1.newId]] ++ [some a2]) log (n + 1) (get2 _ _)
  rw [set2] at run2
  have run3 := (Solo.one (X := X) (E := E) (a := .setRef i c1.newId) (as := []) (db := db2') (by rw [Act.step, if_pos (hup _ _)])).run (R := R) (W := W) hQ
    (s.tasks ++ [some [.setRef i c1.newId]] ++ [some [.setRef i c2.newId]]) log n (by
      rw [List.append_assoc, hn, List.getElem?_append_right (by omega)]
      simp)
  rw [set1] at run3
  have run4 := (Solo.one (X := X) (E := E) (a := .setRef i c2.newId) (as := []) (db := { db2' with refs := db2'.refs.modify i (fun r => { r with refGitId := c1.newId }) })
    (by rw [Act.step, if_pos (hup _ _)])).run
    (R := R) (W := W) hQ (s.tasks ++ [some []] ++ [some [.setRef i c2.newId]]) log (n + 1) (get2 _ _)
  rw [set2] at run4
  refine ⟨_, i, s.db.refs[i], arrive.trans (run1.trans (run2.trans (run3.trans run4))), rfl, ?_, get2 _ _, List.getElem?_eq_getElem hlt, eq_of_beq hx.1, eq_of_beq hx.2, ?_⟩
  · show (s.tasks ++ [some []] ++ [some []])[n]? = some (some [])
    rw [List.append_assoc, hn, List.getElem?_append_right (by omega)]
    simp
  · show (db2'.refs.modify i (fun r => { r with refGitId := c1.newId })).modify i (fun r => { r with refGitId := c2.newId }) = _
    rw [hr2]
    apply List.ext_getElem?
    intro j
    rw [List.getElem?_modify, List.getElem?_modify, List.getElem?_set]
    by_cases hij : i = j
    · subst hij
      rw [List.getElem?_eq_getElem hlt]
      simp [hlt]
    · simp [hij]

/-- Positions of matching rows, and matching rows: as many. -/
theorem range_filter_length {α : Type} (l : List α) (f : α → Bool) : ((List.range l.length).filter (fun k => (l[k]?).any f)).length = (l.filter f).length := by
  induction l using List.reverseRecOn with
  | nil => rfl
  | append_singleton l a ih =>
    rw [List.length_append, List.length_singleton, List.range_succ, List.filter_append, List.filter_append, List.length_append, List.length_append, ← ih]
    congr 1
    · congr 1
      refine List.filter_congr fun k hk => ?_
      rw [List.getElem?_append_left (List.mem_range.1 hk)]
    · cases h : f a <;> simp [h]

/-- **C83 (partial)** When the second update begins after the first has finished, and no other ref of the path had the old id, the second fails. (Missing from the full claim: updates
that overlap, see `C83_race_false`.) -/
theorem C83_second_update_partial (E E' : SqlExt) (hf : E'.fold = E.fold) (c1 c2 : RefCommand) (ht1 : c1.commandType = .update) (ht2 : c2.commandType = .update)
    (hold : c2.oldId = c1.oldId) (hnew : E.fold c1.newId ≠ E.fold c1.oldId) (path : Bytes) (db db1 db2 : Db)
    (hone : ((Spec.refsAt E.fold db.refs path).filter (fun r => E.fold r.refGitId == E.fold c1.oldId)).length ≤ 1)
    (h1 : handleRefs E c1 path db = (.ok (), db1)) (h2 : db2.refs = db1.refs) : handleRefs E' c2 path db2 = (.panic, db2) := by
  have hfilter : ∀ (l : List RefRow), ((Spec.refsAt E.fold l path).filter (fun r => E.fold r.refGitId == E.fold c1.oldId)) = l.filter (updateMatches E c1 path) := by
    intro l
    rw [Spec.refsAt, List.filter_filter]
    rfl
  rw [hfilter] at hone
  rw [handleRefs, ht1] at h1
  simp only [updateRefs] at h1
  split at h1
  · rename_i i hi
    split at h1
    swap
    · cases (Prod.mk.inj h1).1
    obtain rfl : _ = db1 := (Prod.mk.inj h1).2
    obtain ⟨hm, hx⟩ := List.mem_filter.1 ((E.order_perm _).mem_iff.1 (List.mem_of_head? hi))
    have hlt := List.mem_range.1 hm
    rw [List.getElem?_eq_getElem hlt, Option.any_some] at hx
    have none_left : ∀ (j : Nat) (r : RefRow), (db.refs.modify i (fun r => { r with refGitId := c1.newId }))[j]? = some r → updateMatches E c1 path r = false := by
      intro j r hj
      rw [List.getElem?_modify] at hj
      obtain ⟨r0, h0, e⟩ := Option.map_eq_some_iff.1 hj
      by_cases hij : i = j
      · rw [if_pos hij] at e
        rw [← e, updateMatches, Bool.and_eq_false_iff]
        left
        simpa using hnew
      · rw [if_neg hij] at e
        obtain rfl : r0 = r := e
        by_contra hne
        have hne : updateMatches E c1 path r0 = true := by simpa using hne
        have hjl := (List.getElem?_eq_some_iff.1 h0).1
        have h0 := (List.getElem?_eq_some_iff.1 h0).2
        -- two matching positions
        have hsub : [i, j].map (fun k => k) ⊆ (List.range db.refs.length).filter (fun k => (db.refs[k]?).any (updateMatches E c1 path)) := by
          intro k hk
          simp only [List.map_cons, List.map_nil, List.mem_cons, List.not_mem_nil, or_false] at hk
          rcases hk with rfl | rfl
          · exact List.mem_filter.2 ⟨hm, by rw [List.getElem?_eq_getElem hlt]; exact hx⟩
          · exact List.mem_filter.2 ⟨List.mem_range.2 hjl, by rw [List.getElem?_eq_getElem hjl, h0]; exact hne⟩
        have hlen : ((List.range db.refs.length).filter (fun k => (db.refs[k]?).any (updateMatches E c1 path))).length = (db.refs.filter (updateMatches E c1 path)).length :=
          range_filter_length db.refs (updateMatches E c1 path)
        have h2 : 2 ≤ ((List.range db.refs.length).filter (fun k => (db.refs[k]?).any (updateMatches E c1 path))).length :=
          List.Subperm.length_le (List.subperm_of_subset (by simp [hij]) hsub)
        omega
    rw [handleRefs, ht2]
    simp only [updateRefs]
    rw [h2]
    have hempty : (List.range (db.refs.modify i (fun r => { r with refGitId := c1.newId })).length).filter
        (fun k => ((db.refs.modify i (fun r => { r with refGitId := c1.newId }))[k]?).any (updateMatches E' c2 path)) = [] := by
      rw [List.filter_eq_nil_iff]
      intro k _ hk
      cases hg : (db.refs.modify i (fun r => { r with refGitId := c1.newId }))[k]? with
      | none => rw [hg] at hk; simp at hk
      | some r =>
        rw [hg, Option.any_some] at hk
        have := none_left k r hg
        rw [updateMatches, hf, hold] at hk
        rw [updateMatches, hk] at this
        cases this
    rw [hempty, (E'.order_perm _).eq_nil]
    rfl
  · cases h1

/-! ## C84 -/

/-- **C84 (partial)** However requests overlap: if every push names a commit of its own pack and inserts of commits do not fail, then at every moment every stored ref names
a commit stored for the path of the ref; and if no request names a directory above that path, this commit can be read, has the id the ref says, and all that
is reachable from it is stored. (Missing from the full claim: failing inserts, see `C84_lost_commits_false`.) -/
theorem C84_refs_partial (X : Ext) (fold : Bytes → Bytes) (R : Bytes → Prop) (s : Sys)
    (h : SysRun X (fun E => E.fold = fold ∧ ∀ n b, E.acceptCommits n b = true) R OwnCommit Sys.empty s) (r : RefRow) (hr : r ∈ s.db.refs) :
    ∃ c ∈ commitsAt fold s.db.commits r.repoPath, c.gitId = r.refGitId ∧
      ((∀ a q, R a → R q → fold q = fold r.repoPath → pathStartsWith q a = true → a = q) → UniqueIds X s.db →
        Hash.toPlainStr (idOf X (.commit, c.data)) = r.refGitId ∧ ∃ d, Commit.decode c.data = .ok d ∧
          (∃ n ∈ s.db.nodes, n.gitId = Hash.toPlainStr d.treeId ∧ n.nodeType = ascii "tree") ∧
          ∀ x, StoreReach s.db.nodes d.treeId x → ∃ n ∈ s.db.nodes, n.gitId = Hash.toPlainStr x) := by
  obtain ⟨c, hc, e1, e2⟩ := (refInv_run (fun E h => h) (refInv_empty fold) h).refs r hr
  have hmem := commitsAt_mem.2 ⟨hc, e1⟩
  refine ⟨c, hmem, e2, fun hR hu => ?_⟩
  have inv := sysRun_inv (fun E h => h.1) hR (sysInv_empty X fold R r.repoPath) h
  obtain ⟨_, _, _, _, o, _, _, h4, h5, _⟩ := inv.commits c hmem
  refine ⟨by rw [← e2, h5, h4]; rfl, (inv.store hu).1.commits c hmem⟩

end Gust

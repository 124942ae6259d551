import Verif.Props.Checkout
import Verif.Props.Nesting
import Verif.Props.Acks
import Verif.Props.RefsShown
import Verif.Lemmas.NodeNames

/-! # C110: the clone of a sub-directory -/

namespace Gust

open Spec (nodeObj StoreReach commitsAt InRepo)

/-! ## Spec -/

/-- From the directory `h`, these names lead down to the directory `x`; `find` are the objects one has. -/
inductive Spec.DirAt (find : Hash → Option MetaData) : Hash → List Bytes → Hash → Prop
  | here (t : MetaData) : find t.id = some t → t.t = .tree → DirAt find t.id [] t.id
  | down (t : MetaData) (items : List TreeItem) (i : TreeItem) (path : List Bytes) (x : Hash) : find t.id = some t → t.t = .tree →
      decodeTree t.data = .ok items → i ∈ items → i.mode = ascii "40000" → DirAt find i.id path x → DirAt find t.id (i.filename :: path) x

/-- In all that was ever pushed, to whatever path, the entries of directories with this name (as the database compares names) are those with this id, and no
commit has this id as its root directory. -/
def Spec.OnlyCalled (P : ServerExt) (h : List (Moment × HttpReq)) (name : Bytes) (d : Hash) : Prop :=
  ∀ a p, Spec.PushedPack P a h p →
    (∀ o items i, p.result.hashObject o.id = some o → o.t = .tree → decodeTree o.data = .ok items → i ∈ items → (P.D.fold i.filename = P.D.fold name ↔ i.id = d)) ∧
    ∀ o c, p.result.hashObject o.id = some o → o.t = .commit → Commit.decode o.data = .ok c → c.treeId ≠ d

/-! ## Files below a directory -/

theorem DirAt.file {find : Hash → Option MetaData} {h x : Hash} {ps : List Bytes} (hd : Spec.DirAt find h ps x) {path : List Bytes} {mode data : Bytes}
    (hf : Spec.FileAt find x path mode data) : Spec.FileAt find h (ps ++ path) mode data := by
  induction hd with
  | here t _ _ => exact hf
  | down t items i path' x h1 h2 h3 h4 h5 _ ih => exact .dir t items i _ mode data h1 h2 h3 h4 h5 (ih hf)

theorem FileAt.split {find : Hash → Option MetaData} : ∀ (ps : List Bytes) {h : Hash} {c : Bytes} {path : List Bytes} {mode data : Bytes},
    Spec.FileAt find h (ps ++ c :: path) mode data → ∃ x, Spec.DirAt find h ps x ∧ Spec.FileAt find x (c :: path) mode data
  | [], h, c, path, mode, data, hf => by
    refine ⟨h, ?_, hf⟩
    cases hf with
    | file t b items i h1 h2 => exact .here t h1 h2
    | dir t items i path mode data h1 h2 => exact .here t h1 h2
  | p :: ps, h, c, path, mode, data, hf => by
    generalize hl : p :: ps ++ c :: path = l at hf
    cases hf with
    | file t b items i h1 h2 => simp at hl
    | dir t items i path' mode data h1 h2 h3 h4 h5 h6 =>
      simp only [List.cons_append, List.cons.injEq] at hl
      obtain ⟨rfl, rfl⟩ := hl
      obtain ⟨x, k1, k2⟩ := FileAt.split ps h6
      exact ⟨x, .down t items i ps x h1 h2 h3 h4 h5 k1, k2⟩

theorem FileAt.below {find find' : Hash → Option MetaData} {d : Hash} (hs : ∀ o, Spec.PackBelow find d o.id → find o.id = some o → find' o.id = some o)
    {h : Hash} {path : List Bytes} {mode data : Bytes} (hf : Spec.FileAt find h path mode data) (hr : Spec.PackBelow find d h) :
    Spec.FileAt find' h path mode data := by
  induction hf with
  | file t b items i ht h1 h2 h3 h4 e h5 h6 => exact .file t b items i (hs t hr ht) h1 h2 h3 h4 e (hs b (by rw [← e]; exact .item t items i hr ht h1 h2 h3) h5) h6
  | dir t items i path mode data ht h1 h2 h3 h4 _ ih => exact .dir t items i path mode data (hs t hr ht) h1 h2 h3 h4 (ih (.item t items i hr ht h1 h2 h3))

theorem FileAt.below_same {find find' : Hash → Option MetaData} {d : Hash} (hs : ∀ o, Spec.PackBelow find d o.id → find o.id = some o → find' o.id = some o)
    (hall : ∀ h, Spec.PackBelow find d h → ∃ o, find o.id = some o ∧ o.id = h) {h : Hash} (hr : Spec.PackBelow find d h)
    (path : List Bytes) (mode data : Bytes) : Spec.FileAt find h path mode data ↔ Spec.FileAt find' h path mode data := by
  refine ⟨fun hf => FileAt.below hs hf hr, fun hf => ?_⟩
  have back : ∀ o, Spec.PackBelow find d o.id → find' o.id = some o → find o.id = some o := by
    intro o hr ho
    obtain ⟨x, hx, e⟩ := hall _ hr
    have := hs x (by rw [e]; exact hr) hx
    rw [e, ho] at this
    cases this
    exact hx
  induction hf with
  | file t b items i ht h1 h2 h3 h4 e h5 h6 =>
    have ht' := back t hr ht
    exact .file t b items i ht' h1 h2 h3 h4 e (back b (by rw [← e]; exact .item t items i hr ht' h1 h2 h3) h5) h6
  | dir t items i path mode data ht h1 h2 h3 h4 _ ih =>
    have ht' := back t hr ht
    exact .dir t items i path mode data ht' h1 h2 h3 h4 (ih (.item t items i hr ht' h1 h2 h3))

/-! ## Names of the stored rows -/

/-- A row named after an entry of a directory in a pack, or a root without name. -/
def NamedIn (p : Pack) (r : NodeRow) : Prop :=
  (r.name = [] ∧ ∃ o c, p.result.hashObject o.id = some o ∧ o.t = .commit ∧ Commit.decode o.data = .ok c ∧ r.gitId = Hash.toPlainStr c.treeId) ∨
    ∃ o items i, p.result.hashObject o.id = some o ∧ o.t = .tree ∧ decodeTree o.data = .ok items ∧ i ∈ items ∧ r.name = i.filename ∧ r.gitId = Hash.toPlainStr i.id

theorem push_named {X : Ext} {St : ObjectSource} {file : Bytes} {fuel0 : Nat} {p : Pack} (hdec : decodePack X St fuel0 file = .ok p)
    (E : SqlExt) (fuel : Nat) (path : Bytes) (db : Db) : ∀ n ∈ (savePackfile E fuel p path db).2.nodes, n ∈ db.nodes ∨ NamedIn p n := by
  unfold savePackfile
  cases hp : E.pool p.result with
  | ok D =>
    have hH : D.Holds p.result := C36_each_object_once hdec (by have := E.pool_outcome p.result; rwa [hp] at this)
    simp only
    cases hb : buildNodeTree fuel D with
    | ok rows =>
      simp only
      obtain ⟨bs, b1, _, _, k, b4, _, _, _⟩ := C51_batches_partial E rows db
      have key : ∀ n ∈ (saveNodes E rows db).2.nodes, n ∈ db.nodes ∨ NamedIn p n := by
        intro n hn
        rw [b4] at hn
        rcases List.mem_append.1 hn with hn | hn
        · exact .inl hn
        · obtain ⟨l, hl, hn⟩ := List.mem_flatten.1 hn
          right
          rcases buildCommits_names (repo_faithful hH) D.commits [] rows hb n (by rw [← b1]; exact List.mem_flatten.2 ⟨l, List.mem_of_mem_take hl, hn⟩) with
            ⟨h1, _, co, hm, e⟩ | ⟨h, t, i, ht, hi, e1, _, e3⟩
          · obtain ⟨q1, q2⟩ := (hH.commits co.base).1 (List.mem_map_of_mem hm)
            exact .inl ⟨h1, co.base, co.commit, q2, q1, hH.commitFields co hm, e⟩
          · obtain ⟨hm, _⟩ := (repo_tree hH h t).1 ht
            obtain ⟨q1, q2⟩ := (hH.trees t.base).1 (List.mem_map_of_mem hm)
            exact .inr ⟨t.base, t.items, i, q2, q1, hH.treeItems t hm, hi, e1, e3⟩
      rcases hs : saveNodes E rows db with ⟨r, db1⟩
      rw [hs] at key
      cases r with
      | ok u =>
        intro n hn
        obtain ⟨c1, _, _⟩ := saveCommits_eq E D.commits path db1
        exact key n (by rw [← c1]; exact hn)
      | err e => exact key
      | spin => exact key
      | panic => exact key
    | _ => exact fun r hr => .inl hr
  | _ => exact fun r hr => .inl hr

/-- Every row got its name in a pushed pack. -/
theorem rows_named (P : ServerExt) : ∀ (n : Nat) (h : List (Moment × HttpReq)), h.length = n → ∀ r ∈ (runServer P .empty h).db.nodes, ∃ a p, Spec.PushedPack P a h p ∧ NamedIn p r
  | 0, h, hn => by
    have : h = [] := List.length_eq_zero_iff.1 hn
    subst this
    intro r hr
    cases hr
  | n + 1, h, hn => by
    have hne : h ≠ [] := by rintro rfl; cases hn
    obtain ⟨h', ⟨m, q⟩, rfl⟩ : ∃ h' q, h = h' ++ [q] := ⟨h.dropLast, h.getLast hne, (List.dropLast_append_getLast hne).symm⟩
    have ih := rows_named P n h' (by simpa using hn)
    have old : ∀ r ∈ (runServer P .empty h').db.nodes, ∃ a p, Spec.PushedPack P a (h' ++ [(m, q)]) p ∧ NamedIn p r := by
      intro r hr
      obtain ⟨a, p, h1, rest⟩ := ih r hr
      exact ⟨a, p, h1.more _, rest⟩
    rw [runServer_concat, serve_db]
    cases h : route q.method q.path q.service <;> simp only <;> (try exact old)
    · rename_i repo t
      rw [(getHead_only P.X m.sql repo (runServer P .empty h').db).1]
      exact old
    · rename_i repo
      have key : ∀ file p, file = Spec.packPart q.body → decodePack P.X (getHashObject P.X m.sql (runServer P .empty h').db) m.fuel file = .ok p →
          ∀ r ∈ (savePackfile m.sql m.fuel p repo (runServer P .empty h').db).2.nodes, ∃ a p, Spec.PushedPack P a (h' ++ [(m, q)]) p ∧ NamedIn p r := by
        intro file p hfile hd r hr
        rcases push_named hd m.sql m.fuel repo (runServer P .empty h').db r hr with g | g
        · exact old r g
        · exact ⟨repo, p, ⟨h', m, q, [], repo, file, rfl, h, rfl, hfile, hd⟩, g⟩
      rcases httpReceiveDb_from P.X m.sql m.fuel repo q.body (runServer P .empty h').db with e | ⟨file, p, hfile, hd, e | ⟨cmd, e⟩⟩ <;> rw [e]
      · exact old
      · exact key file p hfile hd
      · rw [(handleRefs_only m.sql cmd repo (savePackfile m.sql m.fuel p repo (runServer P .empty h').db).2).1]
        exact key file p hfile hd

/-! ## Commits of paths nobody asks for -/

theorem serve_commits_other {P : ServerExt} {m : Moment} {s : ServerState} {r : HttpReq} {path : Bytes} (hne : ∀ a, r.repo = some a → P.D.fold a ≠ P.D.fold path) :
    ∀ c ∈ commitsAt P.D.fold (serve P m s r).2.db.commits path, c ∈ s.db.commits := by
  intro c hc
  obtain ⟨h1, h2⟩ := commitsAt_mem.1 hc
  rw [serve_db] at h1
  unfold HttpReq.repo at hne
  cases h : route r.method r.path r.service <;> rw [h] at hne h1 <;> simp only at h1 <;> (try exact h1)
  · rename_i repo t
    rcases (getHead_only P.X m.sql repo s.db).2.2 c h1 with h | h
    · exact h
    · rw [h] at h2
      exact absurd h2 (hne repo rfl)
  · rename_i repo
    have key : ∀ file p, decodePack P.X (getHashObject P.X m.sql s.db) m.fuel file = .ok p → c ∈ (savePackfile m.sql m.fuel p repo s.db).2.commits → c ∈ s.db.commits := by
      intro file p hd hm
      obtain ⟨_, _, _, _, h4⟩ := push_effect hd m.sql m.fuel repo s.db
      rcases h4 c hm with h | ⟨h, _⟩
      · exact h
      · rw [h] at h2
        exact absurd h2 (hne repo rfl)
    rcases httpReceiveDb_cases P.X m.sql m.fuel repo r.body s.db with e | ⟨file, p, hd, e | ⟨cmd, e⟩⟩ <;> rw [e] at h1
    · exact h1
    · exact key file p hd h1
    · rw [(handleRefs_only m.sql cmd repo (savePackfile m.sql m.fuel p repo s.db).2).2] at h1
      exact key file p hd h1

theorem run_commits_other {P : ServerExt} {path : Bytes} : ∀ (h : List (Moment × HttpReq)) (s : ServerState),
    (∀ p ∈ h, ∀ a, p.2.repo = some a → P.D.fold a ≠ P.D.fold path) → ∀ c ∈ commitsAt P.D.fold (runServer P s h).db.commits path, c ∈ s.db.commits
  | [], _, _, c, hc => (commitsAt_mem.1 hc).1
  | (m, r) :: h, s, hne, c, hc => by
    have h1 := run_commits_other h (serve P m s r).2 (fun p hp => hne p (.tail _ hp)) c hc
    exact serve_commits_other (hne _ (.head _)) c (commitsAt_mem.2 ⟨h1, (commitsAt_mem.1 hc).2⟩)

/-! ## HEAD of a sub-directory -/

theorem getHead_sub {X : Ext} {E : SqlExt} {db : Db} {base below : List Bytes} {name u sub : Bytes} (hu : u = Spec.pathText true base)
    (hsub : sub = Spec.pathText true (base ++ below ++ [name])) (hok : ∀ d ∈ base ++ below ++ [name], Spec.NameOk d) (hdd : name ≠ [0x2e, 0x2e])
    (hb : (0x5c : UInt8) ∉ u) (hm : Spec.HasMaster E.fold db u)
    (huniq : ∀ r ∈ db.refs, Spec.isMaster E.fold r → pathStartsWith sub r.repoPath = true → r.repoPath = u)
    {H : Hash} (hid : ∀ r ∈ db.refs, r.repoPath = u → Spec.isMaster E.fold r → r.refGitId = Hash.toPlainStr H)
    {c : Commit} (hc : ∃ r ∈ db.commits, E.fold r.gitId = E.fold (Hash.toPlainStr H))
    (hcd : ∀ r ∈ db.commits, E.fold r.gitId = E.fold (Hash.toPlainStr H) → Commit.decode r.data = .ok c)
    {d : Hash} (hsome : ∃ n ∈ db.nodes, E.fold n.name = E.fold name) (hnodes : ∀ n ∈ db.nodes, E.fold n.name = E.fold name → n.gitId = Hash.toPlainStr d) :
    ∃ (ref : RefRow) (child : CommitObj) (db' : Db), ref ∈ db.refs ∧ ref.repoPath = u ∧ Spec.isMaster E.fold ref ∧
      getHeadObjectId X E db sub = (.ok (Hash.toPlainStr child.base.id), db') ∧
      MetaData.new X .commit child.base.data = .ok child.base ∧
      (Commit.decode child.base.data = .ok { treeId := d, parents := [], author := c.author, committer := c.committer, message := c.message } ∧
        child.base.data = Commit.encode { treeId := d, parents := [], author := c.author, committer := c.committer, message := c.message }) ∧
      db' = { db with
        commits := if E.acceptCommits db.inserts [child.row sub] then db.commits ++ [child.row sub] else db.commits
        refs := if E.acceptRefs (db.inserts + 1) [{ repoPath := sub, refName := ref.refName, refGitId := Hash.toPlainStr child.base.id }]
          then db.refs ++ [{ repoPath := sub, refName := ref.refName, refGitId := Hash.toPlainStr child.base.id }] else db.refs
        inserts := db.inserts + 2 } := by
  obtain ⟨r0, hr0, er0, mr0⟩ := hm
  have hokb : ∀ d ∈ base, Spec.NameOk d := fun d hd => hok d (by simp [hd])
  have hstart : pathStartsWith sub u = true := by
    rw [hu, hsub, pathStartsWith_text _ _ _ _ hok hokb]
    exact .inr ⟨rfl, by rw [List.append_assoc]; exact List.prefix_append _ _⟩
  have hne : u ≠ sub := by
    intro e
    rw [hu, hsub] at e
    have := congrArg components e
    rw [components_pathText _ _ hokb, components_pathText _ _ hok] at this
    simp only [Prod.mk.injEq, true_and] at this
    have := congrArg List.length this
    simp at this
  have hlike : E.like sub u = true := by
    obtain ⟨tail, ht⟩ : ∃ tail, sub = u ++ tail := by
      rw [hu, hsub]
      cases base with
      | nil => cases below <;> exact ⟨_, rfl⟩
      | cons b bs => exact ⟨(below ++ [name]).flatMap (fun d => 0x2f :: d), by simp [Spec.pathText]⟩
    rw [ht]
    exact E.like_prefix _ _ hb
  obtain ⟨root, hr1, hr2⟩ : ∃ root, searchRootNode E db sub = .ok (some root) ∧ root.gitId = Hash.toPlainStr d := by
    obtain ⟨n0, hn0, hn0'⟩ := hsome
    have hfn : fileName sub = some name := by
      rw [hsub]; exact fileName_text true (base ++ below) name hok hdd
    obtain ⟨root, hr1, hr2⟩ := order_head_some E (l := db.nodes.filter (fun n => E.fold n.name == E.fold name)) (by
      intro e
      have : n0 ∈ db.nodes.filter (fun n => E.fold n.name == E.fold name) := by rw [List.mem_filter]; simp [hn0, hn0']
      rw [e] at this; cases this)
    rw [List.mem_filter, beq_iff_eq] at hr1
    refine ⟨root, ?_, hnodes root hr1.1 hr1.2⟩
    unfold searchRootNode
    rw [hfn]
    simp only [Res.unwrapOpt, Res.bind_ok, hr2]
    rfl
  have hnone : ∀ r ∈ searchRefs E db sub, r.repoPath ≠ sub := by
    intro r hr e
    obtain ⟨q1, _, q3⟩ := mem_searchRefs.1 hr
    have := huniq r q1 q3 (by rw [e, hsub, pathStartsWith_text _ _ _ _ hok hok]; exact .inr ⟨rfl, List.prefix_refl _⟩)
    exact hne (this.symm.trans e)
  have hgc : ∀ r ∈ searchRefs E db sub, pathStartsWith sub r.repoPath = true → ∃ child : CommitObj,
      generateChild X E r sub db = (.ok (Hash.toPlainStr child.base.id), { db with
        commits := if E.acceptCommits db.inserts [child.row sub] then db.commits ++ [child.row sub] else db.commits
        refs := if E.acceptRefs (db.inserts + 1) [{ repoPath := sub, refName := r.refName, refGitId := Hash.toPlainStr child.base.id }]
          then db.refs ++ [{ repoPath := sub, refName := r.refName, refGitId := Hash.toPlainStr child.base.id }] else db.refs
        inserts := db.inserts + 2 }) ∧ MetaData.new X .commit child.base.data = .ok child.base ∧
      Commit.decode child.base.data = .ok { treeId := d, parents := [], author := c.author, committer := c.committer, message := c.message } ∧
        child.base.data = Commit.encode { treeId := d, parents := [], author := c.author, committer := c.committer, message := c.message } := by
    intro r hr hp
    obtain ⟨q1, _, q3⟩ := mem_searchRefs.1 hr
    have e := hid r q1 (huniq r q1 q3 hp) q3
    obtain ⟨rc, hrc1, hrc2⟩ := hc
    obtain ⟨x, hx1, hx2⟩ := order_head_some E (l := db.commits.filter (fun x => E.fold x.gitId == E.fold r.refGitId)) (by
      intro e'
      have : rc ∈ db.commits.filter (fun x => E.fold x.gitId == E.fold r.refGitId) := by
        rw [List.mem_filter, beq_iff_eq, e]; exact ⟨hrc1, hrc2⟩
      rw [e'] at this; cases this)
    rw [List.mem_filter, beq_iff_eq, e] at hx1
    obtain ⟨child, hb1, hb2, hb3, hb4⟩ := C61_every X x root c d (hcd x hx1.1 hx1.2) hr2
    refine ⟨child, ?_, hb3, hb2, hb4⟩
    unfold generateChild
    rw [hx2]
    simp only
    rw [hr1]
    simp only
    rw [hb1]
    simp only [saveChild_eq]
  unfold getHeadObjectId
  cases h1 : (searchRefs E db sub).find? (fun r => sub == r.repoPath) with
  | some r =>
    have := List.find?_some h1
    simp only [beq_iff_eq] at this
    exact absurd this.symm (hnone r (List.mem_of_find?_eq_some h1))
  | none =>
    simp only
    cases h2 : (searchRefs E db sub).find? (fun r => pathStartsWith sub r.repoPath) with
    | some r =>
      have hs := List.find?_some h2
      have hm := List.mem_of_find?_eq_some h2
      simp only at hs ⊢
      obtain ⟨child, g1, g2, g3⟩ := hgc r hm hs
      obtain ⟨q1, _, q3⟩ := mem_searchRefs.1 hm
      exact ⟨r, child, _, q1, huniq r q1 q3 hs, q3, g1, g2, g3, rfl⟩
    | none =>
      have := List.find?_eq_none.1 h2 r0 (mem_searchRefs.2 ⟨hr0, by rw [er0]; exact hlike, mr0⟩)
      rw [er0, hstart] at this
      simp at this

/-! ## The clone -/

/-- A clone from storage that is in order, at a path all of whose commits have their root directory. -/
theorem full_clone {X : Ext} {E : SqlExt} {db : Db} {path : Bytes} (hS : StoreOk X E db) (hR : RootsOk E db path) (hfit : FitsPack X db) {fuel : Nat}
    (hdeep : ∀ r ∈ commitsAt E.fold db.commits path, ∀ c, Commit.decode r.data = .ok c → Spec.NestedWithin db.nodes fuel c.treeId)
    (hne : commitsAt E.fold db.commits path ≠ []) :
    ∃ file ms, getFullPack X E fuel db path = .ok file ∧ PackHas X file ms ∧ ∀ m, m ∈ ms ↔ ∃ o, InRepo E.fold db path o ∧ m = metaOf X o := by
  obtain ⟨hm, h1⟩ := fullObjects_total hS hR hdeep
  obtain ⟨h2, h3⟩ := fullObjects_ok hS hR h1
  have hg : Good X db hm := good_of_entries h2 _ (fun o ho => inRepo_stored ho) h3
  have h0 : hm ≠ [] := by
    obtain ⟨r, hr⟩ := List.exists_mem_of_ne_nil _ hne
    intro e
    have := (h3 _).2 ⟨_, .commit r hr, rfl⟩
    rw [e] at this
    cases this
  obtain ⟨file, f1, ms, f2, f3⟩ := packOf_has (E := E) hS.unique hfit hg h0
  refine ⟨file, ms, by rw [getFullPack, h1, Res.bind_ok, f1], f2, fun m => ?_⟩
  rw [f3]
  constructor
  · rintro ⟨p, hp, rfl⟩
    obtain ⟨o, ho, rfl⟩ := (h3 p).1 hp
    exact ⟨o, ho, rfl⟩
  · rintro ⟨o, ho, rfl⟩
    exact ⟨_, (h3 _).2 ⟨o, ho, rfl⟩, rfl⟩

theorem FitsPack.mono {X : Ext} {db db' : Db} (ext : Extends db db') (h : FitsPack X db') : FitsPack X db :=
  ⟨fun o ho => h.1 o (ext.stored ho), fun ms hn hm => h.2 ms hn (fun m hm' => by
    obtain ⟨o, h1, h2⟩ := hm m hm'
    exact ⟨o, ext.stored h1, h2⟩)⟩

/-- What happens to the database, see `C110_subdirectory_partial`: the commit made for the directory, what is stored at its path, and the pack of a clone from there. `db` is the database
before, `db2` the one at the time of the clone. -/
theorem sub_clone_db (X : Ext) {fold : Bytes → Bytes} (hfold : ∀ a b : Hash, fold (Hash.toPlainStr a) = fold (Hash.toPlainStr b) → a = b)
    (base below : List Bytes) (name u sub : Bytes) (hu : u = Spec.pathText true base) (hsub : sub = Spec.pathText true (base ++ below ++ [name]))
    (hok : ∀ d ∈ base ++ below ++ [name], Spec.NameOk d) (hdd : name ≠ [0x2e, 0x2e]) (hname : fold name ≠ fold []) (hb : (0x5c : UInt8) ∉ u)
    (EA E1 EB : SqlExt) (hmA : EA.fold = fold) (hm1 : E1.fold = fold) (hmB : EB.fold = fold) (db db2 : Db)
    (hrunA : StoreRun X fold u db) (hend : StoreRun X fold u db2) (ids : ∀ r ∈ db.commits, r.gitId = Hash.toPlainStr (idOf X (.commit, r.data)))
    (Q : Pack → Prop) (named : ∀ r ∈ db.nodes, ∃ p, Q p ∧ NamedIn p r)
    (habove : ∀ r ∈ db.refs, pathStartsWith sub r.repoPath = true → r.repoPath = u) (hother : ∀ r ∈ db.refs, fold r.repoPath ≠ fold sub)
    (none0 : ∀ c ∈ commitsAt fold db.commits sub, c ∈ Db.empty.commits)
    (ext1 : Extends db (getHeadObjectId X E1 db sub).2) (ext2 : Extends (getHeadObjectId X E1 db sub).2 db2)
    (none2 : ∀ c ∈ commitsAt fold db2.commits sub, c ∈ (getHeadObjectId X E1 db sub).2.commits)
    (hmaster : Spec.HasMaster fold db u) (H : Hash)
    (hid : ∀ r ∈ db.refs, r.repoPath = u → Spec.isMaster fold r → r.refGitId = Hash.toPlainStr H)
    (hac : ∀ n rows, E1.acceptCommits n rows = true) (hun : UniqueIds X db2) (hfit : FitsPack X db2) (fuelA fuelB : Nat) (hfuel : db2.nodes.length ≤ fuelB)
    (fileA : Bytes) (hfull : getFullPack X EA fuelA db u = .ok fileA) (StA : ObjectSource) (fA : Nat) (qA : Pack) (hqA : decodePack X StA (fA + 1) fileA = .ok qA)
    (oA : MetaData) (hoA : qA.result.hashObject H = some oA) (htA : oA.t = .commit) (cA : Commit) (hcA : Commit.decode oA.data = .ok cA)
    (d : Hash) (hd : Spec.DirAt qA.result.hashObject cA.treeId (below ++ [name]) d) (hd1 : ∀ x, Spec.DirAt qA.result.hashObject cA.treeId (below ++ [name]) x → x = d)
    (honly : ∀ p, Q p → (∀ o items i, p.result.hashObject o.id = some o → o.t = .tree → decodeTree o.data = .ok items → i ∈ items → (fold i.filename = fold name ↔ i.id = d)) ∧
      ∀ o c, p.result.hashObject o.id = some o → o.t = .commit → Commit.decode o.data = .ok c → c.treeId ≠ d) :
    ∃ (id : Hash) (ref : RefRow) (db' : Db) (fileB : Bytes), ref ∈ db.refs ∧ ref.repoPath = u ∧ Spec.isMaster fold ref ∧
      getHeadObjectId X E1 db sub = (.ok (Hash.toPlainStr id), db') ∧
      (∀ r ∈ Spec.refsAt E1.fold db'.refs sub, r = { repoPath := sub, refName := ref.refName, refGitId := Hash.toPlainStr id }) ∧
      ((Spec.refsAt E1.fold db'.refs sub).map RefRow.refGitId).Nodup ∧
      id = idOf X (.commit, Commit.encode { cA with treeId := d, parents := [] }) ∧
      getFullPack X EB fuelB db2 sub = .ok fileB ∧
      ∀ St fuel, ∃ qB, decodePack X St (fuel + 1) fileB = .ok qB ∧
        (∃ oB cB, qB.result.hashObject id = some oB ∧ oB.t = .commit ∧ Commit.decode oB.data = .ok cB ∧ cB.author = cA.author ∧ cB.committer = cA.committer ∧
          cB.message = cA.message ∧ oB.data = Commit.encode { cA with treeId := d, parents := [] } ∧ d ≠ cA.treeId) ∧
        ∀ c path mode data, Spec.CheckedOut qB.result.hashObject id (c :: path) mode data ↔
          Spec.CheckedOut qA.result.hashObject H (below ++ name :: c :: path) mode data := by
  have ext := ext1.trans ext2
  have hu2 : UniqueIds X db := ext.unique hun
  have inv := storeRun_inv hrunA hu2
  have inv2 := storeRun_inv hend hun
  obtain ⟨msA, kA1, kA2⟩ := clone_has hrunA hu2 hfold (hfit.mono ext) hmA hfull
  obtain ⟨q, hq, _, findA⟩ := kA1.2 StA fA
  rw [hqA] at hq
  cases hq
  -- its commit
  obtain ⟨hmH, eH⟩ := (findA _ _).1 hoA
  obtain ⟨xA, xA1, xA2⟩ := (kA2 _).1 hmH
  obtain ⟨rowA, hrowA, exA⟩ : ∃ r ∈ commitsAt fold db.commits u, xA = (.commit, r.data) := by
    cases xA1 with
    | commit r hr => exact ⟨r, hr, rfl⟩
    | node r c y n _ _ _ hn _ =>
      rw [xA2] at htA
      rcases inv.type n hn with e | e
      · rw [nodeObj_tree e] at htA; cases htA
      · rw [nodeObj_blob (by rw [e]; decide)] at htA; cases htA
  have eidA : idOf X (.commit, rowA.data) = H := by
    rw [← eH, xA2, exA]
    rfl
  have edA : oA.data = rowA.data := by rw [xA2, exA]; rfl
  rw [edA] at hcA
  obtain ⟨q1, q2⟩ := commitsAt_mem.1 hrowA
  obtain ⟨cA', kc1, _, kc3⟩ := inv.commits rowA hrowA
  rw [hcA] at kc1
  cases kc1
  -- objects of the first clone below its commit
  have rowOf : ∀ {x}, StoreReach db.nodes cA.treeId x → ∃ n ∈ db.nodes, n.gitId = Hash.toPlainStr x ∧ idOf X (nodeObj n) = x := by
    intro x hx
    obtain ⟨n, hn, e⟩ := kc3 x hx
    refine ⟨n, hn, e, ?_⟩
    rw [inv.id n hn] at e
    exact Hash.toPlainStr_injective e
  have objOf : ∀ {o : MetaData}, StoreReach db.nodes cA.treeId o.id → qA.result.hashObject o.id = some o →
      ∃ n ∈ db.nodes, n.gitId = Hash.toPlainStr o.id ∧ o = metaOf X (nodeObj n) := by
    intro o hr ho
    obtain ⟨n, hn, e1, e2⟩ := rowOf hr
    obtain ⟨hm, _⟩ := (findA _ _).1 ho
    obtain ⟨x, x1, x2⟩ := (kA2 _).1 hm
    have : nodeObj n = x := hu2 _ _ (.inl ⟨n, hn, rfl⟩) (inRepo_stored x1) (by rw [e2, x2]; rfl)
    exact ⟨n, hn, e1, by rw [this, ← x2]⟩
  have step : ∀ {o : MetaData} {items : List TreeItem} {i : TreeItem}, StoreReach db.nodes cA.treeId o.id → qA.result.hashObject o.id = some o → o.t = .tree →
      decodeTree o.data = .ok items → i ∈ items → ∀ {root}, StoreReach db.nodes root o.id → StoreReach db.nodes root i.id := by
    intro o items i hr ho ht hd hi root hroot
    obtain ⟨n, hn, e1, e2⟩ := objOf hr ho
    have hnt : n.nodeType = ascii "tree" := by
      by_contra hne
      rw [e2, nodeObj_blob hne] at ht
      cases ht
    rw [e2, nodeObj_tree hnt] at hd
    exact .item n o.id items i hroot hn e1 hnt hd hi
  have hdr : ∀ {x ps y}, Spec.DirAt qA.result.hashObject x ps y → StoreReach db.nodes cA.treeId x →
      StoreReach db.nodes cA.treeId y ∧ ∃ o, qA.result.hashObject o.id = some o ∧ o.t = .tree ∧ o.id = y := by
    intro x ps y hxy
    induction hxy with
    | here t h1 h2 => exact fun hr => ⟨hr, t, h1, h2, rfl⟩
    | down t items i ps y h1 h2 h3 h4 _ _ ih => exact fun hr => ih (step hr h1 h2 h3 h4 hr)
  obtain ⟨dr, od, od1, od2, od3⟩ := hdr hd .refl
  obtain ⟨nd, hnd, end1, end2⟩ := rowOf dr
  have hndt : nd.nodeType = ascii "tree" := by
    obtain ⟨n, hn, e1, e2⟩ := objOf (by rw [od3]; exact dr) od1
    by_contra hne
    have : nodeObj n = nodeObj nd := hu2 _ _ (.inl ⟨n, hn, rfl⟩) (.inl ⟨nd, hnd, rfl⟩) (by
      rw [end2, ← od3, e2]
      rfl)
    rw [e2, this, nodeObj_blob hne] at od2
    cases od2
  have hbelow : ∀ {x}, Spec.PackBelow qA.result.hashObject d x → StoreReach db.nodes d x ∧ StoreReach db.nodes cA.treeId x := by
    intro x hx
    induction hx with
    | refl => exact ⟨.refl, dr⟩
    | item o items i _ h1 h2 h3 h4 ih => exact ⟨step ih.2 h1 h2 h3 h4 ih.1, step ih.2 h1 h2 h3 h4 ih.2⟩
  -- HEAD of the directory
  obtain ⟨ref, child, db', r1, r2, r3, k1, k2, ⟨k3, k5⟩, k4⟩ := getHead_sub (X := X) (E := E1) (db := db) hu hsub hok hdd hb (by rw [hm1]; exact hmaster)
    (fun r hr _ hp => habove r hr hp)
    (H := H) (fun r hr e hm => hid r hr e (by rw [← hm1]; exact hm)) (c := cA)
    ⟨rowA, q1, by rw [ids rowA q1, eidA]⟩
    (fun r hr e => by
      rw [ids r hr, hm1] at e
      have e := hfold _ _ e
      have := hu2 (.commit, r.data) (.commit, rowA.data) (.inr ⟨r, hr, rfl⟩) (.inr ⟨rowA, q1, rfl⟩) (by rw [e, eidA])
      simp only [Prod.mk.injEq, true_and] at this
      rw [this]
      exact hcA)
    (d := d)
    (by
      refine ⟨nd, hnd, ?_⟩
      obtain ⟨p, g1, g2⟩ := named nd hnd
      obtain ⟨w1, w2⟩ := honly p g1
      rcases g2 with ⟨_, o, c, z1, z2, z3, z4⟩ | ⟨o, items, i, z1, z2, z3, z4, z5, z6⟩
      · exact absurd (Hash.toPlainStr_injective (z4.symm.trans end1)) (w2 o c z1 z2 z3)
      · rw [z5, hm1]
        exact (w1 o items i z1 z2 z3 z4).2 (Hash.toPlainStr_injective (z6.symm.trans end1)))
    (fun n hn e => by
      obtain ⟨p, g1, g2⟩ := named n hn
      obtain ⟨w1, _⟩ := honly p g1
      rw [hm1] at e
      rcases g2 with ⟨z0, _⟩ | ⟨o, items, i, z1, z2, z3, z4, z5, z6⟩
      · rw [z0] at e
        exact absurd e.symm hname
      · rw [z5] at e
        rw [z6, (w1 o items i z1 z2 z3 z4).1 e])
  rw [k1] at none2 ext2
  simp only at none2 ext2
  have etc : child.base.t = .commit := (new_ok k2).2.1
  have ech : metaOf X (.commit, child.base.data) = child.base := by
    have := (metaOf_of_new (m := child.base) (by rw [etc]; exact k2)).2
    rwa [etc] at this
  -- what is shown
  have hrefs : ∀ r ∈ Spec.refsAt E1.fold db'.refs sub, r = { repoPath := sub, refName := ref.refName, refGitId := Hash.toPlainStr child.base.id } := by
    intro r hr
    obtain ⟨z1, z2⟩ := List.mem_filter.1 hr
    rw [beq_iff_eq, hm1] at z2
    have old : r ∉ db.refs := by
      intro hr
      exact hother r hr z2
    rw [k4] at z1
    simp only at z1
    split at z1
    · rcases List.mem_append.1 z1 with z1 | z1
      · exact absurd z1 old
      · simpa using z1
    · exact absurd z1 old
  have hnodup : ((Spec.refsAt E1.fold db'.refs sub).map RefRow.refGitId).Nodup := by
    have e : Spec.refsAt E1.fold db'.refs sub = [] ∨ Spec.refsAt E1.fold db'.refs sub = [{ repoPath := sub, refName := ref.refName, refGitId := Hash.toPlainStr child.base.id }] := by
      have hnil : db.refs.filter (fun r => E1.fold r.repoPath == E1.fold sub) = [] := by
        refine List.filter_eq_nil_iff.2 (fun r hr => ?_)
        have := hother r hr
        rw [hm1]
        simpa using this
      rw [k4]
      simp only [Spec.refsAt]
      split
      · rw [List.filter_append, hnil]
        simp
      · exact .inl hnil
    rcases e with e | e <;> rw [e] <;> simp
  -- the second clone
  have hrowB : child.row sub ∈ db2.commits := by
    refine ext2.commits _ ?_
    rw [k4]
    simp [hac]
  have only : ∀ r ∈ commitsAt fold db2.commits sub, r = child.row sub := by
    intro r hr
    have := none2 r hr
    rw [k4] at this
    simp only [hac, if_true, List.mem_append, List.mem_singleton] at this
    rcases this with z | z
    · have := none0 r (commitsAt_mem.2 ⟨z, (commitsAt_mem.1 hr).2⟩)
      cases this
    · exact z
  have hatB : child.row sub ∈ commitsAt fold db2.commits sub := commitsAt_mem.2 ⟨hrowB, rfl⟩
  have hS : StoreOk X EB db2 := ⟨inv2.type, inv2.id, hun, by rw [hmB]; exact hfold, inv2.tree⟩
  have hR : RootsOk EB db2 sub := by
    intro r hr
    rw [hmB] at hr
    rw [only r hr]
    exact ⟨_, k3, nd, ext.nodes nd hnd, end1, hndt⟩
  have hdeep : ∀ r ∈ commitsAt EB.fold db2.commits sub, ∀ c, Commit.decode r.data = .ok c → Spec.NestedWithin db2.nodes fuelB c.treeId := by
    intro r hr c hdc
    rw [hmB] at hr
    rw [only r hr] at hdc
    have hdc : Commit.decode child.base.data = .ok c := hdc
    rw [k3] at hdc
    cases hdc
    have hacA := inv2.acyclic rowA (commitsAt_mem.2 ⟨ext.commits _ q1, q2⟩) cA hcA
    have hacd := acc_reach (StoreReach.mono ext.nodes dr) hacA
    exact nested_of_acyclic fuelB _ hacd (Nat.lt_of_lt_of_le (below_card hacd ⟨nd, ext.nodes nd hnd, end1⟩) hfuel)
  obtain ⟨fileB, msB, b1, b2, b3⟩ := full_clone hS hR hfit hdeep (by rw [hmB]; exact List.ne_nil_of_mem hatB)
  have eid : child.base.id = idOf X (.commit, Commit.encode { cA with treeId := d, parents := [] }) := by
    rw [← ech, k5]
    rfl
  refine ⟨child.base.id, ref, db', fileB, r1, r2, by rw [← hm1]; exact r3, k1, hrefs, hnodup, eid, b1, fun St fuel => ?_⟩
  obtain ⟨qB, qB1, _, findB⟩ := b2.2 St fuel
  rw [hmB] at b3
  have hfindB : qB.result.hashObject child.base.id = some child.base := by
    refine (findB _ _).2 ⟨(b3 _).2 ⟨_, .commit _ hatB, ?_⟩, rfl⟩
    exact ech.symm
  have hne : d ≠ cA.treeId := by
    intro e
    have hgo : ∀ {x ps y}, Spec.DirAt qA.result.hashObject x ps y → StoreReach db.nodes cA.treeId x → StoreReach db.nodes x y := by
      intro x ps y hxy
      induction hxy with
      | here => exact fun _ => .refl
      | down t items i ps y h1 h2 h3 h4 _ _ ih => exact fun hr => StoreReach.trans (step hr h1 h2 h3 h4 .refl) (ih (step hr h1 h2 h3 h4 hr))
    generalize hps : below ++ [name] = ps at hd
    generalize hroot : cA.treeId = root at hd
    cases hd with
    | here => simp at hps
    | down t items i ps _ h1 h2 h3 h4 h5 h6 =>
      have hr : StoreReach db.nodes cA.treeId t.id := by rw [hroot]; exact .refl
      obtain ⟨n, hn, e1, e2⟩ := objOf hr h1
      have hnt : n.nodeType = ascii "tree" := by
        by_contra hne
        rw [e2, nodeObj_blob hne] at h2
        cases h2
      rw [e2, nodeObj_tree hnt] at h3
      have back := hgo h6 (step hr h1 h2 (by rw [e2, nodeObj_tree hnt]; exact h3) h4 hr)
      rw [e, hroot] at back
      exact not_containsItself (inv.acyclic rowA hrowA cA hcA) ⟨n, hn, by rw [hroot]; exact e1, hnt, items, h3, i, h4, by rw [hroot]; exact back⟩
  refine ⟨qB, qB1, ⟨child.base, _, hfindB, etc, k3, rfl, rfl, rfl, k5, hne⟩, fun c path mode data => ?_⟩
  have hsame := FileAt.below_same (find := qA.result.hashObject) (find' := qB.result.hashObject) (d := d) (fun o ho hf => by
    obtain ⟨z1, z2⟩ := hbelow ho
    obtain ⟨n, hn, y1, y2⟩ := objOf z2 hf
    refine (findB _ _).2 ⟨(b3 _).2 ⟨_, .node _ _ o.id n hatB k3 (StoreReach.mono ext.nodes z1) (ext.nodes n hn) y1, y2⟩, rfl⟩) (fun x hx => by
    obtain ⟨_, z2⟩ := hbelow hx
    obtain ⟨n, hn, y1, y2⟩ := rowOf z2
    refine ⟨metaOf X (nodeObj n), (findA _ _).2 ⟨(kA2 _).2 ⟨_, .node rowA cA x n hrowA hcA z2 hn y1, rfl⟩, rfl⟩, y2⟩) (.refl : Spec.PackBelow qA.result.hashObject d d) (c :: path) mode data
  constructor
  · rintro ⟨o, cB, _, w1, w2, w3, w4⟩
    rw [hfindB] at w1
    cases w1
    rw [k3] at w3
    cases w3
    refine ⟨oA, cA, eH, hoA, htA, by rw [edA]; exact hcA, ?_⟩
    have := DirAt.file hd (hsame.2 w4)
    rwa [List.append_assoc] at this
  · rintro ⟨o, c', _, w1, w2, w3, w4⟩
    rw [hoA] at w1
    cases w1
    rw [edA, hcA] at w3
    cases w3
    rw [show below ++ name :: c :: path = (below ++ [name]) ++ c :: path by simp] at w4
    obtain ⟨x, x1, x2⟩ := FileAt.split _ w4
    rw [hd1 x x1] at x2
    exact ⟨child.base, _, rfl, hfindB, etc, k3, hsame.1 x2⟩

/-- See `C110_subdirectory_partial` and C139. -/
theorem sub_clone (P : ServerExt) (hfold : ∀ a b : Hash, P.D.fold (Hash.toPlainStr a) = P.D.fold (Hash.toPlainStr b) → a = b)
    (base below : List Bytes) (name u sub : Bytes) (hu : u = Spec.pathText true base) (hsub : sub = Spec.pathText true (base ++ below ++ [name]))
    (hok : ∀ d ∈ base ++ below ++ [name], Spec.NameOk d) (hdd : name ≠ [0x2e, 0x2e]) (hname : P.D.fold name ≠ P.D.fold [])
    (hcu : Spec.CleanUrl u) (hcs : Spec.CleanUrl sub) (hb : (0x5c : UInt8) ∉ u)
    (g g1 g2 : Bytes) (hg : g = [] ∨ g = ascii ".git") (hg1 : g1 = [] ∨ g1 = ascii ".git") (hg2 : g2 = [] ∨ g2 = ascii ".git")
    (h h2 : List (Moment × HttpReq)) (mA m1 mB : Moment) (ty : ServiceType)
    (hfl : Spec.SameFold P.D.fold (h ++ [(m1, Spec.refsReq (sub ++ g1) ty)] ++ h2)) (hmA : mA.sql.fold = P.D.fold) (hmB : mB.sql.fold = P.D.fold)
    (hab : Spec.NoneAbove P.D.fold u (h ++ [(m1, Spec.refsReq (sub ++ g1) ty)] ++ h2))
    (habove : ∀ p ∈ h, ∀ a, p.2.repo = some a → pathStartsWith sub a = true → a = u)
    (hother : ∀ p ∈ h ++ h2, ∀ a, p.2.repo = some a → P.D.fold a ≠ P.D.fold sub)
    (hmaster : Spec.HasMaster P.D.fold (runServer P .empty h).db u) (H : Hash)
    (hid : ∀ r ∈ (runServer P .empty h).db.refs, r.repoPath = u → Spec.isMaster P.D.fold r → r.refGitId = Hash.toPlainStr H ∧ Spec.RefText r)
    (hac : ∀ n rows, m1.sql.acceptCommits n rows = true)
    (hun : UniqueIds P.X (runServer P .empty (h ++ [(m1, Spec.refsReq (sub ++ g1) ty)] ++ h2)).db)
    (hfit : FitsPack P.X (runServer P .empty (h ++ [(m1, Spec.refsReq (sub ++ g1) ty)] ++ h2)).db)
    (hfuel : (runServer P .empty (h ++ [(m1, Spec.refsReq (sub ++ g1) ty)] ++ h2)).db.nodes.length ≤ mB.fuel)
    (hordA : ∀ l x, x ∈ mA.ord l ↔ x ∈ l) (hcutA : Spec.CutOk mA.cut) (lsA : List Spec.ReqLine) (tA restA : Bytes) (hrA : Spec.CloneReq lsA tA)
    (outA fileA : Bytes) (hA : (serve P mA (runServer P .empty h) (Spec.fetchReq (u ++ g) (doneBody lsA tA restA))).1 = .reply (.ok (.bytes outA)))
    (hreadA : Spec.readClone outA = some fileA) (StA : ObjectSource) (fA : Nat) (qA : Pack) (hqA : decodePack P.X StA (fA + 1) fileA = .ok qA)
    (oA : MetaData) (hoA : qA.result.hashObject H = some oA) (htA : oA.t = .commit) (cA : Commit) (hcA : Commit.decode oA.data = .ok cA)
    (d : Hash) (hd : Spec.DirAt qA.result.hashObject cA.treeId (below ++ [name]) d) (hd1 : ∀ x, Spec.DirAt qA.result.hashObject cA.treeId (below ++ [name]) x → x = d)
    (honly : Spec.OnlyCalled P h name d)
    (hordB : ∀ l x, x ∈ mB.ord l ↔ x ∈ l) (hcutB : Spec.CutOk mB.cut) (lsB : List Spec.ReqLine) (tB restB : Bytes) (hrB : Spec.CloneReq lsB tB) :
    ∃ (outD : Bytes) (id : Hash) (refs : List (Bytes × Bytes)) (outB fileB : Bytes),
      (serve P m1 (runServer P .empty h) (Spec.refsReq (sub ++ g1) ty)).1 = .reply (.ok (.bytes outD)) ∧ Spec.Shows ty outD (Hash.toPlainStr id) refs ∧
      (serve P mB (runServer P .empty (h ++ [(m1, Spec.refsReq (sub ++ g1) ty)] ++ h2)) (Spec.fetchReq (sub ++ g2) (doneBody lsB tB restB))).1 = .reply (.ok (.bytes outB)) ∧
      Spec.readClone outB = some fileB ∧
      ∀ St fuel, ∃ qB, decodePack P.X St (fuel + 1) fileB = .ok qB ∧
        (∃ oB cB, qB.result.hashObject id = some oB ∧ oB.t = .commit ∧ Commit.decode oB.data = .ok cB ∧ cB.author = cA.author ∧ cB.committer = cA.committer ∧
          cB.message = cA.message ∧ oB.data = Commit.encode { cA with treeId := d, parents := [] } ∧ d ≠ cA.treeId) ∧
        ∀ c path mode data, Spec.CheckedOut qB.result.hashObject id (c :: path) mode data ↔
          Spec.CheckedOut qA.result.hashObject H (below ++ name :: c :: path) mode data := by
  -- the states
  have hend := run_store P u _ _ rfl hfl hab
  have hrunA := run_store P u _ h rfl (fun p hp => hfl p (by simp [hp])) (fun p hp q hq => hab p (by simp [hp]) q (by simp [hq]))
  have ids := run_commit_ids P h .empty empty_readable (by intro r hr; cases hr)
  have named := rows_named P _ h rfl
  have paths := run_paths P _ h rfl
  have none0 := run_commits_other (P := P) (path := sub) h .empty (fun p hp => hother p (by simp [hp]))
  have none2 := run_commits_other (P := P) (path := sub) h2 (runServer P .empty (h ++ [(m1, Spec.refsReq (sub ++ g1) ty)])) (fun p hp => hother p (by simp [hp]))
  rw [← runServer_append] at none2
  have ext2 := run_extends P h2 (runServer P .empty (h ++ [(m1, Spec.refsReq (sub ++ g1) ty)]))
  rw [← runServer_append] at ext2
  rw [runServer_concat] at none2 ext2
  have hroute : route .get (sub ++ g1 ++ ascii "/info/refs") (some ty.display) = .infoRefs sub ty := route_discover hcs hg1 ty
  have hm1 : m1.sql.fold = P.D.fold := hfl (m1, Spec.refsReq (sub ++ g1) ty) (by simp)
  have ext1 := serve_extends P m1 (runServer P .empty h) (Spec.refsReq (sub ++ g1) ty)
  have edb : (serve P m1 (runServer P .empty h) (Spec.refsReq (sub ++ g1) ty)).2.db = (getHeadObjectId P.X m1.sql (runServer P .empty h).db sub).2 := by
    rw [serve_db]
    simp only [Spec.refsReq, hroute]
  rw [edb] at none2 ext2 ext1
  have ask := asked (P := P) (m := m1) (s := runServer P .empty h) hcs hg1 ty
  -- the first clone
  obtain ⟨file', hfull, hread⟩ : ∃ file, getFullPack P.X mA.sql mA.fuel (runServer P .empty h).db u = .ok file ∧ Spec.readClone outA = some file := by
    simp only [serve, Spec.fetchReq, route_fetch hcu hg] at hA
    obtain ⟨o', e1, e2⟩ := Res.outcome_ok hA
    cases e2
    exact httpUploadPack_clone hordA hcutA hrA e1
  rw [hreadA] at hread
  cases hread
  obtain ⟨id, ref, db', fileB, r1, r2, r3, k1, hrefs, hnodup, _, b1, rest⟩ := sub_clone_db P.X hfold base below name u sub hu hsub hok hdd hname hb mA.sql m1.sql mB.sql hmA hm1 hmB
    _ _ hrunA hend ids (fun p => ∃ a, Spec.PushedPack P a h p) (fun r hr => by
      obtain ⟨a, p, g1, g2⟩ := named r hr
      exact ⟨p, ⟨a, g1⟩, g2⟩)
    (fun r hr hp => by
      obtain ⟨p, hp1, hp2⟩ := paths r hr
      exact habove p hp1 _ hp2 hp)
    (fun r hr => by
      obtain ⟨p, hp1, hp2⟩ := paths r hr
      exact hother p (by simp [hp1]) _ hp2)
    none0 ext1 ext2 none2 hmaster H (fun r hr e hm => (hid r hr e hm).1) hac hun hfit mA.fuel mB.fuel hfuel fileA hfull StA fA qA hqA oA hoA htA cA hcA d hd hd1
    (fun p hp => honly _ p hp.choose_spec)
  obtain ⟨_, rtext⟩ := hid ref r1 r2 r3
  have hadv : advertise P.X m1.sql .http ty (runServer P .empty h).db sub = (.ok (gitInfoRefs .http ty (Hash.toPlainStr id) (getRefObjectId m1.sql db' sub)), db') := by
    simp only [advertise, k1]
  obtain ⟨headId, refs, pkts, v1, v2, v3, _⟩ := C52_advertised_partial P.X m1.sql (runServer P .empty h).db db' ty sub _ hadv hnodup (fun r hr => by
    rw [hrefs r hr]
    exact ⟨Hash.toPlainStr_length _, toPlainStr_hex _, rtext.2.2.1, rtext.2.2.2⟩)
  rw [k1] at v1
  simp only [Prod.mk.injEq, Res.ok.injEq, and_true] at v1
  subst v1
  obtain ⟨outB, hoB⟩ := httpUploadPack_ok (St := mysqlFetch P.X mB.sql mB.fuel (runServer P .empty (h ++ [(m1, Spec.refsReq (sub ++ g1) ty)] ++ h2)).db sub) (cut := mB.cut) (rest := restB) hordB hrB b1
  obtain ⟨file', e1, e2⟩ := httpUploadPack_clone hordB hcutB hrB hoB
  have e1 : getFullPack P.X mB.sql mB.fuel (runServer P .empty (h ++ [(m1, Spec.refsReq (sub ++ g1) ty)] ++ h2)).db sub = .ok file' := e1
  rw [b1, Res.ok.injEq] at e1
  subst e1
  refine ⟨_, id, refs, outB, fileB, ?_, ⟨pkts, v2, v3⟩, ?_, e2, rest⟩
  · rw [ask, hadv]
    rfl
  · simp only [serve, Spec.fetchReq, route_fetch hcs hg2, hoB, Res.outcome]

/-- **C110 (partial)** Someone has cloned the repository at `u`; its master is the commit `H`. Then somebody asks for the refs of a directory of this repository by its
path and clones this, with whatever requests for other paths being handled before and in between. Both are answered; the id shown as HEAD is a commit of the clone with the author,
committer and message of `H`; and checking it out gives exactly the files that the first clone has in this directory at `H`, with their modes and contents. The name of the directory
must occur nowhere else. (Missing from the full claim: other directories and files with this name, see `C55_wrong_directory_false`; later changes, see `C55_never_updated`; inserts
that fail, see C26.) -/
theorem C110_subdirectory_partial (P : ServerExt) (hfold : ∀ a b : Hash, P.D.fold (Hash.toPlainStr a) = P.D.fold (Hash.toPlainStr b) → a = b)
    (base below : List Bytes) (name u sub : Bytes) (hu : u = Spec.pathText true base) (hsub : sub = Spec.pathText true (base ++ below ++ [name]))
    (hok : ∀ d ∈ base ++ below ++ [name], Spec.NameOk d) (hdd : name ≠ [0x2e, 0x2e]) (hname : P.D.fold name ≠ P.D.fold [])
    (hcu : Spec.CleanUrl u) (hcs : Spec.CleanUrl sub) (hb : (0x5c : UInt8) ∉ u)
    (g g1 g2 : Bytes) (hg : g = [] ∨ g = ascii ".git") (hg1 : g1 = [] ∨ g1 = ascii ".git") (hg2 : g2 = [] ∨ g2 = ascii ".git")
    (h h2 : List (Moment × HttpReq)) (mA m1 mB : Moment) (ty : ServiceType)
    (hfl : Spec.SameFold P.D.fold (h ++ [(m1, Spec.refsReq (sub ++ g1) ty)] ++ h2)) (hmA : mA.sql.fold = P.D.fold) (hmB : mB.sql.fold = P.D.fold)
    (hab : Spec.NoneAbove P.D.fold u (h ++ [(m1, Spec.refsReq (sub ++ g1) ty)] ++ h2))
    (habove : ∀ p ∈ h, ∀ a, p.2.repo = some a → pathStartsWith sub a = true → a = u)
    (hother : ∀ p ∈ h ++ h2, ∀ a, p.2.repo = some a → P.D.fold a ≠ P.D.fold sub)
    (hmaster : Spec.HasMaster P.D.fold (runServer P .empty h).db u) (H : Hash)
    (hid : ∀ r ∈ (runServer P .empty h).db.refs, r.repoPath = u → Spec.isMaster P.D.fold r → r.refGitId = Hash.toPlainStr H ∧ Spec.RefText r)
    (hac : ∀ n rows, m1.sql.acceptCommits n rows = true)
    (hun : UniqueIds P.X (runServer P .empty (h ++ [(m1, Spec.refsReq (sub ++ g1) ty)] ++ h2)).db)
    (hfit : FitsPack P.X (runServer P .empty (h ++ [(m1, Spec.refsReq (sub ++ g1) ty)] ++ h2)).db)
    (hfuel : (runServer P .empty (h ++ [(m1, Spec.refsReq (sub ++ g1) ty)] ++ h2)).db.nodes.length ≤ mB.fuel)
    (hordA : ∀ l x, x ∈ mA.ord l ↔ x ∈ l) (hcutA : Spec.CutOk mA.cut) (lsA : List Spec.ReqLine) (tA restA : Bytes) (hrA : Spec.CloneReq lsA tA)
    (outA fileA : Bytes) (hA : (serve P mA (runServer P .empty h) (Spec.fetchReq (u ++ g) (doneBody lsA tA restA))).1 = .reply (.ok (.bytes outA)))
    (hreadA : Spec.readClone outA = some fileA) (StA : ObjectSource) (fA : Nat) (qA : Pack) (hqA : decodePack P.X StA (fA + 1) fileA = .ok qA)
    (oA : MetaData) (hoA : qA.result.hashObject H = some oA) (htA : oA.t = .commit) (cA : Commit) (hcA : Commit.decode oA.data = .ok cA)
    (d : Hash) (hd : Spec.DirAt qA.result.hashObject cA.treeId (below ++ [name]) d) (hd1 : ∀ x, Spec.DirAt qA.result.hashObject cA.treeId (below ++ [name]) x → x = d)
    (honly : Spec.OnlyCalled P h name d)
    (hordB : ∀ l x, x ∈ mB.ord l ↔ x ∈ l) (hcutB : Spec.CutOk mB.cut) (lsB : List Spec.ReqLine) (tB restB : Bytes) (hrB : Spec.CloneReq lsB tB) :
    ∃ (outD : Bytes) (id : Hash) (refs : List (Bytes × Bytes)) (outB fileB : Bytes),
      (serve P m1 (runServer P .empty h) (Spec.refsReq (sub ++ g1) ty)).1 = .reply (.ok (.bytes outD)) ∧ Spec.Shows ty outD (Hash.toPlainStr id) refs ∧
      (serve P mB (runServer P .empty (h ++ [(m1, Spec.refsReq (sub ++ g1) ty)] ++ h2)) (Spec.fetchReq (sub ++ g2) (doneBody lsB tB restB))).1 = .reply (.ok (.bytes outB)) ∧
      Spec.readClone outB = some fileB ∧
      ∀ St fuel, ∃ qB, decodePack P.X St (fuel + 1) fileB = .ok qB ∧
        (∃ oB cB, qB.result.hashObject id = some oB ∧ oB.t = .commit ∧ Commit.decode oB.data = .ok cB ∧ cB.author = cA.author ∧ cB.committer = cA.committer ∧
          cB.message = cA.message) ∧
        ∀ c path mode data, Spec.CheckedOut qB.result.hashObject id (c :: path) mode data ↔
          Spec.CheckedOut qA.result.hashObject H (below ++ name :: c :: path) mode data := by
  obtain ⟨outD, id, refs, outB, fileB, w1, w2, w3, w4, w5⟩ := sub_clone P hfold base below name u sub hu hsub hok hdd hname hcu hcs hb g g1 g2 hg hg1 hg2 h h2 mA m1 mB ty hfl hmA hmB hab habove hother hmaster H hid hac hun hfit hfuel
    hordA hcutA lsA tA restA hrA outA fileA hA hreadA StA fA qA hqA oA hoA htA cA hcA d hd hd1 honly hordB hcutB lsB tB restB hrB
  refine ⟨outD, id, refs, outB, fileB, w1, w2, w3, w4, fun St fuel => ?_⟩
  obtain ⟨qB, q1, ⟨oB, cB, z1, z2, z3, z4, z5, z6, _⟩, q2⟩ := w5 St fuel
  exact ⟨qB, q1, ⟨oB, cB, z1, z2, z3, z4, z5, z6⟩, q2⟩

end Gust

import Verif.Props.ServerExamples
import Verif.Props.ConcurrentExamples
import Verif.Props.Confined
import Verif.Lemmas.Ends

/-! # C91: no directory contains itself, so every clone ends -/

namespace Gust

open Spec (nodeObj StoreReach commitsAt InRepo NestedWithin)

/-- A stored directory that lists an entry from which one gets back to it. -/
def Spec.ContainsItself (nodes : List NodeRow) (t : Hash) : Prop :=
  ∃ n ∈ nodes, n.gitId = Hash.toPlainStr t ∧ n.nodeType = ascii "tree" ∧ ∃ items, decodeTree n.data = .ok items ∧ ∃ i ∈ items, StoreReach nodes i.id t

/-- The ids reachable from an id, going down through the trees of a pack. -/
inductive Spec.PackBelow (find : Hash → Option MetaData) (root : Hash) : Hash → Prop
  | refl : Spec.PackBelow find root root
  | item (o : MetaData) (items : List TreeItem) (i : TreeItem) : Spec.PackBelow find root o.id → find o.id = some o → o.t = .tree →
      decodeTree o.data = .ok items → i ∈ items → Spec.PackBelow find root i.id

theorem reach_child {nodes : List NodeRow} {a b : Hash} (h : StoreReach nodes a b) : a = b ∨ Relation.TransGen (NodeChild nodes) b a := by
  induction h with
  | refl => exact .inl rfl
  | item n t items i _ h1 h2 h3 h4 h5 ih =>
    have hc : NodeChild nodes i.id t := ⟨n, h1, h2, h3, items, h4, i, h5, rfl⟩
    rcases ih with rfl | ih
    · exact .inr (.single hc)
    · exact .inr (.head hc ih)

theorem acc_reach {nodes : List NodeRow} {a b : Hash} (h : StoreReach nodes a b) (hac : Acc (NodeChild nodes) a) : Acc (NodeChild nodes) b := by
  rcases reach_child h with rfl | h
  · exact hac
  · have := hac.transGen.inv h
    exact Subrelation.accessible (fun h => Relation.TransGen.single h) this

theorem not_containsItself {nodes : List NodeRow} {t : Hash} (hac : Acc (NodeChild nodes) t) : ¬ Spec.ContainsItself nodes t := by
  rintro ⟨n, h1, h2, h3, items, h4, i, h5, h6⟩
  have hc : NodeChild nodes i.id t := ⟨n, h1, h2, h3, items, h4, i, h5, rfl⟩
  rcases reach_child h6 with e | h
  · rw [e] at hc
    exact not_below_self hac (.single hc)
  · exact not_below_self hac (.tail h hc)

/-- No SHA-1 collision among the objects of all packs that were pushed, to whatever path. -/
def Spec.PushesAgree (P : ServerExt) (h : List (Moment × HttpReq)) : Prop :=
  ∀ p q a b, Spec.PushedPack P a h p → Spec.PushedPack P b h q → ∀ o o', p.result.hashObject o.id = some o → q.result.hashObject o'.id = some o' → o.id = o'.id → o = o'

/-- A pack has the object with this id and all that is below it, to a finite depth. -/
inductive PackBuilt (find : Hash → Option MetaData) : Hash → Prop
  | tree (o : MetaData) (items : List TreeItem) : find o.id = some o → o.t = .tree → decodeTree o.data = .ok items → (∀ i ∈ items, PackBuilt find i.id) →
      PackBuilt find o.id
  | blob (o : MetaData) : find o.id = some o → o.t = .blob → PackBuilt find o.id

theorem PackBuilt.of {D : ObjDecodedMap} {c : PackCache} (hH : D.Holds c) {h : Hash} (hb : Built (Repo.of D) h) : PackBuilt c.hashObject h := by
  induction hb with
  | tree h t ht _ ih =>
    obtain ⟨hm, rfl⟩ := (repo_tree hH h t).1 ht
    obtain ⟨q1, q2⟩ := (hH.trees t.base).1 (List.mem_map_of_mem hm)
    exact .tree t.base t.items q2 q1 (hH.treeItems t hm) ih
  | blob h b hb =>
    obtain ⟨hm, rfl⟩ := (repo_blob hH h b).1 hb
    obtain ⟨q1, q2⟩ := (hH.blobs b.base).1 (List.mem_map_of_mem hm)
    exact .blob b.base q2 q1

theorem push_built {X : Ext} {St : ObjectSource} {file : Bytes} {fuel0 : Nat} {p : Pack} (hdec : decodePack X St fuel0 file = .ok p)
    (E : SqlExt) (fuel : Nat) (path : Bytes) (db : Db) :
    ∀ n ∈ (savePackfile E fuel p path db).2.nodes, n ∈ db.nodes ∨ ∃ x, n.gitId = Hash.toPlainStr x ∧ PackBuilt p.result.hashObject x := by
  unfold savePackfile
  cases hp : E.pool p.result with
  | ok D =>
    have hH : D.Holds p.result := C36_each_object_once hdec (by have := E.pool_outcome p.result; rwa [hp] at this)
    simp only
    cases hb : buildNodeTree fuel D with
    | ok rows =>
      simp only
      have hrows := (buildCommits_built (repo_faithful hH) (repo_disjoint hH) D.commits [] rows (by intro h hh; cases hh) hb).2
      obtain ⟨bs, b1, _, _, k, b4, _, _, _⟩ := C51_batches_partial E rows db
      have key : ∀ n ∈ (saveNodes E rows db).2.nodes, n ∈ db.nodes ∨ ∃ x, n.gitId = Hash.toPlainStr x ∧ PackBuilt p.result.hashObject x := by
        intro n hn
        rw [b4] at hn
        rcases List.mem_append.1 hn with hn | hn
        · exact .inl hn
        · obtain ⟨l, hl, hn⟩ := List.mem_flatten.1 hn
          obtain ⟨x, e, hx⟩ := hrows n (by rw [← b1]; exact List.mem_flatten.2 ⟨l, List.mem_of_mem_take hl, hn⟩)
          exact .inr ⟨x, e, .of hH hx⟩
      rcases hs : saveNodes E rows db with ⟨r, db1⟩
      rw [hs] at key
      cases r with
      | ok u =>
        intro n hn
        obtain ⟨c1, _, _⟩ := saveCommits_eq E D.commits path db1
        exact key n (by rw [← c1]; exact hn)
      | err e => exact key
      | spin => exact key
      | panic => exact key
    | _ => exact fun r hr => .inl hr
  | _ => exact fun r hr => .inl hr

/-- Every row came in a pushed pack, with all that is below it. -/
theorem rows_pushed (P : ServerExt) : ∀ (n : Nat) (h : List (Moment × HttpReq)), h.length = n → ∀ r ∈ (runServer P .empty h).db.nodes, ∃ a p, Spec.PushedPack P a h p ∧
    (∃ o, p.result.hashObject o.id = some o ∧ o = metaOf P.X (nodeObj r) ∧ r.gitId = Hash.toPlainStr o.id ∧
      (r.nodeType = ascii "tree" ∧ (∃ items, decodeTree r.data = .ok items) ∨ r.nodeType = ascii "blob")) ∧
    ∃ x, r.gitId = Hash.toPlainStr x ∧ PackBuilt p.result.hashObject x
  | 0, h, hn => by
    have : h = [] := List.length_eq_zero_iff.1 hn
    subst this
    intro r hr
    cases hr
  | n + 1, h, hn => by
    have hne : h ≠ [] := by rintro rfl; cases hn
    obtain ⟨h', ⟨m, q⟩, rfl⟩ : ∃ h' q, h = h' ++ [q] := ⟨h.dropLast, h.getLast hne, (List.dropLast_append_getLast hne).symm⟩
    have ih := rows_pushed P n h' (by simpa using hn)
    have old : ∀ r ∈ (runServer P .empty h').db.nodes, ∃ a p, Spec.PushedPack P a (h' ++ [(m, q)]) p ∧
        (∃ o, p.result.hashObject o.id = some o ∧ o = metaOf P.X (nodeObj r) ∧ r.gitId = Hash.toPlainStr o.id ∧
          (r.nodeType = ascii "tree" ∧ (∃ items, decodeTree r.data = .ok items) ∨ r.nodeType = ascii "blob")) ∧
        ∃ x, r.gitId = Hash.toPlainStr x ∧ PackBuilt p.result.hashObject x := by
      intro r hr
      obtain ⟨a, p, h1, rest⟩ := ih r hr
      exact ⟨a, p, h1.more _, rest⟩
    rw [runServer_concat, serve_db]
    cases h : route q.method q.path q.service <;> simp only <;> (try exact old)
    · rename_i repo t
      rw [(getHead_only P.X m.sql repo (runServer P .empty h').db).1]
      exact old
    · rename_i repo
      have key : ∀ file p, file = Spec.packPart q.body → decodePack P.X (getHashObject P.X m.sql (runServer P .empty h').db) m.fuel file = .ok p →
          ∀ r ∈ (savePackfile m.sql m.fuel p repo (runServer P .empty h').db).2.nodes, ∃ a p, Spec.PushedPack P a (h' ++ [(m, q)]) p ∧
            (∃ o, p.result.hashObject o.id = some o ∧ o = metaOf P.X (nodeObj r) ∧ r.gitId = Hash.toPlainStr o.id ∧
              (r.nodeType = ascii "tree" ∧ (∃ items, decodeTree r.data = .ok items) ∨ r.nodeType = ascii "blob")) ∧
            ∃ x, r.gitId = Hash.toPlainStr x ∧ PackBuilt p.result.hashObject x := by
        intro file p hfile hd r hr
        rcases push_built hd m.sql m.fuel repo (runServer P .empty h').db r hr with g | g
        · exact old r g
        · by_cases ho : r ∈ (runServer P .empty h').db.nodes
          · exact old r ho
          · obtain ⟨rows, h1, h2, _⟩ := push_effect hd m.sql m.fuel repo (runServer P .empty h').db
            rw [h1] at hr
            rcases List.mem_append.1 hr with hr | hr
            · exact absurd hr ho
            · exact ⟨repo, p, ⟨h', m, q, [], repo, file, rfl, h, rfl, hfile, hd⟩, h2 r hr, g⟩
      rcases httpReceiveDb_from P.X m.sql m.fuel repo q.body (runServer P .empty h').db with e | ⟨file, p, hfile, hd, e | ⟨cmd, e⟩⟩ <;> rw [e]
      · exact old
      · exact key file p hfile hd
      · rw [(handleRefs_only m.sql cmd repo (savePackfile m.sql m.fuel p repo (runServer P .empty h').db).2).1]
        exact key file p hfile hd

theorem acc_of_built {X : Ext} {nodes : List NodeRow} {find : Hash → Option MetaData}
    (hsame : ∀ o, find o.id = some o → ∀ n ∈ nodes, n.gitId = Hash.toPlainStr o.id → o = metaOf X (nodeObj n)) {x : Hash} (hb : PackBuilt find x) :
    Acc (NodeChild nodes) x := by
  induction hb with
  | tree o items ho ht hd _ ih =>
    constructor
    rintro y ⟨n, hn, e1, e2, its, e3, i, hi, rfl⟩
    have e := hsame o ho n hn e1
    rw [nodeObj_tree e2] at e
    rw [e] at hd
    have hd : decodeTree n.data = .ok items := hd
    rw [e3] at hd
    cases hd
    exact ih i hi
  | blob o ho ht =>
    constructor
    rintro y ⟨n, hn, e1, e2, _⟩
    have e := hsame o ho n hn e1
    rw [nodeObj_tree e2] at e
    rw [e] at ht
    cases ht

theorem run_acyclic (P : ServerExt) (h : List (Moment × HttpReq)) (hag : Spec.PushesAgree P h) (t : Hash) : Acc (NodeChild (runServer P .empty h).db.nodes) t := by
  have hr := rows_pushed P _ h rfl
  by_cases ht : ∃ n ∈ (runServer P .empty h).db.nodes, n.gitId = Hash.toPlainStr t
  · obtain ⟨n, hn, e⟩ := ht
    obtain ⟨a, p, h1, _, x, e2, h3⟩ := hr n hn
    have ex : x = t := Hash.toPlainStr_injective (by rw [← e2, e])
    subst ex
    refine acc_of_built (X := P.X) (fun o ho m hm em => ?_) h3
    obtain ⟨b, q, g1, ⟨o', g2, g3, g4, _⟩, _⟩ := hr m hm
    rw [← g3]
    exact hag p q a b h1 g1 o o' ho g2 (Hash.toPlainStr_injective (by rw [← em, g4]))
  · constructor
    rintro y ⟨n, hn, e1, _⟩
    exact absurd ⟨n, hn, e1⟩ ht

/-- **C91** After any requests to a server that started empty, whatever was pushed to whatever paths, and whether the pushes succeeded or failed half-way: no stored directory contains
itself, and directories are not nested deeper than there are rows. -/
theorem C91_no_cycles (P : ServerExt) (h : List (Moment × HttpReq)) (hag : Spec.PushesAgree P h) (t : Hash) :
    ¬ Spec.ContainsItself (runServer P .empty h).db.nodes t ∧ NestedWithin (runServer P .empty h).db.nodes ((runServer P .empty h).db.nodes.length + 1) t := by
  have hac := run_acyclic P h hag t
  refine ⟨not_containsItself hac, nested_of_acyclic _ _ hac (Nat.lt_succ_of_le ?_)⟩
  have h1 : ((runServer P .empty h).db.nodes.map NodeRow.gitId).toFinset.card ≤ (runServer P .empty h).db.nodes.length := by
    have := List.toFinset_card_le ((runServer P .empty h).db.nodes.map NodeRow.gitId)
    rwa [List.length_map] at this
  exact Nat.le_trans (Finset.card_le_card (below_subset _ _)) h1

/-- **C91** Therefore every fetch ends, clone or not, for every path and whatever is asked for, once the stack has room for two more calls than there are rows: the storage code comes
back with a pack, an error or a panic. (What the pack contains: C49, C50.) -/
theorem C91_fetch_ends (P : ServerExt) (hfold : ∀ a b : Hash, P.D.fold (Hash.toPlainStr a) = P.D.fold (Hash.toPlainStr b) → a = b)
    (h : List (Moment × HttpReq)) (hag : Spec.PushesAgree P h) (E : SqlExt) (hE : E.fold = P.D.fold) (fuel : Nat) (hfuel : (runServer P .empty h).db.nodes.length + 2 ≤ fuel)
    (path : Bytes) (want have_ : List Bytes) :
    (getFullPack P.X E fuel (runServer P .empty h).db path).halts ∧ (getIncPack P.X E fuel (runServer P .empty h).db path want have_).halts := by
  have hid : ∀ n ∈ (runServer P .empty h).db.nodes, ∃ x, n.gitId = Hash.toPlainStr x := by
    intro n hn
    obtain ⟨_, _, _, _, x, e, _⟩ := rows_pushed P _ h rfl n hn
    exact ⟨x, e⟩
  obtain ⟨f, rfl⟩ : ∃ f, fuel = f + 1 := ⟨fuel - 1, by omega⟩
  rw [← hE] at hfold
  have hn : ∀ t, NestedWithin (runServer P .empty h).db.nodes f t := fun t => ((C91_no_cycles P h hag t).2).mono (by omega)
  exact ⟨getFullPack_halts hid hfold hn path, getIncPack_halts hid hfold hn path want have_⟩

/-- **C78 (partial)** Every clone request for a URL for whose path some commit is stored is answered, with a pack of exactly the objects of the repository, provided only
that the stack has room for as many calls as there are rows. (Missing from the full claim: as in `C78_clone_answered_partial`; a path without commits, see `C49_empty_clone_false`.) -/
theorem C78_clone_stack_partial (P : ServerExt) (hfold : ∀ a b : Hash, P.D.fold (Hash.toPlainStr a) = P.D.fold (Hash.toPlainStr b) → a = b)
    (u g : Bytes) (hu : Spec.CleanUrl u) (hg : g = [] ∨ g = ascii ".git") (h : List (Moment × HttpReq)) (m : Moment)
    (hfl : Spec.SameFold P.D.fold h) (hm : m.sql.fold = P.D.fold) (hab : Spec.NoneAbove P.D.fold u h)
    (hun : UniqueIds P.X (runServer P .empty h).db) (hfit : FitsPack P.X (runServer P .empty h).db)
    (hfuel : (runServer P .empty h).db.nodes.length ≤ m.fuel) (hne : commitsAt P.D.fold (runServer P .empty h).db.commits u ≠ [])
    (hord : ∀ l x, x ∈ m.ord l ↔ x ∈ l) (hcut : Spec.CutOk m.cut) (ls : List Spec.ReqLine) (t rest : Bytes) (hr : Spec.CloneReq ls t) :
    ∃ out file ms, (serve P m (runServer P .empty h) (Spec.fetchReq (u ++ g) (doneBody ls t rest))).1 = .reply (.ok (.bytes out)) ∧
      Spec.readClone out = some file ∧ PackHas P.X file ms ∧ ∀ o, o ∈ ms ↔ ∃ x, InRepo P.D.fold (runServer P .empty h).db u x ∧ o = metaOf P.X x :=
  C78_clone_answered_partial P hfold u g hu hg h m hfl hm hab hun hfit
    (fun _ hr' _ hc => (storeRun_inv (run_store P u _ h rfl hfl hab) hun).nested hr' hc hfuel) hne hord hcut ls t rest hr

/-- **C81 (partial)** The same for a clone that overlaps with any pushes and discoveries (see `C81_snapshot_partial`). -/
theorem C81_snapshot_stack_partial (X : Ext) (fold : Bytes → Bytes) (hfold : ∀ a b : Hash, fold (Hash.toPlainStr a) = fold (Hash.toPlainStr b) → a = b)
    (R : Bytes → Prop) (W : Pack → RefCommand → Prop) (path : Bytes) (hR : ∀ a q, R a → R q → fold q = fold path → pathStartsWith q a = true → a = q)
    (V : Nat → SqlExt × Sys) (last : Sys) (hV : ∀ k, (V k).1.fold = fold)
    (h0 : SysRun X (fun E => E.fold = fold) R W Sys.empty (V 0).2) (hnext : ∀ k, SysRun X (fun E => E.fold = fold) R W (V k).2 (V (k + 1)).2)
    (hlast : ∀ k, SysRun X (fun E => E.fold = fold) R W (V k).2 last)
    (hu : UniqueIds X last.db) (hfit : FitsPack X last.db) (fuel : Nat) (hfuel : last.db.nodes.length ≤ fuel)
    (hne : commitsAt fold (V 0).2.db.commits path ≠ []) :
    ∃ file ms, getFullPackL X (fun k => ((V k).1, (V k).2.db)) fuel path = .ok file ∧ PackHas X file ms ∧
      ∀ m, m ∈ ms ↔ ∃ o, InRepo fold (V 0).2.db path o ∧ m = metaOf X o := by
  refine C81_snapshot_partial X fold hfold R W path hR V last hV h0 hnext hlast hu hfit fuel (fun r hr c hc => ?_) hne
  have invl := sysRun_inv (fun E h => h) hR (sysInv_empty X fold R path) (h0.trans (hlast 0))
  obtain ⟨q1, q2⟩ := commitsAt_mem.1 hr
  exact (invl.store hu).1.nested (commitsAt_mem.2 ⟨(sysRun_extends (hlast 0)).commits r q1, q2⟩) hc hfuel

/-- **C91** A pack in which a directory reachable from a commit contains itself is refused, however much room the stack has: the push never succeeds, and nothing is stored. -/
theorem C91_refused {X : Ext} {St : ObjectSource} {file : Bytes} {fuel0 : Nat} {p : Pack} (hdec : decodePack X St fuel0 file = .ok p)
    (o : MetaData) (items : List TreeItem) (i : TreeItem) (hr : Spec.PackReach p.result.hashObject o.id) (ho : p.result.hashObject o.id = some o) (ht : o.t = .tree)
    (hd : decodeTree o.data = .ok items) (hi : i ∈ items) (hself : Spec.PackBelow p.result.hashObject i.id o.id)
    (E : SqlExt) (fuel : Nat) (path : Bytes) (db : Db) :
    (savePackfile E fuel p path db).1 ≠ .ok () ∧ (savePackfile E fuel p path db).2 = db := by
  have child : PackChild p.result.hashObject i.id o.id := ⟨o, ho, rfl, ht, items, hd, i, hi, rfl⟩
  have below : ∀ {a b : Hash}, Spec.PackBelow p.result.hashObject a b → a = b ∨ Relation.TransGen (PackChild p.result.hashObject) b a := by
    intro a b h
    induction h with
    | refl => exact .inl rfl
    | item o items i _ h1 h2 h3 h4 ih =>
      have hc : PackChild p.result.hashObject i.id o.id := ⟨o, h1, rfl, h2, items, h3, i, h4, rfl⟩
      rcases ih with e | ih
      · rw [e]; exact .inr (.single hc)
      · exact .inr (.head hc ih)
  have cycle : Relation.TransGen (PackChild p.result.hashObject) o.id o.id := by
    rcases below hself with e | h
    · rw [e] at child; exact .single child
    · exact .tail h child
  have self : ∀ x, Acc (Relation.TransGen (PackChild p.result.hashObject)) x → ¬ Relation.TransGen (PackChild p.result.hashObject) x x := by
    intro x hx
    induction hx with
    | intro x _ ih => exact fun h => ih x h h
  unfold savePackfile
  cases hp : E.pool p.result with
  | ok D =>
    have hH : D.Holds p.result := C36_each_object_once hdec (by have := E.pool_outcome p.result; rwa [hp] at this)
    simp only
    cases hb : buildNodeTree fuel D with
    | ok rows =>
      have acc : ∀ x, Spec.PackReach p.result.hashObject x → Acc (PackChild p.result.hashObject) x := by
        intro x hx
        induction hx with
        | commit o c ho ht hd =>
          obtain ⟨co, hm, e⟩ := List.mem_map.1 ((hH.commits o).2 ⟨ht, ho⟩)
          have := hH.commitFields co hm
          rw [e, hd] at this
          cases this
          exact buildNodeTree_acyclic hH hb co hm
        | item o items i _ h1 h2 h3 h4 ih => exact ih.inv ⟨o, h1, rfl, h2, items, h3, i, h4, rfl⟩
      exact absurd cycle (self _ (acc _ hr).transGen)
    | _ => exact ⟨(nomatch ·), rfl⟩
  | _ => exact ⟨(nomatch ·), rfl⟩

end Gust

import Verif.Lemmas.LiveInc
import Verif.Props.Nesting
import Verif.Props.ConcurrentExamples

/-! # C107: fetches of some commits that overlap with other requests -/

namespace Gust

open Spec (nodeObj StoreReach commitsAt InRepo)

/-! A fetch during which nothing is written is the function of `Model/Storage.lean`. -/

theorem incLoop_const (X : Ext) (E : SqlExt) (db : Db) (fuel : Nat) (want : List Bytes) : ∀ (rs : List CommitRow) (hm : HashMeta) (k : Nat),
    Prod.fst <$> incLoopL X (fun _ => (E, db)) fuel want rs hm k = incLoop X E db fuel want rs hm
  | [], _, _ => rfl
  | r :: rs, hm, k => by
    rw [incLoop, incLoopL]
    cases MetaData.new X .commit r.data with
    | ok m =>
      rw [Res.bind_ok, Res.bind_ok]
      by_cases hw : Hash.toPlainStr m.id ∈ want
      · rw [if_pos hw, if_pos hw]
        cases (Commit.decode m.data).unwrap with
        | ok c =>
          rw [Res.bind_ok, Res.bind_ok]
          cases h : getNodeById E db (Hash.toPlainStr c.treeId) with
          | none => rfl
          | some root =>
            simp only
            rw [← getChildTrees_const X E db fuel root hm (k + 1)]
            cases getChildTreesL X (fun _ => (E, db)) fuel root hm (k + 1) with
            | ok a => exact incLoop_const X E db fuel want rs a.1 a.2
            | _ => rfl
        | _ => rfl
      · rw [if_neg hw, if_neg hw]
        exact incLoop_const X E db fuel want rs hm k
    | _ => rfl

theorem getIncPack_const (X : Ext) (E : SqlExt) (db : Db) (fuel : Nat) (path : Bytes) (want have_ : List Bytes) :
    getIncPackL X (fun _ => (E, db)) fuel path want have_ = getIncPack X E fuel db path want have_ := by
  have h : Prod.fst <$> incObjectsL X (fun _ => (E, db)) fuel path want have_ = incObjects X E fuel db path want have_ := incLoop_const X E db fuel want _ [] 1
  rw [getIncPack, getIncPackL, ← h]
  cases incObjectsL X (fun _ => (E, db)) fuel path want have_ <;> rfl

/-- What is reachable from the trees of the wanted commits is stored. -/
theorem belowWanted_stored {X : Ext} {fold : Bytes → Bytes} {db : Db} {path : Bytes} {want : List Bytes} {o : Spec.Obj} (h : BelowWanted X fold db path want o) : StoredObj db o := by
  obtain ⟨_, _, _, n, _, _, _, _, hn, _⟩ := h
  exact .inl ⟨n, hn, rfl⟩

/-! ## C107 -/

/-- What the queries of the fetch see, and what was collected. -/
theorem incL_good (X : Ext) (fold : Bytes → Bytes) (hfold : ∀ a b : Hash, fold (Hash.toPlainStr a) = fold (Hash.toPlainStr b) → a = b)
    (R : Bytes → Prop) (W : Pack → RefCommand → Prop) (path : Bytes) (hR : ∀ a q, R a → R q → fold q = fold path → pathStartsWith q a = true → a = q)
    (V : Nat → SqlExt × Sys) (last : Sys) (hV : ∀ k, (V k).1.fold = fold)
    (h0 : SysRun X (fun E => E.fold = fold) R W Sys.empty (V 0).2) (hnext : ∀ k, SysRun X (fun E => E.fold = fold) R W (V k).2 (V (k + 1)).2)
    (hlast : ∀ k, SysRun X (fun E => E.fold = fold) R W (V k).2 last) (hu : UniqueIds X last.db) :
    Views (V 0).1 (V 0).2.db last.db (fun k => ((V k).1, (V k).2.db)) ∧ StoreOk X (V 0).1 last.db ∧ StoreInv X (V 0).1.fold path (V 0).2.db ∧ StoreInv X fold path last.db := by
  have hlo : ∀ k, SysRun X (fun E => E.fold = fold) R W (V 0).2 (V k).2 := by
    intro k
    induction k with
    | zero => exact .refl _
    | succ k ih => exact ih.trans (hnext k)
  have ext := sysRun_extends (hlast 0)
  have inv0 := sysRun_inv (fun E h => h) hR (sysInv_empty X fold R path) h0
  have invl := sysRun_inv (fun E h => h) hR inv0 (hlast 0)
  have sil := (invl.store hu).1
  exact ⟨⟨fun k => sysRun_extends (hlo k), fun k => sysRun_extends (hlast k), fun k => by rw [hV 0]; exact hV k⟩,
    ⟨sil.type, sil.id, hu, by rw [hV 0]; exact hfold, sil.tree⟩, by rw [hV 0]; exact (inv0.store (ext.unique hu)).1, sil⟩

/-- **C107 (partial)** A fetch of some commits, one of them stored for the path when the fetch begins to read, that overlaps with any number of pushes and discoveries, of this and
other repositories, with any interleaving of their statements, succeeds and contains exactly what was reachable from the trees of the wanted commits at the moment of its first
query. `V k`: database behaviour and state at the `k`-th query; `last`: the state in the end. `hR`: no request names a directory above the path (see C55). `hfuel`: the stack has room
for as many calls as there are rows. (Missing from the full claim: the wanted commits themselves, see `C107_no_commit_false`.) -/
theorem C107_snapshot_partial (X : Ext) (fold : Bytes → Bytes) (hfold : ∀ a b : Hash, fold (Hash.toPlainStr a) = fold (Hash.toPlainStr b) → a = b)
    (R : Bytes → Prop) (W : Pack → RefCommand → Prop) (path : Bytes) (hR : ∀ a q, R a → R q → fold q = fold path → pathStartsWith q a = true → a = q)
    (V : Nat → SqlExt × Sys) (last : Sys) (hV : ∀ k, (V k).1.fold = fold)
    (h0 : SysRun X (fun E => E.fold = fold) R W Sys.empty (V 0).2) (hnext : ∀ k, SysRun X (fun E => E.fold = fold) R W (V k).2 (V (k + 1)).2)
    (hlast : ∀ k, SysRun X (fun E => E.fold = fold) R W (V k).2 last)
    (hu : UniqueIds X last.db) (hfit : FitsPack X last.db) (fuel : Nat) (hfuel : last.db.nodes.length ≤ fuel) (want have_ : List Bytes)
    (r : CommitRow) (hr : r ∈ commitsAt fold (V 0).2.db.commits path) (hw : Hash.toPlainStr (idOf X (.commit, r.data)) ∈ want) :
    ∃ file ms, getIncPackL X (fun k => ((V k).1, (V k).2.db)) fuel path want have_ = .ok file ∧ PackHas X file ms ∧
      ∀ m, m ∈ ms ↔ ∃ o, BelowWanted X fold (V 0).2.db path want o ∧ m = metaOf X o := by
  obtain ⟨views, hS, si0, sil⟩ := incL_good X fold hfold R W path hR V last hV h0 hnext hlast hu
  have ext := sysRun_extends (hlast 0)
  have memc : ∀ r, r ∈ commitsByPath (V 0).1 (V 0).2.db path ↔ r ∈ commitsAt fold (V 0).2.db.commits path := by
    intro r
    rw [mem_commitsByPath, hV 0]
  obtain ⟨⟨hm, k⟩, h1⟩ : ∃ q, incObjectsL X (fun k => ((V k).1, (V k).2.db)) fuel path want have_ = .ok q := by
    refine incLoopL_total hS views fuel want _ [] 1 (fun r hr => ?_)
    have hr := (memc r).1 hr
    obtain ⟨c, g1, g2, _⟩ := si0.commits r (by rw [hV 0]; exact hr)
    obtain ⟨q1, q2⟩ := commitsAt_mem.1 hr
    exact ⟨c, g1, fun _ => sil.nested (commitsAt_mem.2 ⟨ext.commits r q1, q2⟩) g1 hfuel, g2⟩
  obtain ⟨h2, h3⟩ := incObjectsL_ok (V := fun k => ((V k).1, (V k).2.db)) views hS si0 h1
  rw [hV 0] at h3
  have hg : Good X last.db hm := good_of_entries h2 _ (fun o ho => ext.stored (belowWanted_stored ho)) h3
  have hne' : hm ≠ [] := by
    obtain ⟨c, hc, ⟨n, hn, e, _⟩, _⟩ := si0.commits r (by rw [hV 0]; exact hr)
    intro h
    have := (h3 _).2 ⟨_, .node r c _ n hr hw hc .refl hn e, rfl⟩
    rw [h] at this
    cases this
  obtain ⟨file, f1, ms, f2, f3⟩ := packOf_has (E := (V k).1) hu hfit hg hne'
  refine ⟨file, ms, by rw [getIncPackL, h1, Res.bind_ok]; exact f1, f2, fun m => ?_⟩
  rw [f3]
  constructor
  · rintro ⟨p, hp, rfl⟩
    obtain ⟨o, ho, rfl⟩ := (h3 p).1 hp
    exact ⟨o, ho, rfl⟩
  · rintro ⟨o, ho, rfl⟩
    exact ⟨_, (h3 _).2 ⟨o, ho, rfl⟩, rfl⟩

/-- **C107 (partial)** What a client was shown it can fetch: if every push names a commit of its own pack and inserts of commits do not fail, a client that has seen a ref of the
repository at some moment `s` and wants what it points at gets, however requests overlap, a pack that contains everything reachable from the tree of the commit named by the ref.
(Missing from the full claim: the commit, see `C107_no_commit_false`.) -/
theorem C107_shown_partial (X : Ext) (fold : Bytes → Bytes) (hfold : ∀ a b : Hash, fold (Hash.toPlainStr a) = fold (Hash.toPlainStr b) → a = b)
    (R : Bytes → Prop) (path : Bytes) (hR : ∀ a q, R a → R q → fold q = fold path → pathStartsWith q a = true → a = q)
    (s : Sys) (V : Nat → SqlExt × Sys) (last : Sys) (hV : ∀ k, (V k).1.fold = fold)
    (hs : SysRun X (fun E => E.fold = fold ∧ ∀ n b, E.acceptCommits n b = true) R OwnCommit Sys.empty s)
    (h0 : SysRun X (fun E => E.fold = fold) R OwnCommit s (V 0).2) (hnext : ∀ k, SysRun X (fun E => E.fold = fold) R OwnCommit (V k).2 (V (k + 1)).2)
    (hlast : ∀ k, SysRun X (fun E => E.fold = fold) R OwnCommit (V k).2 last)
    (hu : UniqueIds X last.db) (hfit : FitsPack X last.db) (fuel : Nat) (hfuel : last.db.nodes.length ≤ fuel)
    (ref : RefRow) (href : ref ∈ s.db.refs) (hpath : fold ref.repoPath = fold path) (want have_ : List Bytes) (hw : ref.refGitId ∈ want) :
    ∃ file ms c d, getIncPackL X (fun k => ((V k).1, (V k).2.db)) fuel path want have_ = .ok file ∧ PackHas X file ms ∧
      c ∈ commitsAt fold s.db.commits path ∧ Hash.toPlainStr (idOf X (.commit, c.data)) = ref.refGitId ∧ Commit.decode c.data = .ok d ∧
      ∀ x, StoreReach s.db.nodes d.treeId x → ∃ m ∈ ms, m.id = x := by
  have hs' : SysRun X (fun E => E.fold = fold) R OwnCommit Sys.empty s := hs.weaken fun _ h => h.1
  have ext0 := sysRun_extends h0
  have extl := sysRun_extends (h0.trans (hlast 0))
  obtain ⟨c, hc, _, rest⟩ := C84_refs_partial X fold R s hs ref href
  obtain ⟨e1, d, hd, hroot, hall⟩ := rest (fun a q ha hq e hp => hR a q ha hq (by rw [e, hpath]) hp) (extl.unique hu)
  obtain ⟨q1, q2⟩ := commitsAt_mem.1 hc
  have hc0 : c ∈ commitsAt fold (V 0).2.db.commits path := commitsAt_mem.2 ⟨ext0.commits c q1, by rw [q2, hpath]⟩
  obtain ⟨file, ms, f1, f2, f3⟩ := C107_snapshot_partial X fold hfold R OwnCommit path hR V last hV (hs'.trans h0) hnext hlast hu hfit fuel hfuel want have_ c hc0 (by rw [e1]; exact hw)
  refine ⟨file, ms, c, d, f1, f2, commitsAt_mem.2 ⟨q1, by rw [q2, hpath]⟩, e1, hd, fun x hx => ?_⟩
  obtain ⟨n, hn, e⟩ := hall x hx
  have inv := sysRun_inv (fun E h => h) hR (sysInv_empty X fold R path) hs'
  have hid := (inv.store (extl.unique hu)).1.id n hn
  have hx0 : StoreReach (V 0).2.db.nodes d.treeId x := StoreReach.mono ext0.nodes hx
  refine ⟨_, (f3 _).2 ⟨nodeObj n, .node c d x n hc0 (by rw [e1]; exact hw) hd hx0 (ext0.nodes n hn) e, rfl⟩, ?_⟩
  rw [hid] at e
  exact Hash.toPlainStr_injective e

/-- **C107 is false**: however requests overlap, no fetch of some commits ever sends a commit. -/
theorem C107_no_commit_false (X : Ext) (fold : Bytes → Bytes) (hfold : ∀ a b : Hash, fold (Hash.toPlainStr a) = fold (Hash.toPlainStr b) → a = b)
    (R : Bytes → Prop) (W : Pack → RefCommand → Prop) (path : Bytes) (hR : ∀ a q, R a → R q → fold q = fold path → pathStartsWith q a = true → a = q)
    (V : Nat → SqlExt × Sys) (last : Sys) (hV : ∀ k, (V k).1.fold = fold)
    (h0 : SysRun X (fun E => E.fold = fold) R W Sys.empty (V 0).2) (hnext : ∀ k, SysRun X (fun E => E.fold = fold) R W (V k).2 (V (k + 1)).2)
    (hlast : ∀ k, SysRun X (fun E => E.fold = fold) R W (V k).2 last)
    (hu : UniqueIds X last.db) (hfit : FitsPack X last.db) (fuel : Nat) (want have_ : List Bytes) (file : Bytes)
    (h : getIncPackL X (fun k => ((V k).1, (V k).2.db)) fuel path want have_ = .ok file) :
    ∃ ms, PackHas X file ms ∧ ∀ m ∈ ms, m.t ≠ .commit := by
  obtain ⟨views, hS, si0, sil⟩ := incL_good X fold hfold R W path hR V last hV h0 hnext hlast hu
  have ext := sysRun_extends (hlast 0)
  simp only [getIncPackL, Res.bind_eq_ok] at h
  obtain ⟨⟨hm, k⟩, h1, h4⟩ := h
  obtain ⟨h2, h3⟩ := incObjectsL_ok (V := fun k => ((V k).1, (V k).2.db)) views hS si0 h1
  have hg : Good X last.db hm := good_of_entries h2 _ (fun o ho => ext.stored (belowWanted_stored ho)) h3
  have hne : hm ≠ [] := by
    rintro rfl
    have : (V k).1.order (([] : HashMeta).map Prod.snd) = [] := ((V k).1.order_perm _).eq_nil
    simp only [packOf, this] at h4
    cases h4
  obtain ⟨file', f1, ms, f2, f3⟩ := packOf_has (E := (V k).1) hu hfit hg hne
  simp only at h4
  rw [h4] at f1
  obtain rfl := Res.ok.inj f1
  refine ⟨ms, f2, fun m hmm => ?_⟩
  obtain ⟨p, hp, rfl⟩ := (f3 m).1 hmm
  obtain ⟨o, ho, rfl⟩ := (h3 p).1 hp
  obtain ⟨_, _, _, n, _, _, _, _, _, _⟩ := ho
  show (nodeObj n).1 ≠ .commit
  unfold nodeObj
  split <;> simp

/-- **C107**, commits that come too late: if no wanted commit is stored for the path at the moment of the first query, the request dies, whatever is pushed while it is worked on. -/
theorem C107_too_late (X : Ext) (V : Nat → SqlExt × Db) (fuel : Nat) (path : Bytes) (want have_ : List Bytes)
    (h : ∀ r ∈ commitsAt (V 0).1.fold (V 0).2.commits path, Hash.toPlainStr (idOf X (.commit, r.data)) ∉ want) :
    getIncPackL X V fuel path want have_ = .panic := by
  have loop : ∀ (rs : List CommitRow) (hm : HashMeta) (k : Nat), (∀ r ∈ rs, Hash.toPlainStr (idOf X (.commit, r.data)) ∉ want) →
      incLoopL X V fuel want rs hm k = .ok (hm, k) := by
    intro rs
    induction rs with
    | nil => intros; rfl
    | cons r rs ih =>
      intro hm k hr
      rw [incLoopL, new_metaOf X (.commit, r.data) rfl, Res.bind_ok,
        if_neg (show Hash.toPlainStr (metaOf X (.commit, r.data)).id ∉ want from hr r (.head _))]
      exact ih hm k (fun r h => hr r (.tail _ h))
  have h2 : ((V 1).1.order (([] : HashMeta).map Prod.snd)) = [] := ((V 1).1.order_perm _).eq_nil
  rw [getIncPackL, incObjectsL, loop _ _ _ (fun r hr => h r ((mem_commitsByPath _ _ path r).1 hr)), Res.bind_ok]
  simp only [packOf, h2]
  rfl

/-- C107: a client that has seen the master of `/app` fetches what it points at while a push to `/other` is worked on: the first query is before that push, the others after. -/
example : ∃ (V : Nat → SqlExt × Sys) (fuel : Nat) (file : Bytes) (ms : List MetaData), (V 0).2.tasks = [some []] ∧
    (V 1).2.tasks = [some [], some (refActs appCreate (ascii "/other"))] ∧
    getIncPackL polyExt (fun k => ((V k).1, (V k).2.db)) fuel (ascii "/app") [appCmd.new] [] = .ok file ∧ PackHas polyExt file ms ∧
    ∃ m ∈ ms, m.id = appCommit.treeId := by
  obtain ⟨p, a, b, h1, h2, hobj, ha1, ha2, hrefs, hb1, hb2, _, objs, _⟩ := app_two
  have h2' := h2.weaken (Q' := fun E => E.fold = demoFold) fun E h => h.1
  let V : Nat → SqlExt × Sys := fun k => (demoSqlRev, if k = 0 then a else b)
  have to_b : ∀ k, SysRun polyExt (fun E => E.fold = demoFold) AppPaths OwnCommit (V k).2 b := by
    intro k
    by_cases hk : k = 0
    · subst hk; exact h2'
    · show SysRun polyExt _ _ _ (if k = 0 then a else b) b
      rw [if_neg hk]; exact .refl _
  obtain ⟨file, ms, c, d, f1, f2, f3, f4, f5, f6⟩ := C107_shown_partial polyExt demoFold demoFold_hash AppPaths (ascii "/app") (appPaths_above _) a V b (fun _ => rfl)
    (h1.weaken fun E h => h) (.refl _) (fun k => to_b k) to_b (app_unique objs) (app_fits objs) _ (Nat.le_refl _)
    { repoPath := ascii "/app", refName := ascii "refs/heads/master", refGitId := appCmd.new } (by rw [hrefs]; exact .head _) rfl [appCmd.new] [] (.head _)
  have ext := sysRun_extends h2'
  have hc : metaOf polyExt (.commit, c.data) = metaOf polyExt (.commit, appCommit.encode) :=
    List.inj_on_of_nodup_map appObjects_ids (objs _ (ext.stored (.inr ⟨c, (commitsAt_mem.1 f3).1, rfl⟩))) (by simp [appObjects, appThin])
      (Hash.toPlainStr_injective f4)
  have hdata : c.data = appCommit.encode := congrArg MetaData.data hc
  rw [hdata, appCommit_decode] at f5
  cases f5
  exact ⟨V, _, file, ms, ha2, hb2, f1, f2, f6 _ .refl⟩

end Gust

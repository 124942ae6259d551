import Verif.Lemmas.StoreRun
import Verif.Lemmas.Inc

/-! # C49, C50, C71, C72: what clone and fetch send -/

namespace Gust

open Spec (nodeObj StoreReach commitsAt InRepo)

/-- What a client finds in a pack: exactly these objects, each once. -/
def PackHas (X : Ext) (file : Bytes) (ms : List MetaData) : Prop :=
  ms.Nodup ∧ ∀ St fuel, ∃ pack, decodePack X St (fuel + 1) file = .ok pack ∧ pack.numberOfObjects = ms.length ∧
    ∀ h m, pack.result.hashObject h = some m ↔ m ∈ ms ∧ m.id = h

/-- The stored objects fit into one pack (the format has 32-bit counts and offsets). -/
def FitsPack (X : Ext) (db : Db) : Prop :=
  (∀ o, StoredObj db o → o.2.length < 2 ^ 61) ∧
  ∀ ms : List MetaData, ms.Nodup → (∀ m ∈ ms, ∃ o, StoredObj db o ∧ m = metaOf X o) → ms.length < 2 ^ 32 ∧ 12 + (encodeEntries X ms).length ≤ 2 ^ 32

theorem stored_base {db : Db} {o : Spec.Obj} (h : StoredObj db o) : o.1.isBase = true := by
  rcases h with ⟨n, _, rfl⟩ | ⟨c, _, rfl⟩
  · unfold nodeObj
    split <;> rfl
  · rfl

theorem packOf_has {X : Ext} {E : SqlExt} {db : Db} (hu : UniqueIds X db) (hfit : FitsPack X db) {hm : HashMeta} (hg : Good X db hm) (h0 : hm ≠ []) :
    ∃ file, packOf X E hm = .ok file ∧ ∃ ms, PackHas X file ms ∧ ∀ m, m ∈ ms ↔ ∃ p ∈ hm, p.2 = m := by
  set ms := E.order (hm.map Prod.snd) with hms
  have hperm : ms.Perm (hm.map Prod.snd) := E.order_perm _
  have hmem : ∀ m, m ∈ ms ↔ ∃ p ∈ hm, p.2 = m := fun m => by rw [hperm.mem_iff, List.mem_map]
  have hobj : ∀ m ∈ ms, ∃ o, StoredObj db o ∧ m = metaOf X o := by
    intro m hmm
    obtain ⟨p, hp, rfl⟩ := (hmem m).1 hmm
    obtain ⟨o, ho, rfl⟩ := hg.1 p hp
    exact ⟨o, ho, rfl⟩
  have hnd : ms.Nodup := by
    rw [hperm.nodup_iff]
    refine List.Nodup.of_map (fun m : MetaData => Hash.toPlainStr m.id) ?_
    rw [List.map_map]
    have : hm.map ((fun m : MetaData => Hash.toPlainStr m.id) ∘ Prod.snd) = hm.map Prod.fst := by
      apply List.map_congr_left
      intro p hp
      obtain ⟨o, _, rfl⟩ := hg.1 p hp
      rfl
    rw [this]
    exact hg.2
  obtain ⟨l1, l2⟩ := hfit.2 ms hnd hobj
  have rt := fun St fuel => C27_pack_roundtrip X St ms (by
      intro m hmm
      obtain ⟨o, ho, rfl⟩ := hobj m hmm
      exact new_metaOf X o (stored_base ho)) (by
      intro a ha b hb e
      obtain ⟨o, ho, rfl⟩ := hobj a ha
      obtain ⟨o', ho', rfl⟩ := hobj b hb
      rw [hu o o' ho ho' e]) (by
      intro m hmm
      obtain ⟨o, ho, rfl⟩ := hobj m hmm
      exact hfit.1 o ho) (by
      intro e
      rw [e] at hperm
      have := hperm.symm.eq_nil
      exact h0 (List.map_eq_nil_iff.1 this)) l1 l2 fuel
  obtain ⟨body, file, _, h1, _, _, _⟩ := rt (fun _ => none) 0
  refine ⟨file, ?_, ms, ⟨hnd, fun St fuel => ?_⟩, hmem⟩
  · rw [packOf, ← hms, h1]
    rfl
  · obtain ⟨body', file', pack, g1, _, g2, g3⟩ := rt St fuel
    rw [h1] at g1
    simp only [Res.ok.injEq, Prod.mk.injEq] at g1
    rw [← g1.2] at g2
    exact ⟨pack, g2, g3.count, g3.byId⟩

theorem good_of_entries {X : Ext} {db : Db} {hm : HashMeta} (hn : (hm.map Prod.fst).Nodup) (P : Spec.Obj → Prop) (hP : ∀ o, P o → StoredObj db o)
    (h : ∀ p, p ∈ hm ↔ ∃ o, P o ∧ p = entryOf X o) : Good X db hm :=
  ⟨fun p hp => by obtain ⟨o, ho, e⟩ := (h p).1 hp; exact ⟨o, hP o ho, e⟩, hn⟩

theorem inRepo_stored {fold : Bytes → Bytes} {db : Db} {path : Bytes} {o : Spec.Obj} (h : InRepo fold db path o) : StoredObj db o := by
  cases h with
  | commit r hr => exact .inr ⟨r, (commitsAt_mem.1 hr).1, rfl⟩
  | node r c h n _ _ _ hn _ => exact .inl ⟨n, hn, rfl⟩

/-- **C49 (partial)** After any history, whatever the database does: if at least one commit is stored for the path, a clone succeeds, and the
pack sent contains exactly the commits stored for the path and the trees and blobs reachable from them, each once, with their exact
content. `hu`: no SHA-1 collision among stored objects; `hfold`: the database tells different ids apart; `hdeep`: the recursion
is not deeper than `fuel` (which holds when there are at most `fuel` rows, see C91); `hfit`: limits of the pack format. (Missing from the full claim: a clone of a path without commits, see `C49_empty_clone_false`;
paths which the database takes for equal, see `C49_other_path_false`.) -/
theorem C49_clone_partial (X : Ext) (E : SqlExt) (path : Bytes) (db : Db) (hrun : StoreRun X E.fold path db) (hu : UniqueIds X db)
    (hfold : ∀ a b : Hash, E.fold (Hash.toPlainStr a) = E.fold (Hash.toPlainStr b) → a = b) (hfit : FitsPack X db)
    (fuel : Nat) (hdeep : ∀ r ∈ commitsAt E.fold db.commits path, ∀ c, Commit.decode r.data = .ok c → Spec.NestedWithin db.nodes fuel c.treeId)
    (hne : commitsAt E.fold db.commits path ≠ []) :
    ∃ file ms, getFullPack X E fuel db path = .ok file ∧ PackHas X file ms ∧
      (∀ m, m ∈ ms ↔ ∃ o, InRepo E.fold db path o ∧ m = metaOf X o) ∧
      (∀ r ∈ commitsAt E.fold db.commits path, ∃ c, Commit.decode r.data = .ok c ∧
        ∀ h, StoreReach db.nodes c.treeId h → ∃ m ∈ ms, m.id = h) := by
  obtain ⟨hS, hR⟩ := storeRun_ok hrun hu rfl hfold
  obtain ⟨hm, h1⟩ := fullObjects_total hS hR hdeep
  obtain ⟨h2, h3⟩ := fullObjects_ok hS hR h1
  have hg : Good X db hm := good_of_entries h2 _ (fun o ho => inRepo_stored ho) h3
  have h0 : hm ≠ [] := by
    obtain ⟨r, hr⟩ := List.exists_mem_of_ne_nil _ hne
    intro e
    have := (h3 _).2 ⟨_, .commit r hr, rfl⟩
    rw [e] at this
    cases this
  obtain ⟨file, f1, ms, f2, f3⟩ := packOf_has (E := E) hu hfit hg h0
  have hmem : ∀ m, m ∈ ms ↔ ∃ o, InRepo E.fold db path o ∧ m = metaOf X o := by
    intro m
    rw [f3]
    constructor
    · rintro ⟨p, hp, rfl⟩
      obtain ⟨o, ho, rfl⟩ := (h3 p).1 hp
      exact ⟨o, ho, rfl⟩
    · rintro ⟨o, ho, rfl⟩
      exact ⟨_, (h3 _).2 ⟨o, ho, rfl⟩, rfl⟩
  refine ⟨file, ms, by rw [getFullPack, h1, Res.bind_ok, f1], f2, hmem, ?_⟩
  intro r hr
  obtain ⟨c, k1, _, k3⟩ := (storeRun_inv hrun hu).commits r hr
  refine ⟨c, k1, fun h hh => ?_⟩
  obtain ⟨n, hn, e⟩ := k3 h hh
  refine ⟨_, (hmem _).2 ⟨_, .node r c h n hr k1 hh hn e, rfl⟩, ?_⟩
  rw [hS.id n hn] at e
  exact Hash.toPlainStr_injective e

/-- **C49 is false** for a repository without commits: the request dies. -/
theorem C49_empty_clone_false (X : Ext) (E : SqlExt) (fuel : Nat) (path : Bytes) (db : Db) (h : commitsAt E.fold db.commits path = []) :
    getFullPack X E fuel db path = .panic := by
  have h1 : commitsByPath E db path = [] := by
    have hp : (commitsByPath E db path).Perm (commitsAt E.fold db.commits path) := E.order_perm _
    rw [h] at hp
    exact hp.eq_nil
  have h2 : (E.order (([] : HashMeta).map Prod.snd)) = [] := (E.order_perm _).eq_nil
  have h3 : E.order (db.nodes.filter (fun n => ([] : List Bytes).any (fun k => E.fold n.gitId == E.fold k))) = [] := by
    have hp := E.order_perm (db.nodes.filter (fun n => ([] : List Bytes).any (fun k => E.fold n.gitId == E.fold k)))
    rw [show db.nodes.filter (fun n => ([] : List Bytes).any (fun k => E.fold n.gitId == E.fold k)) = [] by simp] at hp ⊢
    exact hp.eq_nil
  have h4 : fullObjects X E fuel db path = .ok [] := by
    rw [fullObjects, h1]
    show (nodesByIds E db []).bind _ = _
    unfold nodesByIds
    simp only
    rw [h3]
    rfl
  rw [getFullPack, h4, Res.bind_ok, packOf, h2]
  rfl

/-- A commit of a path that lists the same objects before and after rows were added. -/
theorem node_of_old {X : Ext} {fold : Bytes → Bytes} {path : Bytes} {db db' : Db} (inv : StoreInv X fold path db) (ext : Extends db db')
    (hsame : ∀ a ∈ db'.nodes, ∀ b ∈ db'.nodes, a.gitId = b.gitId → nodeObj a = nodeObj b) {r : CommitRow} (hr : r ∈ commitsAt fold db.commits path)
    {c : Commit} (hc : Commit.decode r.data = .ok c) {h : Hash} {n : NodeRow} (hre : StoreReach db'.nodes c.treeId h) (hn : n ∈ db'.nodes)
    (e : n.gitId = Hash.toPlainStr h) : InRepo fold db path (nodeObj n) := by
  obtain ⟨c', k1, _, k3⟩ := inv.commits r hr
  rw [hc] at k1
  cases k1
  have back := reach_back (X := X) ext.nodes hsame k3 hre
  obtain ⟨n0, hn0, e0⟩ := k3 h back
  rw [hsame n hn n0 (ext.nodes n0 hn0) (by rw [e, e0])]
  exact .node r c h n0 hr hc back hn0 e0

theorem inRepo_mono {fold : Bytes → Bytes} {path : Bytes} {db db' : Db} (ext : Extends db db') {o : Spec.Obj} (h : InRepo fold db path o) :
    InRepo fold db' path o := by
  have hm : ∀ r ∈ commitsAt fold db.commits path, r ∈ commitsAt fold db'.commits path := by
    intro r hr
    obtain ⟨a, b⟩ := commitsAt_mem.1 hr
    exact commitsAt_mem.2 ⟨ext.commits r a, b⟩
  cases h with
  | commit r hr => exact .commit r (hm r hr)
  | node r c h n hr hc hre hn e => exact .node r c h n (hm r hr) hc (Gust.StoreReach.mono ext.nodes hre) (ext.nodes n hn) e

/-- Rows are stored under the ids of their objects, so equal ids mean equal objects. -/
theorem same_of_inv {X : Ext} {fold : Bytes → Bytes} {path : Bytes} {db : Db} (inv : StoreInv X fold path db) (hu : UniqueIds X db) :
    ∀ a ∈ db.nodes, ∀ b ∈ db.nodes, a.gitId = b.gitId → nodeObj a = nodeObj b := by
  intro a ha b hb e
  rw [inv.id a ha, inv.id b hb] at e
  exact hu _ _ (.inl ⟨a, ha, rfl⟩) (.inl ⟨b, hb, rfl⟩) (Hash.toPlainStr_injective e)

/-- **C73** A push of any pack to one path, successful or not, does not change the repository at any other path: the objects a clone of the other path
gets are the same before and after. (Paths are different if the database takes them for different.) -/
theorem C73_isolated {X : Ext} {fold : Bytes → Bytes} {path : Bytes} {db : Db} (hrun : StoreRun X fold path db)
    (E : SqlExt) (hf : E.fold = fold) (fuel : Nat) (file : Bytes) (p : Pack) (hdec : decodePack X (getHashObject X E db) fuel file = .ok p) (repo : Bytes)
    (hne : fold repo ≠ fold path) (hu : UniqueIds X (savePackfile E fuel p repo db).2) (o : Spec.Obj) :
    InRepo fold (savePackfile E fuel p repo db).2 path o ↔ InRepo fold db path o := by
  obtain ⟨rows, h1, h2, h3, h4⟩ := push_effect hdec E fuel repo db
  have ext : Extends db (savePackfile E fuel p repo db).2 := ⟨fun n hn => by rw [h1]; exact List.mem_append_left _ hn, h3⟩
  have inv := storeRun_inv hrun (ext.unique hu)
  have inv' := storeRun_inv (.push E fuel file p repo db hrun hf hdec) hu
  have old : ∀ r ∈ commitsAt fold (savePackfile E fuel p repo db).2.commits path, r ∈ commitsAt fold db.commits path := by
    intro r hr
    obtain ⟨a, b⟩ := commitsAt_mem.1 hr
    rcases h4 r a with h | ⟨h, _⟩
    · exact commitsAt_mem.2 ⟨h, b⟩
    · rw [h] at b
      exact absurd b hne
  constructor
  · rintro (⟨r, hr⟩ | ⟨r, c, h, n, hr, hc, hre, hn, e⟩)
    · exact .commit r (old r hr)
    · exact node_of_old inv ext (same_of_inv inv' hu) (old r hr) hc hre hn e
  · exact inRepo_mono ext

/-- After a successful push: exactly what was there, the commits of the pack, and what is reachable from them. -/
theorem push_inRepo {X : Ext} {fold : Bytes → Bytes} {path : Bytes} {db db' : Db} (hrun : StoreRun X fold path db)
    (E : SqlExt) (hf : E.fold = fold) (hac : ∀ n rows, E.acceptCommits n rows = true) (fuel : Nat) (file : Bytes) (p : Pack)
    (hdec : decodePack X (getHashObject X E db) fuel file = .ok p) (hsave : savePackfile E fuel p path db = (.ok (), db'))
    (hu : UniqueIds X db') (o : Spec.Obj) :
    InRepo fold db' path o ↔ InRepo fold db path o ∨
      ∃ m, p.result.hashObject m.id = some m ∧ m = metaOf X o ∧ (m.t = .commit ∨ Spec.PackReach p.result.hashObject m.id) := by
  obtain ⟨rows, h1, h2, h3, h4⟩ := push_effect hdec E fuel path db
  have hrun' := StoreRun.push E fuel file p path db hrun hf hdec
  rw [hsave] at h1 h3 h4 hrun'
  simp only at h1 h3 h4 hrun'
  have ext : Extends db db' := ⟨fun n hn => by rw [h1]; exact List.mem_append_left _ hn, h3⟩
  have inv := storeRun_inv hrun (ext.unique hu)
  have inv' := storeRun_inv hrun' hu
  have hsame := same_of_inv inv' hu
  obtain ⟨D, rows', db0, p1, p2, p3, rfl⟩ := savePackfile_ok hsave
  have hH : D.Holds p.result := C36_each_object_once hdec (by have := E.pool_outcome p.result; rwa [p1] at this)
  obtain ⟨s1, s2, s3⟩ := saveNodes_ok p3
  obtain ⟨c1, c2, c3⟩ := saveCommits_eq E D.commits path db0
  have hcommits := c3 hac
  rw [s2] at hcommits
  obtain ⟨rows2, n1, _, n3, n4⟩ := C48_stored_partial hdec E fuel path db _ hsave
  obtain rfl : rows2 = rows := List.append_cancel_left (n1.symm.trans h1)
  obtain ⟨hist, ehist, hok⟩ := decodePack_hist hdec
  have objs : ∀ o, p.result.hashObject o.id = some o → metaOf X (o.t, o.data) = o := by
    intro o ho
    rw [ehist, PackCache.hashObject_run] at ho
    obtain ⟨q, hq, rfl⟩ := Option.map_eq_some_iff.1 ho
    exact (metaOf_of_new (hok q (PackCache.lastWith_some hq).1).2).2
  set db' := saveCommits E D.commits path db0 with hdb'
  have newCommit : ∀ m, p.result.hashObject m.id = some m → m.t = .commit → ∃ r ∈ commitsAt fold db'.commits path, r.data = m.data := by
    intro m hm ht
    obtain ⟨co, hco, e⟩ := List.mem_map.1 ((hH.commits m).2 ⟨ht, hm⟩)
    refine ⟨co.row path, commitsAt_mem.2 ⟨?_, rfl⟩, by rw [CommitObj.row, e]⟩
    rw [hcommits]
    exact List.mem_append_right _ (List.mem_map_of_mem hco)
  have packed : ∀ n ∈ rows2, ∃ m, p.result.hashObject m.id = some m ∧ m = metaOf X (nodeObj n) := by
    intro n hn
    obtain ⟨m, hm, e, _⟩ := h2 n hn
    exact ⟨m, hm, e⟩
  have up : ∀ x, Spec.PackReach p.result.hashObject x → ∃ r c, r ∈ commitsAt fold db'.commits path ∧ Commit.decode r.data = .ok c ∧
      StoreReach db'.nodes c.treeId x := by
    intro x hx
    induction hx with
    | commit m c hm ht hd =>
      obtain ⟨r, hr, e⟩ := newCommit m hm ht
      exact ⟨r, c, hr, by rw [e]; exact hd, .refl⟩
    | item m items i hre hm ht hd hi ih =>
      obtain ⟨r, c, hr, hc, hs⟩ := ih
      obtain ⟨n, hn, e⟩ := n4 m.id hre
      obtain ⟨m', hm', eg, ed, hty⟩ := n3 n hn
      have : m'.id = m.id := Hash.toPlainStr_injective (by rw [← eg, e])
      rw [this, hm] at hm'
      cases hm'
      rcases hty with ⟨_, hty⟩ | ⟨hb, _⟩
      · exact ⟨r, c, hr, hc, .item n m.id items i hs (by rw [h1]; exact List.mem_append_right _ hn) e hty (by rw [ed]; exact hd) hi⟩
      · rw [ht] at hb; cases hb
  constructor
  · rintro (⟨r, hr⟩ | ⟨r, c, h, n, hr, hc, hre, hn, e⟩)
    · obtain ⟨a, b⟩ := commitsAt_mem.1 hr
      rcases h4 r a with hold | ⟨_, _, m, c, hm, ht, hd, _⟩
      · exact .inl (.commit r (commitsAt_mem.2 ⟨hold, b⟩))
      · refine .inr ⟨m, hm, ?_, .inl ht⟩
        rw [← objs m hm, ht, hd]
    · obtain ⟨a, b⟩ := commitsAt_mem.1 hr
      rcases h4 r a with hold | ⟨_, hall, m, c', hm, ht, hd, hdc, _⟩
      · exact .inl (node_of_old inv ext hsame (commitsAt_mem.2 ⟨hold, b⟩) hc hre hn e)
      · rw [hd, hdc] at hc
        cases hc
        have reach : ∀ x, StoreReach db'.nodes c.treeId x → Spec.PackReach p.result.hashObject x := by
          intro x hx
          induction hx with
          | refl => exact .commit m c hm ht hdc
          | item n t items i _ g1 g2 g3 g4 g5 ih =>
            obtain ⟨n0, hn0, e0⟩ := hall t ih
            obtain ⟨o', ho', eo, eg, _⟩ := h2 n0 hn0
            have e := hsame n0 (by rw [h1]; exact List.mem_append_right _ hn0) n g1 (by rw [e0, g2])
            have et : o'.id = t := Hash.toPlainStr_injective (by rw [← eg, e0])
            rw [e, nodeObj_tree g3] at eo
            exact .item o' items i (by rw [et]; exact ih) ho' (by rw [eo]; rfl) (by rw [eo]; exact g4) g5
        obtain ⟨n0, hn0, e0⟩ := hall h (reach h hre)
        obtain ⟨o', ho', eo, eg, _⟩ := h2 n0 hn0
        have et : o'.id = h := Hash.toPlainStr_injective (by rw [← eg, e0])
        refine .inr ⟨o', ho', ?_, .inr (by rw [et]; exact reach h hre)⟩
        rw [eo, hsame n0 (by rw [h1]; exact List.mem_append_right _ hn0) n hn (by rw [e0, e])]
  · rintro (h | ⟨m, hm, em, hk⟩)
    · exact inRepo_mono ext h
    · have eo : ∀ o', metaOf X o' = m → o' = o := by
        intro o' e
        rw [em] at e
        have h1 := congrArg MetaData.t e
        have h2 := congrArg MetaData.data e
        exact Prod.ext h1 h2
      rcases hk with ht | hre
      · obtain ⟨r, hr, e⟩ := newCommit m hm ht
        rw [← eo (.commit, r.data) (by rw [e, ← ht]; exact objs m hm)]
        exact .commit r hr
      · obtain ⟨r, c, hr, hc, hs⟩ := up m.id hre
        obtain ⟨n, hn, e⟩ := n4 m.id hre
        obtain ⟨m', hm', em'⟩ := packed n hn
        obtain ⟨m2, hm2, em2, eg, _⟩ := h2 n hn
        have : m2.id = m.id := Hash.toPlainStr_injective (by rw [← eg, e])
        rw [this, hm] at hm2
        cases hm2
        rw [← eo (nodeObj n) em2.symm]
        exact .node r c m.id n hr hc hs (by rw [h1]; exact List.mem_append_right _ hn) e

/-- Whatever is sent for a clone, it is exactly the repository. -/
theorem clone_has {X : Ext} {fold : Bytes → Bytes} {path : Bytes} {db : Db} (hrun : StoreRun X fold path db) (hu : UniqueIds X db)
    (hfold : ∀ a b : Hash, fold (Hash.toPlainStr a) = fold (Hash.toPlainStr b) → a = b) (hfit : FitsPack X db)
    {E : SqlExt} (hf : E.fold = fold) {fuel : Nat} {file : Bytes} (h : getFullPack X E fuel db path = .ok file) :
    ∃ ms, PackHas X file ms ∧ ∀ m, m ∈ ms ↔ ∃ o, InRepo fold db path o ∧ m = metaOf X o := by
  obtain ⟨hS, hR⟩ := storeRun_ok hrun hu hf hfold
  simp only [getFullPack, Res.bind_eq_ok] at h
  obtain ⟨hm, h1, h4⟩ := h
  obtain ⟨h2, h3⟩ := fullObjects_ok hS hR h1
  have hg : Good X db hm := good_of_entries h2 _ (fun o ho => inRepo_stored ho) h3
  have h0 : hm ≠ [] := by
    rintro rfl
    have : E.order (([] : HashMeta).map Prod.snd) = [] := (E.order_perm _).eq_nil
    rw [packOf, this] at h4
    cases h4
  obtain ⟨file', f1, ms, f2, f3⟩ := packOf_has (E := E) hu hfit hg h0
  rw [h4] at f1
  obtain rfl := Res.ok.inj f1
  refine ⟨ms, f2, fun m => ?_⟩
  rw [f3, ← hf]
  constructor
  · rintro ⟨p, hp, rfl⟩
    obtain ⟨o, ho, rfl⟩ := (h3 p).1 hp
    exact ⟨o, ho, rfl⟩
  · rintro ⟨o, ho, rfl⟩
    exact ⟨_, (h3 _).2 ⟨o, ho, rfl⟩, rfl⟩

/-- **C73**, seen by clients: clones of another path before and after the push, when answered, contain the same objects. -/
theorem C73_clone_same {X : Ext} {fold : Bytes → Bytes} {path : Bytes} {db : Db} (hrun : StoreRun X fold path db)
    (hfold : ∀ a b : Hash, fold (Hash.toPlainStr a) = fold (Hash.toPlainStr b) → a = b)
    (E : SqlExt) (hf : E.fold = fold) (fuel : Nat) (pack : Bytes) (p : Pack) (hdec : decodePack X (getHashObject X E db) fuel pack = .ok p) (repo : Bytes)
    (hne : fold repo ≠ fold path) (hu : UniqueIds X (savePackfile E fuel p repo db).2) (hfit : FitsPack X (savePackfile E fuel p repo db).2)
    (E1 E2 : SqlExt) (hf1 : E1.fold = fold) (hf2 : E2.fold = fold) (fuel1 fuel2 : Nat) (file1 file2 : Bytes)
    (h1 : getFullPack X E1 fuel1 db path = .ok file1) (h2 : getFullPack X E2 fuel2 (savePackfile E fuel p repo db).2 path = .ok file2) :
    ∃ ms1 ms2, PackHas X file1 ms1 ∧ PackHas X file2 ms2 ∧ ms1.Perm ms2 := by
  obtain ⟨rows, e1, _, e3, _⟩ := push_effect hdec E fuel repo db
  have ext : Extends db (savePackfile E fuel p repo db).2 := ⟨fun n hn => by rw [e1]; exact List.mem_append_left _ hn, e3⟩
  have hfit1 : FitsPack X db := ⟨fun o ho => hfit.1 o (ext.stored ho), fun ms hn hm => hfit.2 ms hn (fun m h => by
    obtain ⟨o, ho, e⟩ := hm m h
    exact ⟨o, ext.stored ho, e⟩)⟩
  obtain ⟨ms1, a1, a2⟩ := clone_has hrun (ext.unique hu) hfold hfit1 hf1 h1
  obtain ⟨ms2, b1, b2⟩ := clone_has (.push E fuel pack p repo db hrun hf hdec) hu hfold hfit hf2 h2
  refine ⟨ms1, ms2, a1, b1, (List.perm_ext_iff_of_nodup a1.1 b1.1).2 fun m => ?_⟩
  rw [a2, b2]
  constructor
  · rintro ⟨o, ho, e⟩
    exact ⟨o, (C73_isolated hrun E hf fuel pack p hdec repo hne hu o).2 ho, e⟩
  · rintro ⟨o, ho, e⟩
    exact ⟨o, (C73_isolated hrun E hf fuel pack p hdec repo hne hu o).1 ho, e⟩

/-- **C71** After any history of pushes, also failed and half-way ones, and with any inserts lost: every commit stored for a path can be read, and everything
reachable from it is stored, readable and under its own id. (Looking up HEAD of a directory below the path may add a commit without a tree, see C55, so histories
look up HEAD of other paths only, or of this one when nothing is generated for it.) -/
theorem C71_complete {X : Ext} {fold : Bytes → Bytes} {path : Bytes} {db : Db} (hrun : StoreRun X fold path db) (hu : UniqueIds X db) :
    ∀ r ∈ commitsAt fold db.commits path, ∃ c, Commit.decode r.data = .ok c ∧
      (∃ n ∈ db.nodes, n.gitId = Hash.toPlainStr c.treeId ∧ n.nodeType = ascii "tree") ∧
      ∀ h, StoreReach db.nodes c.treeId h → ∃ n ∈ db.nodes, n.gitId = Hash.toPlainStr h ∧ idOf X (nodeObj n) = h ∧
        (n.nodeType = ascii "tree" ∧ (∃ items, decodeTree n.data = .ok items) ∨ n.nodeType = ascii "blob") := by
  have inv := storeRun_inv hrun hu
  intro r hr
  obtain ⟨c, h1, h2, h3⟩ := inv.commits r hr
  refine ⟨c, h1, h2, fun h hh => ?_⟩
  obtain ⟨n, hn, e⟩ := h3 h hh
  refine ⟨n, hn, e, ?_, ?_⟩
  · rw [inv.id n hn] at e
    exact Hash.toPlainStr_injective e
  · rcases inv.type n hn with ht | ht
    · exact .inl ⟨ht, inv.tree n hn ht⟩
    · exact .inr ht

/-- The storage after a push that got an answer. -/
theorem push_run {X : Ext} {E : SqlExt} {path repo : Bytes} {db : Db} (hrun : StoreRun X E.fold path db) {fuel : Nat} {c : Spec.PushCmd} (h : c.Ok)
    {caps : Bytes} (hc : caps.length ≤ 4000) (hu : ∀ x ∈ caps, x.toNat < 128) {pack : Bytes} (hp : (ascii "PACK").isPrefixOf pack = true)
    {out : Bytes} {st' : PushState Db}
    (hok : httpReceivePack (mysqlPush X E fuel) { caps := [], commands := [], path := repo, db := db } (Spec.pushBody c [] caps pack) = .ok (out, st')) :
    ∃ p db1, decodePack X (getHashObject X E db) fuel pack = .ok p ∧ savePackfile E fuel p repo db = (.ok (), db1) ∧
      st'.db.nodes = db1.nodes ∧ st'.db.commits = db1.commits ∧ StoreRun X E.fold path db1 ∧ StoreRun X E.fold path st'.db := by
  rw [push_answer _ repo db c h caps hc hu pack hp] at hok
  obtain ⟨p, db1, h1, h2, h3, _⟩ := receiveData_ok rfl (Res.unwrap_eq_ok.1 hok)
  simp only at h1 h2 h3
  have r1 := StoreRun.push E fuel pack p repo db hrun rfl h1
  rw [h2] at r1
  have r2 := StoreRun.ref E { RefCommand.new c.old c.new (c.name ++ [0]) with ok := true } repo db1 r1 rfl
  obtain ⟨k1, k2⟩ := handleRefs_only E { RefCommand.new c.old c.new (c.name ++ [0]) with ok := true } repo db1
  rw [h3] at r2 k1 k2
  exact ⟨p, db1, h1, h2, k1, k2, r1, r2⟩

theorem inRepo_congr {fold : Bytes → Bytes} {db db' : Db} (hn : db'.nodes = db.nodes) (hc : db'.commits = db.commits) {path : Bytes} {o : Spec.Obj} :
    InRepo fold db' path o ↔ InRepo fold db path o :=
  ⟨inRepo_mono ⟨fun n h => by rw [← hn]; exact h, fun n h => by rw [← hc]; exact h⟩,
    inRepo_mono ⟨fun n h => by rw [hn]; exact h, fun n h => by rw [hc]; exact h⟩⟩

/-- **C72 (partial)** What is pushed comes back: after any history, if a push of one ref is answered (and the database accepts the inserts of commits), then whenever a clone
of the path is answered, with whatever order and timing, the pack sent contains exactly: what a clone would have contained before, the pushed commits, and the
pushed trees and blobs reachable from a pushed commit. (Missing from the full claim: annotated tags, see `C72_tags_lost_false`; failing inserts of commits, see C26.) -/
theorem C72_push_then_clone_partial (X : Ext) (E : SqlExt) (path : Bytes) (db : Db) (hrun : StoreRun X E.fold path db)
    (hfold : ∀ a b : Hash, E.fold (Hash.toPlainStr a) = E.fold (Hash.toPlainStr b) → a = b)
    (fuel : Nat) (c : Spec.PushCmd) (h : c.Ok) (caps : Bytes) (hc : caps.length ≤ 4000) (hu : ∀ x ∈ caps, x.toNat < 128) (pack : Bytes)
    (hp : (ascii "PACK").isPrefixOf pack = true) (hac : ∀ n rows, E.acceptCommits n rows = true) (out : Bytes) (st' : PushState Db)
    (hok : httpReceivePack (mysqlPush X E fuel) { caps := [], commands := [], path := path, db := db } (Spec.pushBody c [] caps pack) = .ok (out, st'))
    (hun : UniqueIds X st'.db) (hfit : FitsPack X st'.db)
    (E' : SqlExt) (hf : E'.fold = E.fold) (fuel' : Nat) (file : Bytes) (hclone : getFullPack X E' fuel' st'.db path = .ok file) :
    ∃ p ms, decodePack X (getHashObject X E db) fuel pack = .ok p ∧ PackHas X file ms ∧
      ∀ m, m ∈ ms ↔ (∃ o, InRepo E.fold db path o ∧ m = metaOf X o) ∨
        (p.result.hashObject m.id = some m ∧ (m.t = .commit ∨ Spec.PackReach p.result.hashObject m.id)) := by
  obtain ⟨p, db1, h1, h2, h3, h4, r1, r2⟩ := push_run hrun h hc hu hp hok
  obtain ⟨ms, m1, m2⟩ := clone_has r2 hun hfold hfit hf hclone
  have hu1 : UniqueIds X db1 := Extends.unique ⟨fun n hn => by rw [h3]; exact hn, fun n hn => by rw [h4]; exact hn⟩ hun
  obtain ⟨hist, ehist, hok'⟩ := decodePack_hist h1
  have objs : ∀ o, p.result.hashObject o.id = some o → metaOf X (o.t, o.data) = o := by
    intro o ho
    rw [ehist, PackCache.hashObject_run] at ho
    obtain ⟨q, hq, rfl⟩ := Option.map_eq_some_iff.1 ho
    exact (metaOf_of_new (hok' q (PackCache.lastWith_some hq).1).2).2
  have key := push_inRepo hrun E rfl hac fuel pack p h1 h2 hu1
  refine ⟨p, ms, h1, m1, fun m => ?_⟩
  rw [m2]
  constructor
  · rintro ⟨o, ho, rfl⟩
    rcases (key o).1 ((inRepo_congr h3 h4).1 ho) with h | ⟨m, a, e, b⟩
    · exact .inl ⟨o, h, rfl⟩
    · subst e
      exact .inr ⟨a, b⟩
  · rintro (⟨o, ho, rfl⟩ | ⟨a, b⟩)
    · exact ⟨o, (inRepo_congr h3 h4).2 ((key o).2 (.inl ho)), rfl⟩
    · exact ⟨(m.t, m.data), (inRepo_congr h3 h4).2 ((key _).2 (.inr ⟨m, a, (objs m a).symm, b⟩)), (objs m a).symm⟩

theorem inRepo_kind {fold : Bytes → Bytes} {db : Db} {path : Bytes} {o : Spec.Obj} (h : InRepo fold db path o) : o.1 = .commit ∨ o.1 = .tree ∨ o.1 = .blob := by
  cases h with
  | commit r hr => exact .inl rfl
  | node r c h n _ _ _ hn _ =>
    unfold nodeObj
    split
    · exact .inr (.inl rfl)
    · exact .inr (.inr rfl)

/-- **C50 (partial)** What an incremental fetch sends: after any history, if one of the wanted commits is stored for the path, the fetch succeeds and the pack sent
contains exactly the trees and blobs reachable from the trees of the wanted commits that are stored for the path, each once. What the client says it has makes no difference.
(Missing from the full claim: the wanted commits themselves, see `C50_no_commit_sent_false`, and the commits between them and those the client has.) -/
theorem C50_sent_partial (X : Ext) (E : SqlExt) (path : Bytes) (db : Db) (hrun : StoreRun X E.fold path db) (hu : UniqueIds X db)
    (hfold : ∀ a b : Hash, E.fold (Hash.toPlainStr a) = E.fold (Hash.toPlainStr b) → a = b) (hfit : FitsPack X db)
    (fuel : Nat) (hdeep : ∀ r ∈ commitsAt E.fold db.commits path, ∀ c, Commit.decode r.data = .ok c → Spec.NestedWithin db.nodes fuel c.treeId)
    (want have_ : List Bytes) (r : CommitRow) (hr : r ∈ commitsAt E.fold db.commits path) (hw : Hash.toPlainStr (idOf X (.commit, r.data)) ∈ want) :
    ∃ file ms, getIncPack X E fuel db path want have_ = .ok file ∧ PackHas X file ms ∧
      ∀ m, m ∈ ms ↔ ∃ o, BelowWanted X E.fold db path want o ∧ m = metaOf X o := by
  obtain ⟨hS, hR⟩ := storeRun_ok hrun hu rfl hfold
  obtain ⟨hm, h1⟩ := incObjects_total hS hR hdeep want have_
  obtain ⟨h2, h3⟩ := incObjects_ok hS hR h1
  have hg : Good X db hm := good_of_entries h2 _ (fun o ho => by
    obtain ⟨_, _, _, n, _, _, _, _, hn, _⟩ := ho
    exact .inl ⟨n, hn, rfl⟩) h3
  have h0 : hm ≠ [] := by
    obtain ⟨c, hc, n, hn, e, _⟩ := hR r hr
    intro h
    have := (h3 _).2 ⟨_, .node r c _ n hr hw hc .refl hn e, rfl⟩
    rw [h] at this
    cases this
  obtain ⟨file, f1, ms, f2, f3⟩ := packOf_has (E := E) hu hfit hg h0
  refine ⟨file, ms, by rw [getIncPack, h1, Res.bind_ok, f1], f2, fun m => ?_⟩
  rw [f3]
  constructor
  · rintro ⟨p, hp, rfl⟩
    obtain ⟨o, ho, rfl⟩ := (h3 p).1 hp
    exact ⟨o, ho, rfl⟩
  · rintro ⟨o, ho, rfl⟩
    exact ⟨_, (h3 _).2 ⟨o, ho, rfl⟩, rfl⟩

/-- **C50 is false**: no incremental fetch, of whatever commits, ever sends a commit. -/
theorem C50_no_commit_sent_false (X : Ext) (E : SqlExt) (path : Bytes) (db : Db) (hrun : StoreRun X E.fold path db) (hu : UniqueIds X db)
    (hfold : ∀ a b : Hash, E.fold (Hash.toPlainStr a) = E.fold (Hash.toPlainStr b) → a = b) (hfit : FitsPack X db)
    (fuel : Nat) (want have_ : List Bytes) (file : Bytes) (h : getIncPack X E fuel db path want have_ = .ok file) :
    ∃ ms, PackHas X file ms ∧ ∀ m ∈ ms, m.t ≠ .commit := by
  obtain ⟨hS, hR⟩ := storeRun_ok hrun hu rfl hfold
  simp only [getIncPack, Res.bind_eq_ok] at h
  obtain ⟨hm, h1, h4⟩ := h
  obtain ⟨h2, h3⟩ := incObjects_ok hS hR h1
  have hg : Good X db hm := good_of_entries h2 _ (fun o ho => by
    obtain ⟨_, _, _, n, _, _, _, _, hn, _⟩ := ho
    exact .inl ⟨n, hn, rfl⟩) h3
  have h0 : hm ≠ [] := by
    rintro rfl
    have : E.order (([] : HashMeta).map Prod.snd) = [] := (E.order_perm _).eq_nil
    rw [packOf, this] at h4
    cases h4
  obtain ⟨file', f1, ms, f2, f3⟩ := packOf_has (E := E) hu hfit hg h0
  rw [h4] at f1
  obtain rfl := Res.ok.inj f1
  refine ⟨ms, f2, fun m hmm => ?_⟩
  obtain ⟨p, hp, rfl⟩ := (f3 m).1 hmm
  obtain ⟨o, ho, rfl⟩ := (h3 p).1 hp
  obtain ⟨_, _, _, n, _, _, _, _, _, _⟩ := ho
  show (nodeObj n).1 ≠ .commit
  unfold nodeObj
  split <;> simp

/-- **C50**, wants nobody knows: if no wanted commit is stored for the path, the request dies. -/
theorem C50_unknown_wants (X : Ext) (E : SqlExt) (fuel : Nat) (path : Bytes) (db : Db) (want have_ : List Bytes)
    (h : ∀ r ∈ commitsAt E.fold db.commits path, Hash.toPlainStr (idOf X (.commit, r.data)) ∉ want) :
    getIncPack X E fuel db path want have_ = .panic := by
  have loop : ∀ (rs : List CommitRow) (hm : HashMeta), (∀ r ∈ rs, Hash.toPlainStr (idOf X (.commit, r.data)) ∉ want) →
      incLoop X E db fuel want rs hm = .ok hm := by
    intro rs
    induction rs with
    | nil => intros; rfl
    | cons r rs ih =>
      intro hm hr
      rw [incLoop, new_metaOf X (.commit, r.data) rfl, Res.bind_ok,
        if_neg (show Hash.toPlainStr (metaOf X (.commit, r.data)).id ∉ want from hr r (.head _))]
      exact ih hm (fun r h => hr r (.tail _ h))
  have h2 : (E.order (([] : HashMeta).map Prod.snd)) = [] := (E.order_perm _).eq_nil
  rw [getIncPack, incObjects, loop _ _ (fun r hr => h r ((mem_commitsByPath E db path r).1 hr)), Res.bind_ok, packOf, h2]
  rfl

end Gust

import Verif.Props.Refined
import Verif.Props.Checkout
import Verif.Props.SubClone

/-! # C155: what can be cloned can be cloned for ever -/

namespace Gust

open Spec (nodeObj StoreReach commitsAt InRepo)

/-- What is reachable in a clone is reachable in the storage, hence part of the clone. -/
theorem clone_closed {X : Ext} {fold : Bytes → Bytes} {path : Bytes} {db : Db} (inv : StoreInv X fold path db) {find : Hash → Option MetaData}
    (hfind : ∀ h m, find h = some m ↔ (∃ o, InRepo fold db path o ∧ m = metaOf X o) ∧ m.id = h) (h : Hash) (hr : Spec.PackReach find h) :
    ∃ o, find o.id = some o ∧ o.id = h := by
  have reach : ∃ r c, r ∈ commitsAt fold db.commits path ∧ Commit.decode r.data = .ok c ∧ StoreReach db.nodes c.treeId h := by
    induction hr with
    | commit o c ho ht hd =>
      obtain ⟨⟨x, hx, rfl⟩, _⟩ := (hfind _ _).1 ho
      cases hx with
      | commit r hr => exact ⟨r, c, hr, hd, .refl⟩
      | node r c' y n hr hc hre hn e =>
        have ht : (if n.nodeType = ascii "tree" then ObjectType.tree else .blob) = .commit := ht
        split at ht <;> cases ht
    | item t items i _ ht h1 h2 h3 ih =>
      obtain ⟨r, c, q1, q2, q3⟩ := ih
      obtain ⟨⟨x, hx, rfl⟩, _⟩ := (hfind _ _).1 ht
      cases hx with
      | commit r hr => cases h1
      | node r' c' y n hr hc hre hn e =>
        have k : n.nodeType = ascii "tree" := by
          have h1 : (if n.nodeType = ascii "tree" then ObjectType.tree else .blob) = .tree := h1
          split at h1
          · assumption
          · cases h1
        exact ⟨r, c, q1, q2, .item n _ items i q3 hn (inv.id n hn) k h2 h3⟩
  obtain ⟨r, c, q1, q2, q3⟩ := reach
  obtain ⟨_, k1, _, k3⟩ := inv.commits r q1
  rw [q2] at k1
  cases k1
  obtain ⟨n, hn, hid⟩ := k3 h q3
  have e : (metaOf X (nodeObj n)).id = h := Hash.toPlainStr_injective ((inv.id n hn).symm.trans hid)
  exact ⟨metaOf X (nodeObj n), (hfind _ _).2 ⟨⟨_, .node r c h n q1 q2 q3 hn hid, rfl⟩, rfl⟩, e⟩

/-- A repository with a commit can be cloned, over HTTP and on every connection opened for it. -/
theorem clone_answers (P : ServerExt) (hfold : ∀ a b : Hash, P.D.fold (Hash.toPlainStr a) = P.D.fold (Hash.toPlainStr b) → a = b) (u : Bytes) (h : BothHist)
    (hf : Spec.SameFoldAny P.D.fold h) (hab : Spec.NoneAboveAny P.D.fold u h) (hu : UniqueIds P.X (runBoth P .empty h).web.db) (hfit : FitsPack P.X (runBoth P .empty h).web.db)
    (hne : commitsAt P.D.fold (runBoth P .empty h).web.db.commits u ≠ []) (m2 : Moment) (hm2 : m2.sql.fold = P.D.fold) (hfuel : (runBoth P .empty h).web.db.nodes.length ≤ m2.fuel)
    (hord : ∀ l x, x ∈ m2.ord l ↔ x ∈ l) (hcut : Spec.CutOk m2.cut) (ls : List Spec.ReqLine) (t rest : Bytes) (hr : Spec.CloneReq ls t) :
    ∃ out file ms, (∀ g, Spec.CleanUrl u → (g = [] ∨ g = ascii ".git") →
        (serve P m2 (runBoth P .empty h).web (Spec.fetchReq (u ++ g) (doneBody ls t rest))).1 = .reply (.ok (.bytes out))) ∧
      (∀ i ch, Spec.Opened P u i h → (sshStep P.X m2 (runBoth P .empty h).ssh i (.data ch (doneBody ls t rest))).1 = [(ch, out)]) ∧
      Spec.readClone out = some file ∧ PackHas P.X file ms ∧ ∀ m, m ∈ ms ↔ ∃ o, InRepo P.D.fold (runBoth P .empty h).web.db u o ∧ m = metaOf P.X o := by
  have hend := (runBoth_inv P u _ hf hab).2.2
  have inv := storeRun_inv hend hu
  have hdeep : ∀ r ∈ commitsAt P.D.fold (runBoth P .empty h).web.db.commits u, ∀ c, Commit.decode r.data = .ok c →
      Spec.NestedWithin (runBoth P .empty h).web.db.nodes m2.fuel c.treeId := fun _ hr' _ hc => inv.nested hr' hc hfuel
  have hend' := hend
  have hfold' := hfold
  rw [← hm2] at hend' hfold' hdeep hne
  obtain ⟨file0, _, c1, _⟩ := C49_clone_partial P.X m2.sql u _ hend' hu hfold' hfit m2.fuel hdeep hne
  obtain ⟨out, ho⟩ := httpUploadPack_ok (St := mysqlFetch P.X m2.sql m2.fuel (runBoth P .empty h).web.db u) (cut := m2.cut) (rest := rest) hord hr c1
  obtain ⟨file, f1, f2⟩ := httpUploadPack_clone hord hcut hr ho
  obtain ⟨ms, w1, w2⟩ := clone_has hend hu hfold hfit hm2 f1
  refine ⟨out, file, ms, fun g hg1 hg2 => ?_, fun i ch hop => ?_, f2, w1, w2⟩
  · simp only [serve, Spec.fetchReq, route_fetch hg1 hg2, ho, Res.outcome]
  · rw [opened_sent hop (fun l x => (hord l x).1), ho]
    refine if_neg ?_
    intro e
    have e : out = [] := e
    rw [e] at f2
    cases f2

/-- **C155 (partial)** What can be cloned can be cloned for ever: both servers run on one database that was empty at the start; anybody has done anything over HTTP and SSH; a clone request for a
repository is answered over HTTP or SSH; anybody does anything again, including pushes to the repository. Then a clone is answered over HTTP and on every connection opened for the repository, with the same
bytes; it can be read; it has every object of the earlier clone; and every commit of the earlier clone checks out to the same files, with the same modes and content, in both. If nobody sends a pack for the
repository in between, it has exactly the objects of the earlier clone. (Missing from the full claim: repositories above the path, see `C155_below_false`; objects with the same id, see C72; repositories too large for one
pack or nested deeper than the stack, see C91.) -/
theorem C155_stays_partial (P : ServerExt) (hfold : ∀ a b : Hash, P.D.fold (Hash.toPlainStr a) = P.D.fold (Hash.toPlainStr b) → a = b) (u : Bytes) (h h2 : BothHist)
    (hf : Spec.SameFoldAny P.D.fold (h ++ h2)) (hab : Spec.NoneAboveAny P.D.fold u (h ++ h2))
    (hu : UniqueIds P.X (runBoth P .empty (h ++ h2)).web.db) (hfit : FitsPack P.X (runBoth P .empty (h ++ h2)).web.db)
    (m1 : Moment) (hm1 : m1.sql.fold = P.D.fold) (hord1 : ∀ l x, x ∈ m1.ord l ↔ x ∈ l) (hcut1 : Spec.CutOk m1.cut)
    (ls : List Spec.ReqLine) (t rest out : Bytes) (hr : Spec.CloneReq ls t) (hfe : Spec.FetchedAny P u (doneBody ls t rest) out m1 h)
    (m2 : Moment) (hm2 : m2.sql.fold = P.D.fold) (hfuel : (runBoth P .empty (h ++ h2)).web.db.nodes.length ≤ m2.fuel)
    (hord2 : ∀ l x, x ∈ m2.ord l ↔ x ∈ l) (hcut2 : Spec.CutOk m2.cut) (ls' : List Spec.ReqLine) (t' rest' : Bytes) (hr' : Spec.CloneReq ls' t') :
    ∃ file ms out' file' ms', Spec.readClone out = some file ∧ PackHas P.X file ms ∧ (∃ x ∈ ms, x.t = .commit) ∧
      (∀ g, Spec.CleanUrl u → (g = [] ∨ g = ascii ".git") →
        (serve P m2 (runBoth P .empty (h ++ h2)).web (Spec.fetchReq (u ++ g) (doneBody ls' t' rest'))).1 = .reply (.ok (.bytes out'))) ∧
      (∀ i ch, Spec.Opened P u i (h ++ h2) → (sshStep P.X m2 (runBoth P .empty (h ++ h2)).ssh i (.data ch (doneBody ls' t' rest'))).1 = [(ch, out')]) ∧
      Spec.readClone out' = some file' ∧ PackHas P.X file' ms' ∧ (∀ x ∈ ms, x ∈ ms') ∧ (Spec.NoPack P u (runBoth P .empty h) h2 → ms.Perm ms') ∧
      ∀ St fuel St' fuel', ∃ p q, decodePack P.X St (fuel + 1) file = .ok p ∧ decodePack P.X St' (fuel' + 1) file' = .ok q ∧
        ∀ o ∈ ms, o.t = .commit → ∀ path mode data,
          Spec.CheckedOut p.result.hashObject o.id path mode data ↔ Spec.CheckedOut q.result.hashObject o.id path mode data := by
  have sub : ∀ x ∈ h, x ∈ h ++ h2 := fun x hx => List.mem_append_left _ hx
  have ext : Extends (runBoth P .empty h).web.db (runBoth P .empty (h ++ h2)).web.db := by
    rw [runBoth_append]
    exact runBoth_extends P _ _
  have hu1 := ext.unique hu
  have hrun := (runBoth_inv P u h (sameFoldAny_sub sub hf) (noneAboveAny_sub sub hab)).2.2
  obtain ⟨file, f1, f2⟩ := httpUploadPack_clone hord1 hcut1 hr (fetchedAny_http (fun l x => (hord1 l x).1) hfe)
  obtain ⟨ms, w1, w2⟩ := clone_has hrun hu1 hfold (hfit.mono ext) hm1 f1
  have hsome : ∃ r, r ∈ commitsAt P.D.fold (runBoth P .empty h).web.db.commits u := by
    cases e : commitsAt P.D.fold (runBoth P .empty h).web.db.commits u with
    | nil =>
      rw [← hm1] at e
      exact nomatch (C49_empty_clone_false P.X m1.sql m1.fuel u _ e).symm.trans f1
    | cons r l => exact ⟨r, .head _⟩
  obtain ⟨r, hr0⟩ := hsome
  have hne : commitsAt P.D.fold (runBoth P .empty (h ++ h2)).web.db.commits u ≠ [] := by
    obtain ⟨a, b⟩ := commitsAt_mem.1 hr0
    exact List.ne_nil_of_mem (commitsAt_mem.2 ⟨ext.commits r a, b⟩)
  obtain ⟨out', file', ms', r1, r2, r3, r4, r5⟩ := clone_answers P hfold u (h ++ h2) hf hab hu hfit hne m2 hm2 hfuel hord2 hcut2 ls' t' rest' hr'
  have more : ∀ x ∈ ms, x ∈ ms' := by
    intro x hx
    obtain ⟨o, h1, h2⟩ := (w2 x).1 hx
    exact (r5 x).2 ⟨o, inRepo_mono ext h1, h2⟩
  refine ⟨file, ms, out', file', ms', f2, w1, ⟨_, (w2 _).2 ⟨_, .commit r hr0, rfl⟩, rfl⟩, r1, r2, r3, r4, more, fun hno => ?_, fun St fuel St' fuel' => ?_⟩
  · obtain ⟨same, _⟩ := noPack_run h2 h hno hf hab hu
    refine (List.perm_ext_iff_of_nodup w1.1 r4.1).2 fun x => ?_
    rw [w2, r5]
    exact exists_congr fun o => and_congr_left fun _ => (same o).symm
  · obtain ⟨p, p1, _, p2⟩ := w1.2 St fuel
    obtain ⟨q, q1, _, q2⟩ := r4.2 St' fuel'
    refine ⟨p, q, p1, q1, fun o ho ht path mode data => ?_⟩
    refine CheckedOut.same (fun x _ hx => (q2 _ _).2 ⟨more x ((p2 _ _).1 hx).1, rfl⟩) ?_ ((p2 _ _).2 ⟨ho, rfl⟩) ht path mode data
    exact clone_closed (storeRun_inv hrun hu1) fun z y => by rw [p2, w2]

end Gust

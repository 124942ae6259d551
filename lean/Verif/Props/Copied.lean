import Verif.Props.Refined

/-! # C153: copying a repository -/

namespace Gust

/-! ## Lemmas -/

theorem contained_all {find : Hash → Option MetaData} (hs : Spec.SelfContained find) {h : Hash} (hr : Spec.PackReach find h) : ∃ o, find o.id = some o ∧ o.id = h := by
  cases hr with
  | commit o c ho ht hd =>
    obtain ⟨c', k1, t, k2, k3, _⟩ := hs.commits o ho ht
    rw [hd] at k1
    cases k1
    exact ⟨t, by rw [k3]; exact k2, k3⟩
  | item o items i hr ho ht hd hi =>
    obtain ⟨x, k1, k2, _⟩ := hs.items o items i hr ho ht hd hi
    exact ⟨x, by rw [k2]; exact k1, k2⟩

theorem below_back {find find' : Hash → Option MetaData} (hs : Spec.SelfContained find) (hsub : ∀ o, find o.id = some o → Spec.PackReach find o.id → find' o.id = some o) {r x : Hash}
    (hr : Spec.PackReach find r) (h : Spec.PackBelow find' r x) : Spec.PackReach find x ∧ Spec.PackBelow find r x := by
  induction h with
  | refl => exact ⟨hr, .refl⟩
  | item o items i hb hf ht hd hi ih =>
    obtain ⟨h1, h2⟩ := ih
    obtain ⟨y, y1, y2⟩ := contained_all hs h1
    have : y = o := by
      have k := hsub y y1 (by rw [y2]; exact h1)
      rw [y2, hf] at k
      exact (Option.some.inj k).symm
    subst this
    exact ⟨.item y items i h1 y1 ht hd hi, .item y items i h2 y1 ht hd hi⟩

/-- Complete projects taken together, without what is not reachable from commits, are a complete project. -/
theorem union_project {X : Ext} {ps : List (List (Nat × Spec.Obj))} (hps : ∀ os ∈ ps, Spec.Project X os) {os' : List (Nat × Spec.Obj)}
    (hos : ∀ m, Spec.found X os' m.id = some m ↔ ∃ os ∈ ps, Spec.Given X os m) : Spec.Project X os' := by
  have tree : ∀ o, Spec.found X os' o.id = some o → o.t = .tree → ∃ os ∈ ps, Spec.found X os o.id = some o ∧ Spec.PackReach (Spec.found X os) o.id := by
    intro o ho ht
    obtain ⟨os, h1, h2, h3⟩ := (hos o).1 ho
    rcases h3 with h3 | h3
    · rw [ht] at h3
      cases h3
    · exact ⟨os, h1, h2, h3⟩
  refine ⟨⟨?_, ?_, ?_, ?_, ?_, ?_⟩, ?_⟩
  · intro o ho
    obtain ⟨os, h1, h2, _⟩ := (hos o).1 ho
    exact (hps os h1).complete.kinds o h2
  · intro o ho ht
    obtain ⟨os, h1, h2, _⟩ := (hos o).1 ho
    obtain ⟨c, k1, t, k2, k3, k4⟩ := (hps os h1).complete.commits o h2 ht
    refine ⟨c, k1, t, ?_, k3, k4⟩
    rw [← k3] at k2 ⊢
    exact (hos t).2 ⟨os, h1, k2, .inr (by rw [k3]; exact .commit o c h2 ht k1)⟩
  · intro o ho ht
    obtain ⟨os, h1, h2, _⟩ := (hos o).1 ho
    exact (hps os h1).complete.trees o h2 ht
  · intro o ho ht
    obtain ⟨os, h1, h2, _⟩ := (hos o).1 ho
    exact (hps os h1).complete.tags o h2 ht
  · intro o items i _ ho ht hd hi
    obtain ⟨os, h1, h2, h3⟩ := tree o ho ht
    obtain ⟨x, k1, k2, k3⟩ := (hps os h1).complete.items o items i h3 h2 ht hd hi
    refine ⟨x, ?_, k2, k3⟩
    rw [← k2] at k1 ⊢
    exact (hos x).2 ⟨os, h1, k1, .inr (by rw [k2]; exact .item o items i h3 h2 ht hd hi)⟩
  · intro o items _ ho ht hd
    obtain ⟨os, h1, h2, h3⟩ := tree o ho ht
    exact (hps os h1).complete.names o items h3 h2 ht hd
  · intro o items i ho ht hd hi hb
    obtain ⟨os, h1, h2, h3⟩ := tree o ho ht
    exact (hps os h1).finite o items i h2 ht hd hi (below_back (hps os h1).complete (fun x x1 x2 => (hos x).2 ⟨os, h1, x1, .inr x2⟩) (.item o items i h3 h2 ht hd hi) hb).2

theorem published_projects {P : ServerExt} {u : Bytes} {h : BothHist} {ps : List (List (Nat × Spec.Obj))} {rs : List (Bytes × Bytes)} (hp : Spec.Published P u h ps rs) :
    ∀ os ∈ ps, Spec.Project P.X os := by
  induction hp with
  | nothing => exact fun _ h => nomatch h
  | others _ _ _ _ _ _ ih => exact ih
  | push _ _ _ _ _ _ _ _ _ os _ hpub _ ih =>
    intro x hx
    rcases List.mem_cons.1 hx with rfl | hx
    · exact hpub.project
    · exact ih x hx
  | fails _ _ _ _ _ _ _ _ _ _ _ _ ih => exact ih
  | stale _ _ _ _ _ _ _ _ os _ hpub _ ih =>
    intro x hx
    rcases List.mem_cons.1 hx with rfl | hx
    · exact hpub.project
    · exact ih x hx

/-! ## C153 -/

/-- **C153 (partial)** Repositories can be copied: a client clones a repository, over HTTP or SSH, after any history in which complete projects have been published to it. Whatever the client got, it can be
read. The client pushes these objects, packed in whatever way, over HTTP or SSH, to a path to which nothing has been pushed so far, of the same server or of another one, creating a branch. The push is
answered with `ok`; and whatever anybody does after that, except pushing to the copy, every clone of the copy has exactly the objects of the first clone. (Missing from the full claim: as for C152.) -/
theorem C153_copied_partial (P : ServerExt) (hfold : ∀ a b : Hash, P.D.fold (Hash.toPlainStr a) = P.D.fold (Hash.toPlainStr b) → a = b)
    (u : Bytes) (h : BothHist) (ps : List (List (Nat × Spec.Obj))) (rs : List (Bytes × Bytes)) (hp : Spec.Published P u h ps rs)
    (hf : Spec.SameFoldAny P.D.fold h) (hab : Spec.NoneAboveAny P.D.fold u h) (hu : UniqueIds P.X (runBoth P .empty h).web.db) (hfit : FitsPack P.X (runBoth P .empty h).web.db)
    (m : Moment) (hm : m.sql.fold = P.D.fold) (hord : ∀ l x, x ∈ m.ord l ↔ x ∈ l) (hcut : Spec.CutOk m.cut)
    (ls : List Spec.ReqLine) (t rest out : Bytes) (hr : Spec.CloneReq ls t) (hfe : Spec.FetchedAny P u (doneBody ls t rest) out m h) :
    ∃ file ms, Spec.readClone out = some file ∧ PackHas P.X file ms ∧ (∀ x, x ∈ ms ↔ ∃ os ∈ ps, Spec.Given P.X os x) ∧
      ∀ (u' : Bytes) (k k' k2 : BothHist) (m' : Moment) (c : Spec.PushCmd) (caps pack : Bytes) (os : List (Nat × Spec.Obj)),
        (∀ x, x ∈ ms ↔ ∃ q ∈ os, metaOf P.X q.2 = x) → Spec.NoPack P u' .empty k → c.Ok → c.old = zeroId → c.new ≠ zeroId → caps.length ≤ 4000 → (∀ x ∈ caps, x.toNat < 128) →
        Spec.Accepts m'.sql → Spec.PackOf P.X P.D.fold (runBoth P .empty k).web.db pack os → os.length < m'.fuel → Spec.SentAny P u' c caps pack m' k k' →
        Spec.NoPack P u' (runBoth P .empty k') k2 → Spec.SameFoldAny P.D.fold (k' ++ k2) → Spec.NoneAboveAny P.D.fold u' (k' ++ k2) →
        UniqueIds P.X (runBoth P .empty (k' ++ k2)).web.db → FitsPack P.X (runBoth P .empty (k' ++ k2)).web.db →
        (∃ rep, Spec.PushedAny P u' c caps pack rep m' k k' ∧
          Spec.reportLines (decide (.sideBand ∈ parseCapabilities caps ∨ .sideBand64k ∈ parseCapabilities caps)) rep =
            some [ascii "unpack ok\n", Spec.statusLine (c.name ++ [0]) none]) ∧
        ∀ (m2 : Moment) (ls' : List Spec.ReqLine) (t' rest' : Bytes), m2.sql.fold = P.D.fold → (runBoth P .empty (k' ++ k2)).web.db.nodes.length ≤ m2.fuel →
          (∀ l x, x ∈ m2.ord l ↔ x ∈ l) → Spec.CutOk m2.cut → Spec.CloneReq ls' t' →
          ∃ out' file' ms', (∀ g, Spec.CleanUrl u' → (g = [] ∨ g = ascii ".git") →
              (serve P m2 (runBoth P .empty (k' ++ k2)).web (Spec.fetchReq (u' ++ g) (doneBody ls' t' rest'))).1 = .reply (.ok (.bytes out'))) ∧
            (∀ i ch, Spec.Opened P u' i (k' ++ k2) → (sshStep P.X m2 (runBoth P .empty (k' ++ k2)).ssh i (.data ch (doneBody ls' t' rest'))).1 = [(ch, out')]) ∧
            Spec.readClone out' = some file' ∧ PackHas P.X file' ms' ∧ ms.Perm ms' := by
  obtain ⟨a1, _, _⟩ := published_inv hfold hp hf hab hu
  obtain ⟨file, f1, f2⟩ := httpUploadPack_clone hord hcut hr (fetchedAny_http (fun l x => (hord l x).1) hfe)
  obtain ⟨ms, w1, w2⟩ := clone_has (runBoth_inv P u _ hf hab).2.2 hu hfold hfit hm f1
  have hms : ∀ x, x ∈ ms ↔ ∃ os ∈ ps, Spec.Given P.X os x := by
    intro x
    rw [w2]
    constructor
    · rintro ⟨o, h1, rfl⟩
      exact (a1 o).1 h1
    · rintro ⟨os, h1, h2⟩
      obtain ⟨o, rfl⟩ := given_meta h2
      exact ⟨o, (a1 o).2 ⟨os, h1, h2⟩, rfl⟩
  refine ⟨file, ms, f2, w1, hms, ?_⟩
  intro u' k k' k2 m' c caps pack os hos hno hc hcreate hnew hcaps hascii hacc hpack hfuel hsent hno2 hf2 hab2 hu2 hfit2
  obtain ⟨v, e⟩ := sentAny_ends hsent
  have hfound : ∀ x, Spec.found P.X os x.id = some x ↔ x ∈ ms := fun x => by
    rw [found_iff hpack.ids, hos]
    simp
  have hproj : Spec.Project P.X os := union_project (published_projects hp) fun x => by rw [hfound, hms]
  have hpub : Spec.Publishes P u' k k' m' c caps pack os := ⟨hc, hcaps, hascii, hacc, hpack, hproj, hfuel, hsent⟩
  have p0 : Spec.Published P u' k [] [] := .others [] k [] [] .nothing hno
  have hmov : Spec.Moved P.D.fold c [] [(c.new, c.name)] := ⟨hnew, .inl ⟨hcreate, rfl⟩⟩
  have p1 : Spec.Published P u' (k' ++ k2) [os] [(c.new, c.name)] := .others k' k2 _ _ (.push k k' [] [] _ m' c caps pack os p0 hpub hmov) hno2
  have sub : ∀ x ∈ k', x ∈ k' ++ k2 := fun x hx => List.mem_append_left _ hx
  have ext : Extends (runBoth P .empty k).web.db (runBoth P .empty (k' ++ k2)).web.db := by
    rw [e, List.append_assoc, runBoth_append]
    exact runBoth_extends P _ _
  refine ⟨C152_accepted_partial P hfold u' k k' [] [] _ p0 (sameFoldAny_sub sub hf2) (noneAboveAny_sub sub hab2) (ext.unique hu2) m' c caps pack os hpub hmov, ?_⟩
  intro m2 ls' t' rest' hm2 hfuel2 hord2 hcut2 hr2
  have all : ∀ x, Spec.Given P.X os x ↔ x ∈ ms := by
    intro x
    refine ⟨fun hx => (hfound x).1 hx.1, fun hx => ⟨(hfound x).2 hx, ?_⟩⟩
    obtain ⟨os0, h1, h2, h3⟩ := (hms x).1 hx
    rcases h3 with h3 | h3
    · exact .inl h3
    · right
      have sub0 : ∀ y, Spec.Given P.X os0 y → Spec.found P.X os y.id = some y := fun y hy => (hfound y).2 ((hms y).2 ⟨os0, h1, hy⟩)
      generalize x.id = z at h3
      induction h3 with
      | commit o c' k1 k2 k3 => exact .commit o c' (sub0 o ⟨k1, .inl k2⟩) k2 k3
      | item o items i k1 k2 k3 k4 k5 ih => exact .item o items i ih (sub0 o ⟨k2, .inr k1⟩) k3 k4 k5
  have hsome : ∃ x, x ∈ ms := by
    cases e : Spec.commitsAt P.D.fold (runBoth P .empty h).web.db.commits u with
    | nil =>
      rw [← hm] at e
      exact nomatch (C49_empty_clone_false P.X m.sql m.fuel u _ e).symm.trans f1
    | cons r l => exact ⟨_, (w2 _).2 ⟨_, .commit r (by rw [e]; exact .head _), rfl⟩⟩
  obtain ⟨x, hx⟩ := hsome
  obtain ⟨out', file', ms', r1, r2, r3, r4, r5⟩ := C152_exact_partial P hfold u' (k' ++ k2) _ _ p1 hf2 hab2 hu2 hfit2 ⟨os, .head _, x, (all x).2 hx⟩ m2 hm2 hfuel2 hord2 hcut2 ls' t' rest' hr2
  refine ⟨out', file', ms', r1, r2, r3, r4, (List.perm_ext_iff_of_nodup w1.1 r4.1).2 fun y => ?_⟩
  rw [r5, ← all]
  simp

end Gust

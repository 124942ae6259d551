import Verif.Props.Limits
import Verif.Props.Refined

/-! # C152 with the tables of the dump

`Spec.Published` asks for a database that accepts every row. Here the tables of the dump are used, and the projects fit their columns. -/

namespace Gust

/-! ## Spec -/

/-- A push of the complete project `os`, sent over HTTP or SSH after `h`, in any well-formed pack, to a database with the tables of the dump: what is pushed fits the columns. -/
structure Spec.PublishesFit (P : ServerExt) (u : Bytes) (h h' : BothHist) (m : Moment) (c : Spec.PushCmd) (caps pack : Bytes) (os : List (Nat × Spec.Obj)) : Prop where
  ok : c.Ok
  capsLen : caps.length ≤ 4000
  capsText : ∀ x ∈ caps, x.toNat < 128
  tables : Spec.SchemaOnly m.sql
  room : Spec.Roomy (Spec.found P.X os)
  commits : ∀ p ∈ os, p.2.1 = .commit → p.2.2.length ≤ 65535
  name : c.name.length ≤ 31
  path : chars u ≤ 64
  packed : Spec.PackOf P.X P.D.fold (runBoth P .empty h).web.db pack os
  project : Spec.Project P.X os
  fuel : os.length < m.fuel
  sent : Spec.SentAny P u c caps pack m h h'

/-- What has been published to the repository `u` in the course of a history, and which branches it has then, as `Spec.Published`, with the tables of the dump. -/
inductive Spec.PublishedFit (P : ServerExt) (u : Bytes) : BothHist → List (List (Nat × Spec.Obj)) → List (Bytes × Bytes) → Prop
  | nothing : PublishedFit P u [] [] []
  | others (h h2 : BothHist) (ps : List (List (Nat × Spec.Obj))) (rs : List (Bytes × Bytes)) : PublishedFit P u h ps rs → Spec.NoPack P u (runBoth P .empty h) h2 → PublishedFit P u (h ++ h2) ps rs
  | push (h h' : BothHist) (ps : List (List (Nat × Spec.Obj))) (rs rs' : List (Bytes × Bytes)) (m : Moment) (c : Spec.PushCmd) (caps pack : Bytes) (os : List (Nat × Spec.Obj)) :
      PublishedFit P u h ps rs → Spec.PublishesFit P u h h' m c caps pack os → Spec.Moved P.D.fold c rs rs' → PublishedFit P u h' (os :: ps) rs'
  | fails (h h' : BothHist) (ps : List (List (Nat × Spec.Obj))) (rs : List (Bytes × Bytes)) (m : Moment) (c : Spec.PushCmd) (caps part pack : Bytes) (os : List (Nat × Spec.Obj)) :
      PublishedFit P u h ps rs → Spec.Fails P u h h' m c caps part pack os → PublishedFit P u h' ps rs
  | stale (h h' : BothHist) (ps : List (List (Nat × Spec.Obj))) (rs : List (Bytes × Bytes)) (m : Moment) (c : Spec.PushCmd) (caps pack : Bytes) (os : List (Nat × Spec.Obj)) :
      PublishedFit P u h ps rs → Spec.PublishesFit P u h h' m c caps pack os → Spec.Stale P.D.fold c rs → PublishedFit P u h' (os :: ps) rs

/-! ## The same history without limits -/

/-- The same visits, with databases that compare strings in the same way. -/
def SameVisits (h k : BothHist) : Prop := k.map (fun p => (p.1.sql.fold, p.2)) = h.map (fun p => (p.1.sql.fold, p.2))

theorem SameVisits.mem {h k : BothHist} (hs : SameVisits h k) {p : Moment × Visit} (hp : p ∈ k) : ∃ q ∈ h, q.1.sql.fold = p.1.sql.fold ∧ q.2 = p.2 := by
  have : (p.1.sql.fold, p.2) ∈ k.map (fun p => (p.1.sql.fold, p.2)) := List.mem_map.2 ⟨p, hp, rfl⟩
  rw [hs] at this
  obtain ⟨q, hq, e⟩ := List.mem_map.1 this
  exact ⟨q, hq, (Prod.mk.inj e).1, (Prod.mk.inj e).2⟩

theorem SameVisits.sameFold {h k : BothHist} (hs : SameVisits h k) {fold : Bytes → Bytes} (hf : Spec.SameFoldAny fold h) : Spec.SameFoldAny fold k := by
  intro p hp
  obtain ⟨q, hq, e, _⟩ := hs.mem hp
  rw [← e]
  exact hf q hq

theorem SameVisits.noneAbove {h k : BothHist} (hs : SameVisits h k) {fold : Bytes → Bytes} {u : Bytes} (hab : Spec.NoneAboveAny fold u h) : Spec.NoneAboveAny fold u k := by
  intro p hp q hq a b ha hb
  obtain ⟨p', hp', _, e1⟩ := hs.mem hp
  obtain ⟨q', hq', _, e2⟩ := hs.mem hq
  exact hab p' hp' q' hq' a b (by rw [e1]; exact ha) (by rw [e2]; exact hb)

theorem SameVisits.notOn {h k : BothHist} (hs : SameVisits h k) {i : Nat} (hn : Spec.NotOn i h) : Spec.NotOn i k := by
  intro p hp e
  obtain ⟨q, hq, _, e1⟩ := hs.mem hp
  rw [← e1]
  exact hn q hq e

theorem SameVisits.append {h k h2 k2 : BothHist} (hs : SameVisits h k) (hs2 : SameVisits h2 k2) : SameVisits (h ++ h2) (k ++ k2) := by
  rw [SameVisits, List.map_append, List.map_append, hs, hs2]

theorem SameVisits.split {h1 h2 k : BothHist} {m : Moment} {v : Visit} (hs : SameVisits (h1 ++ (m, v) :: h2) k) :
    ∃ k1 m' k2, k = k1 ++ (m', v) :: k2 ∧ SameVisits h1 k1 ∧ SameVisits h2 k2 := by
  rw [SameVisits, List.map_append, List.map_cons] at hs
  obtain ⟨k1, r, e, e1, e2⟩ := List.map_eq_append_iff.1 hs
  obtain ⟨⟨m', v'⟩, k2, e', e3, e4⟩ := List.map_eq_cons_iff.1 e2
  have := (Prod.mk.inj e3).2
  subst this
  exact ⟨k1, m', k2, by rw [e, e'], e1, e4⟩

/-- The same push, after the same visits. -/
theorem SameVisits.sent {P : ServerExt} {u : Bytes} {c : Spec.PushCmd} {caps pack : Bytes} {m : Moment} {h k : BothHist} {v : Visit} (hs : SameVisits h k)
    (hrun : runBoth P .empty k = runBoth P .empty h) (hsent : Spec.SentAny P u c caps pack m h (h ++ [(m, v)])) (m' : Moment) : Spec.SentAny P u c caps pack m' k (k ++ [(m', v)]) := by
  generalize hh : h ++ [(m, v)] = h' at hsent
  cases hsent with
  | http _ g hu hg =>
    have := List.append_cancel_left hh
    simp only [List.cons.injEq, Prod.mk.injEq, true_and, and_true] at this
    subst this
    exact .http k g hu hg
  | ssh h0 h1 h2 _ m0 m1 i ch0 ch1 ch hsp hb hn1 hn2 hh2 p hl =>
    have := List.append_cancel_left hh
    simp only [List.cons.injEq, Prod.mk.injEq, true_and, and_true] at this
    subst this
    rw [hh2] at hs
    obtain ⟨k0, m0', r, e, _, s2⟩ := hs.split
    obtain ⟨k1, m1', k2, e', s3, s4⟩ := s2.split
    exact .ssh k0 k1 k2 k m0' m1' i ch0 ch1 ch hsp hb (s3.notOn hn1) (s4.notOn hn2) (by rw [e, e']) p (by rw [hrun]; exact hl)

theorem SameVisits.opened {P : ServerExt} {u : Bytes} {i : Nat} {h k : BothHist} (hs : SameVisits h k) (hrun : runBoth P .empty k = runBoth P .empty h) (ho : Spec.Opened P u i h) :
    Spec.Opened P u i k := by
  obtain ⟨h0, h1, m0, ch0, hn, hsp, hb, hh, p, hl⟩ := ho
  rw [hh] at hs
  obtain ⟨k0, m0', k1, e, _, s⟩ := hs.split
  exact ⟨k0, k1, m0', ch0, s.notOn hn, hsp, hb, e, p, by rw [hrun]; exact hl⟩

theorem SameVisits.fetched {P : ServerExt} {u body out : Bytes} {m : Moment} {h k : BothHist} (hs : SameVisits h k) (hrun : runBoth P .empty k = runBoth P .empty h)
    (hf : Spec.FetchedAny P u body out m h) : Spec.FetchedAny P u body out m k := by
  cases hf with
  | http g hu hg ha => exact .http g hu hg (by rw [hrun]; exact ha)
  | ssh i ch ho ha => exact .ssh i ch (hs.opened hrun ho) (by rw [show (runBoth P .empty k).ssh = (runBoth P .empty h).ssh by rw [hrun]]; exact ha)

/-- A push that fits: it is answered with `ok`, and the servers are then as with a database without limits. -/
theorem publishesFit_same {P : ServerExt} (hfold : ∀ a b : Hash, P.D.fold (Hash.toPlainStr a) = P.D.fold (Hash.toPlainStr b) → a = b) {u : Bytes} {h : BothHist} {m : Moment} {v : Visit}
    {c : Spec.PushCmd} {caps pack : Bytes} {os : List (Nat × Spec.Obj)} (hpub : Spec.PublishesFit P u h (h ++ [(m, v)]) m c caps pack os) (hu : UniqueIds P.X (runBoth P .empty h).web.db)
    (hm : m.sql.fold = P.D.fold) (happ : Spec.Applies P.D.fold (runBoth P .empty h).web.db u c) :
    (∃ rep, Spec.PushedAny P u c caps pack rep m h (h ++ [(m, v)]) ∧
      Spec.reportLines (decide (.sideBand ∈ parseCapabilities caps ∨ .sideBand64k ∈ parseCapabilities caps)) rep =
        some [ascii "unpack ok\n", Spec.statusLine (c.name ++ [0]) none]) ∧
      runBoth P .empty (h ++ [(m.unlimited, v)]) = runBoth P .empty (h ++ [(m, v)]) := by
  obtain ⟨rep, r1, r2⟩ := C119_both_partial P hfold u h _ m hu hm hpub.tables c hpub.ok caps hpub.capsLen hpub.capsText happ os pack hpub.packed hpub.project hpub.room hpub.fuel hpub.sent
  obtain ⟨p, d1, d2⟩ := packOf_read hfold (both_nodes P h) hu hm hpub.packed (fuel := m.fuel) (by have := hpub.fuel; omega)
  refine ⟨⟨rep, r1, r2⟩, (C119_same_partial P u c hpub.ok caps hpub.capsLen hpub.capsText pack rep (decodePack_magic d1) m hpub.tables h v r1 hpub.name hpub.path p d1 ?_).2⟩
  intro o ho ht
  rw [d2] at ho
  obtain ⟨q, hq, e2, _⟩ := (found_iff hpub.packed.ids _ _).1 ho
  rw [← e2] at ht ⊢
  exact hpub.commits q hq ht

/-- A push that fits is stored, as by a database without limits. -/
theorem publishesFit_saved {P : ServerExt} (hfold : ∀ a b : Hash, P.D.fold (Hash.toPlainStr a) = P.D.fold (Hash.toPlainStr b) → a = b) {u : Bytes} {h h' : BothHist} {m : Moment}
    {c : Spec.PushCmd} {caps pack : Bytes} {os : List (Nat × Spec.Obj)} (hpub : Spec.PublishesFit P u h h' m c caps pack os) (hu : UniqueIds P.X (runBoth P .empty h).web.db)
    (hm : m.sql.fold = P.D.fold) : ∃ p db1, decodePack P.X (getHashObject P.X m.sql (runBoth P .empty h).web.db) m.fuel pack = .ok p ∧ p.result.hashObject = Spec.found P.X os ∧
      savePackfile m.sql m.fuel p u (runBoth P .empty h).web.db = (.ok (), db1) ∧ savePackfile m.sql.unlimited m.fuel p u (runBoth P .empty h).web.db = (.ok (), db1) := by
  obtain ⟨p, d1, d2⟩ := packOf_read hfold (both_nodes P h) hu hm hpub.packed (fuel := m.fuel) (by have := hpub.fuel; omega)
  obtain ⟨db0, s0, _⟩ := project_saved (E := { m.sql with acceptNodes := fun _ _ => true }) hpub.packed.ids hpub.project d1 d2 hpub.fuel (fun _ _ => rfl) u (runBoth P .empty h).web.db
  obtain ⟨db1, s1⟩ := roomy_stored hpub.tables d1 (by rw [d2]; exact hpub.room) s0
  have hpath := hpub.path
  refine ⟨p, db1, d1, d2, s1, savePackfile_unlimited hpub.tables d1 (show chars u ≤ 128 by omega) (fun o ho ht => ?_) s1⟩
  rw [d2] at ho
  obtain ⟨q, hq, e2, _⟩ := (found_iff hpub.packed.ids _ _).1 ho
  rw [← e2] at ht ⊢
  exact hpub.commits q hq ht

/-- Whatever becomes of its command, the servers are then as with a database without limits. -/
theorem publishesFit_sent {P : ServerExt} (hfold : ∀ a b : Hash, P.D.fold (Hash.toPlainStr a) = P.D.fold (Hash.toPlainStr b) → a = b) {u : Bytes} {h : BothHist} {m : Moment} {v : Visit}
    {c : Spec.PushCmd} {caps pack : Bytes} {os : List (Nat × Spec.Obj)} (hpub : Spec.PublishesFit P u h (h ++ [(m, v)]) m c caps pack os) (hu : UniqueIds P.X (runBoth P .empty h).web.db)
    (hm : m.sql.fold = P.D.fold) : runBoth P .empty (h ++ [(m.unlimited, v)]) = runBoth P .empty (h ++ [(m, v)]) := by
  obtain ⟨p, db1, d1, _, s1, s2⟩ := publishesFit_saved hfold hpub hu hm
  have refs := handleRefs_unlimited hpub.tables hpub.path hpub.ok hpub.name db1
  have d1' : decodePack P.X (getHashObject P.X m.sql.unlimited (runBoth P .empty h).web.db) m.fuel pack = .ok p := d1
  refine sent_unlimited hpub.ok hpub.capsLen hpub.capsText (decodePack_magic d1) hpub.sent ?_ ?_
  · unfold receiveData
    simp only [List.getLast?_singleton, mysqlPush, d1, d1', s1, s2, refs]
  · unfold receiveDataDb
    simp only [List.getLast?_singleton, mysqlPush, d1, d1', s1, s2, refs]

/-- What has been published with the tables of the dump has been published, by the same visits, without limits; the servers are then the same. -/
theorem publishedFit_same {P : ServerExt} (hfold : ∀ a b : Hash, P.D.fold (Hash.toPlainStr a) = P.D.fold (Hash.toPlainStr b) → a = b) {u : Bytes} {h : BothHist}
    {ps : List (List (Nat × Spec.Obj))} {rs : List (Bytes × Bytes)} (hp : Spec.PublishedFit P u h ps rs) (hf : Spec.SameFoldAny P.D.fold h) (hab : Spec.NoneAboveAny P.D.fold u h)
    (hu : UniqueIds P.X (runBoth P .empty h).web.db) : ∃ k, SameVisits h k ∧ runBoth P .empty k = runBoth P .empty h ∧ Spec.Published P u k ps rs := by
  induction hp with
  | nothing => exact ⟨[], rfl, rfl, .nothing⟩
  | others h h2 ps rs _ hn ih =>
    have sub : ∀ x ∈ h, x ∈ h ++ h2 := fun x hx => List.mem_append_left _ hx
    have ext : Extends (runBoth P .empty h).web.db (runBoth P .empty (h ++ h2)).web.db := by
      rw [runBoth_append]
      exact runBoth_extends P _ _
    obtain ⟨k, s, e, hk⟩ := ih (sameFoldAny_sub sub hf) (noneAboveAny_sub sub hab) (ext.unique hu)
    exact ⟨k ++ h2, s.append rfl, by rw [runBoth_append, e, runBoth_append], .others k h2 ps rs hk (by rw [e]; exact hn)⟩
  | push h h' ps rs rs' m c caps pack os _ hpub hmov ih =>
    obtain ⟨v, rfl⟩ := sentAny_ends hpub.sent
    have sub : ∀ x ∈ h, x ∈ h ++ [(m, v)] := fun x hx => List.mem_append_left _ hx
    have ext : Extends (runBoth P .empty h).web.db (runBoth P .empty (h ++ [(m, v)])).web.db := by
      rw [runBoth_append]
      exact runBoth_extends P _ _
    have hf0 := sameFoldAny_sub sub hf
    have hab0 := noneAboveAny_sub sub hab
    have hu0 := ext.unique hu
    obtain ⟨k, s, e, hk⟩ := ih hf0 hab0 hu0
    have a2 := (published_inv hfold hk (s.sameFold hf0) (s.noneAbove hab0) (by rw [e]; exact hu0)).2.1
    rw [e] at a2
    have same := (publishesFit_same hfold hpub hu0 (hf (m, v) (by simp)) (moved_applies a2 hmov)).2
    refine ⟨k ++ [(m.unlimited, v)], s.append rfl, ?_, .push k _ ps rs rs' m.unlimited c caps pack os hk
      ⟨hpub.ok, hpub.capsLen, hpub.capsText, unlimited_accepts _, by rw [e]; exact hpub.packed, hpub.project, hpub.fuel, s.sent e hpub.sent _⟩ hmov⟩
    rw [← same, runBoth_append, e, ← runBoth_append]
  | fails h h' ps rs m c caps part pack os _ hfail ih =>
    obtain ⟨v, rfl⟩ := sentAny_ends hfail.sent
    have sub : ∀ x ∈ h, x ∈ h ++ [(m, v)] := fun x hx => List.mem_append_left _ hx
    have ext : Extends (runBoth P .empty h).web.db (runBoth P .empty (h ++ [(m, v)])).web.db := by
      rw [runBoth_append]
      exact runBoth_extends P _ _
    obtain ⟨k, s, e, hk⟩ := ih (sameFoldAny_sub sub hf) (noneAboveAny_sub sub hab) (ext.unique hu)
    refine ⟨k ++ [(m, v)], s.append rfl, by rw [runBoth_append, e, runBoth_append], .fails k _ ps rs m c caps part pack os hk
      ⟨hfail.ok, hfail.capsLen, hfail.capsText, by rw [e]; exact hfail.packed, hfail.broken, s.sent e hfail.sent _⟩⟩
  | stale h h' ps rs m c caps pack os _ hpub hst ih =>
    obtain ⟨v, rfl⟩ := sentAny_ends hpub.sent
    have sub : ∀ x ∈ h, x ∈ h ++ [(m, v)] := fun x hx => List.mem_append_left _ hx
    have ext : Extends (runBoth P .empty h).web.db (runBoth P .empty (h ++ [(m, v)])).web.db := by
      rw [runBoth_append]
      exact runBoth_extends P _ _
    have hu0 := ext.unique hu
    obtain ⟨k, s, e, hk⟩ := ih (sameFoldAny_sub sub hf) (noneAboveAny_sub sub hab) hu0
    refine ⟨k ++ [(m.unlimited, v)], s.append rfl, ?_, .stale k _ ps rs m.unlimited c caps pack os hk
      ⟨hpub.ok, hpub.capsLen, hpub.capsText, unlimited_accepts _, by rw [e]; exact hpub.packed, hpub.project, hpub.fuel, s.sent e hpub.sent _⟩ hst⟩
    rw [← publishesFit_sent hfold hpub hu0 (hf (m, v) (by simp)), runBoth_append, e, ← runBoth_append]

/-! ## C152 -/

/-- **C152 (partial)** With the tables of the dump: whatever has been published to a repository, and whatever anybody has done on the two servers besides, the next push of a complete project that fits the
columns is answered with `ok`. (Missing from the full claim: as for `C152_tables_exact_partial`.) -/
theorem C152_tables_accepted_partial (P : ServerExt) (hfold : ∀ a b : Hash, P.D.fold (Hash.toPlainStr a) = P.D.fold (Hash.toPlainStr b) → a = b) (u : Bytes) (h h' : BothHist)
    (ps : List (List (Nat × Spec.Obj))) (rs rs' : List (Bytes × Bytes)) (hp : Spec.PublishedFit P u h ps rs) (hf : Spec.SameFoldAny P.D.fold h') (hab : Spec.NoneAboveAny P.D.fold u h')
    (hu : UniqueIds P.X (runBoth P .empty h).web.db) (m : Moment) (c : Spec.PushCmd) (caps pack : Bytes) (os : List (Nat × Spec.Obj)) (hpub : Spec.PublishesFit P u h h' m c caps pack os)
    (hmov : Spec.Moved P.D.fold c rs rs') :
    ∃ rep, Spec.PushedAny P u c caps pack rep m h h' ∧
      Spec.reportLines (decide (.sideBand ∈ parseCapabilities caps ∨ .sideBand64k ∈ parseCapabilities caps)) rep =
        some [ascii "unpack ok\n", Spec.statusLine (c.name ++ [0]) none] := by
  obtain ⟨v, rfl⟩ := sentAny_ends hpub.sent
  have sub : ∀ x ∈ h, x ∈ h ++ [(m, v)] := fun x hx => List.mem_append_left _ hx
  have hf0 := sameFoldAny_sub sub hf
  have hab0 := noneAboveAny_sub sub hab
  obtain ⟨k, s, e, hk⟩ := publishedFit_same hfold hp hf0 hab0 hu
  have a2 := (published_inv hfold hk (s.sameFold hf0) (s.noneAbove hab0) (by rw [e]; exact hu)).2.1
  rw [e] at a2
  exact (publishesFit_same hfold hpub hu (hf (m, v) (by simp)) (moved_applies a2 hmov)).1

/-- **C152 (partial)** With the tables of the dump: after any history in which complete projects that fit the columns are pushed to a repository over HTTP and SSH, and anything else is done on both servers, a
clone is answered over HTTP and on every SSH connection opened for it, with the same bytes; it can be read, and has exactly the objects published. (Missing from the full claim: as for `C152_exact_partial`;
what does not fit, see C117, C118, C119.) -/
theorem C152_tables_exact_partial (P : ServerExt) (hfold : ∀ a b : Hash, P.D.fold (Hash.toPlainStr a) = P.D.fold (Hash.toPlainStr b) → a = b) (u : Bytes) (h : BothHist)
    (ps : List (List (Nat × Spec.Obj))) (rs : List (Bytes × Bytes)) (hp : Spec.PublishedFit P u h ps rs) (hf : Spec.SameFoldAny P.D.fold h) (hab : Spec.NoneAboveAny P.D.fold u h)
    (hu : UniqueIds P.X (runBoth P .empty h).web.db) (hfit : FitsPack P.X (runBoth P .empty h).web.db) (hcommit : ∃ os ∈ ps, ∃ m, Spec.Given P.X os m) (m2 : Moment)
    (hm2 : m2.sql.fold = P.D.fold) (hfuel : (runBoth P .empty h).web.db.nodes.length ≤ m2.fuel) (hord : ∀ l x, x ∈ m2.ord l ↔ x ∈ l) (hcut : Spec.CutOk m2.cut)
    (ls : List Spec.ReqLine) (t rest : Bytes) (hr : Spec.CloneReq ls t) :
    ∃ out file ms, (∀ g, Spec.CleanUrl u → (g = [] ∨ g = ascii ".git") →
        (serve P m2 (runBoth P .empty h).web (Spec.fetchReq (u ++ g) (doneBody ls t rest))).1 = .reply (.ok (.bytes out))) ∧
      (∀ i ch, Spec.Opened P u i h → (sshStep P.X m2 (runBoth P .empty h).ssh i (.data ch (doneBody ls t rest))).1 = [(ch, out)]) ∧
      Spec.readClone out = some file ∧ PackHas P.X file ms ∧ ∀ m, m ∈ ms ↔ ∃ os ∈ ps, Spec.Given P.X os m := by
  obtain ⟨k, s, e, hk⟩ := publishedFit_same hfold hp hf hab hu
  have key := C152_exact_partial P hfold u k ps rs hk (s.sameFold hf) (s.noneAbove hab) (by rw [e]; exact hu) (by rw [e]; exact hfit) hcommit m2 hm2 (by rw [e]; exact hfuel) hord hcut ls t rest hr
  rw [e] at key
  obtain ⟨out, file, ms, k1, k2, k3⟩ := key
  exact ⟨out, file, ms, k1, fun i ch ho => k2 i ch (s.opened e ho), k3⟩

/-- **C152 (partial)** With the tables of the dump: after such a history whoever asks for the refs, over HTTP or on any SSH connection, reads exactly the branches published. (Missing from the full claim: as for
`C152_branches_partial` and above.) -/
theorem C152_tables_branches_partial (P : ServerExt) (hfold : ∀ a b : Hash, P.D.fold (Hash.toPlainStr a) = P.D.fold (Hash.toPlainStr b) → a = b) (u : Bytes) (hb : (0x5c : UInt8) ∉ u) (h : BothHist)
    (ps : List (List (Nat × Spec.Obj))) (rs : List (Bytes × Bytes)) (hp : Spec.PublishedFit P u h ps rs) (hf : Spec.SameFoldAny P.D.fold h) (hab : Spec.NoneAboveAny P.D.fold u h)
    (hu : UniqueIds P.X (runBoth P .empty h).web.db) (hids : (rs.map Prod.fst).Nodup) (hmas : ∃ p ∈ rs, P.D.fold (p.2 ++ [0]) = P.D.fold (ascii "refs/heads/master"))
    (m : Moment) (hm : m.sql.fold = P.D.fold) (t : ServiceType) :
    ∃ head refs, Spec.ToldBoth P u t m h head refs ∧ refs.Perm (rs.map (fun p => (p.1, p.2 ++ [0]))) ∧
      ∃ name, (head, name) ∈ rs ∧ P.D.fold (name ++ [0]) = P.D.fold (ascii "refs/heads/master") := by
  obtain ⟨k, s, e, hk⟩ := publishedFit_same hfold hp hf hab hu
  have key := C152_branches_partial P hfold u hb k ps rs hk (s.sameFold hf) (s.noneAbove hab) (by rw [e]; exact hu) hids hmas m hm t
  unfold Spec.ToldBoth at key ⊢
  rw [e] at key
  exact key

/-- **C154 is false** for pushes whose branch has moved, with the tables of the dump: a complete project that fits the columns is pushed with a command that cannot be carried out. The push gets no answer, and the
branches are as before; but all objects of the push are in the repository: every clone has them from then on, whatever anybody does, unless there are pushes to the repository. -/
theorem C154_tables_stale_false (P : ServerExt) (hfold : ∀ a b : Hash, P.D.fold (Hash.toPlainStr a) = P.D.fold (Hash.toPlainStr b) → a = b) (u : Bytes) (h h' h2 : BothHist)
    (ps : List (List (Nat × Spec.Obj))) (rs : List (Bytes × Bytes)) (hp : Spec.PublishedFit P u h ps rs) (hf : Spec.SameFoldAny P.D.fold (h' ++ h2)) (hab : Spec.NoneAboveAny P.D.fold u (h' ++ h2))
    (hu : UniqueIds P.X (runBoth P .empty (h' ++ h2)).web.db) (hfit : FitsPack P.X (runBoth P .empty (h' ++ h2)).web.db) (m : Moment) (c : Spec.PushCmd) (caps pack : Bytes)
    (os : List (Nat × Spec.Obj)) (hpub : Spec.PublishesFit P u h h' m c caps pack os) (hst : Spec.Stale P.D.fold c rs) (hno : Spec.NoPack P u (runBoth P .empty h') h2) :
    Spec.LostAny P u c caps pack m h h' ∧ Spec.PublishedFit P u (h' ++ h2) (os :: ps) rs ∧
      ∀ (m2 : Moment) (ls : List Spec.ReqLine) (t rest out : Bytes), m2.sql.fold = P.D.fold → (∀ l x, x ∈ m2.ord l ↔ x ∈ l) → Spec.CutOk m2.cut → Spec.CloneReq ls t →
        Spec.FetchedAny P u (doneBody ls t rest) out m2 (h' ++ h2) →
        ∃ file ms, Spec.readClone out = some file ∧ PackHas P.X file ms ∧ ∀ x, Spec.Given P.X os x → x ∈ ms := by
  obtain ⟨v, rfl⟩ := sentAny_ends hpub.sent
  have sub : ∀ x ∈ h, x ∈ h ++ [(m, v)] ++ h2 := fun x hx => by simp [hx]
  have ext : Extends (runBoth P .empty h).web.db (runBoth P .empty (h ++ [(m, v)] ++ h2)).web.db := by
    rw [List.append_assoc, runBoth_append]
    exact runBoth_extends P _ _
  have hu0 := ext.unique hu
  have hm : m.sql.fold = P.D.fold := hf (m, v) (by simp)
  obtain ⟨k, s, e, hk⟩ := publishedFit_same hfold hp (sameFoldAny_sub sub hf) (noneAboveAny_sub sub hab) hu0
  have a2 := (published_inv hfold hk (s.sameFold (sameFoldAny_sub sub hf)) (s.noneAbove (noneAboveAny_sub sub hab)) (by rw [e]; exact hu0)).2.1
  rw [e] at a2
  obtain ⟨p, db1, d1, _, s1, _⟩ := publishesFit_saved hfold hpub hu0 hm
  have s2 : db1.refs = (runBoth P .empty h).web.db.refs := by
    have := savePackfile_refs m.sql m.fuel p u (runBoth P .empty h).web.db
    rwa [s1] at this
  have s3 := stale_command hst a2 s2 hm
  refine ⟨?_, .others _ h2 _ _ (.stale h _ ps rs m c caps pack os hp hpub hst) hno, ?_⟩
  · refine sent_lost hpub.ok hpub.capsLen hpub.capsText hpub.sent (.inl ?_)
    rw [push_answer _ u _ c hpub.ok caps hpub.capsLen hpub.capsText pack (decodePack_magic d1)]
    unfold receiveData
    simp only [List.getLast?_singleton, mysqlPush, d1, s1, s3]
    rfl
  have same := publishesFit_sent hfold hpub hu0 hm
  have e0 : runBoth P .empty (k ++ [(m.unlimited, v)]) = runBoth P .empty (h ++ [(m, v)]) := by rw [← same, runBoth_append, e, ← runBoth_append]
  have e1 : runBoth P .empty (k ++ [(m.unlimited, v)] ++ h2) = runBoth P .empty (h ++ [(m, v)] ++ h2) := by rw [runBoth_append, e0, ← runBoth_append]
  have s1 : SameVisits (h ++ [(m, v)] ++ h2) (k ++ [(m.unlimited, v)] ++ h2) := (s.append (show SameVisits [(m, v)] [(m.unlimited, v)] from rfl)).append rfl
  have key := (C154_stale_false P hfold u k (k ++ [(m.unlimited, v)]) h2 ps rs hk (s1.sameFold hf) (s1.noneAbove hab) (by rw [e1]; exact hu) (by rw [e1]; exact hfit) m.unlimited c caps pack os
    ⟨hpub.ok, hpub.capsLen, hpub.capsText, unlimited_accepts _, by rw [e]; exact hpub.packed, hpub.project, hpub.fuel, s.sent e hpub.sent _⟩ hst (by rw [e0]; exact hno)).2.2
  exact fun m2 ls t rest out hm2 hord hcut hr hfe => key m2 ls t rest out hm2 hord hcut hr (s1.fetched e1 hfe)

/-- Nothing is pushed before. -/
theorem bothBefore_noPack : Spec.NoPack demoServer (ascii "/app") .empty bothBefore := by
  have e : (ascii "PACK").isPrefixOf (Spec.pushBody appCmd [] (ascii "report-status") []) = false := by decide +kernel
  exact ⟨trivial, trivial, trivial, trivial, fun h => (by rw [e] at h; cases h), trivial⟩

/-- What connection 0 publishes to `/app`, with the tables of the dump. -/
theorem dump_publishes {pack : Bytes} (hpack : Spec.PackOf polyExt demoFold (runBoth demoServer .empty bothBefore).web.db pack appEntries) :
    Spec.PublishesFit demoServer (ascii "/app") bothBefore (bothBefore ++ [(dumpMoment, .ssh 0 (.data 0 pack))]) dumpMoment appCmd (ascii "report-status") pack appEntries where
  ok := appCmd_ok
  capsLen := by decide
  capsText := by decide
  tables := dumpSql_schema
  room := app_roomy
  commits := fun p hp _ => by
    have : ∀ p ∈ appEntries, p.2.2.length ≤ 65535 := by decide +kernel
    exact this p hp
  name := by decide
  path := by decide
  packed := hpack
  project := app_project
  fuel := by rw [show appEntries.length = 5 from objectsAt_length polyExt 12 appObjects]; decide
  sent := bothBefore_sent _ _

theorem dump_moved : Spec.Moved demoFold appCmd [] [(appCmd.new, appCmd.name)] := ⟨by decide +kernel, .inl ⟨rfl, rfl⟩⟩

/-- C152 with the tables of the dump: the five objects are published to `/app` over SSH. The push is answered with `ok`; a clone over HTTP has the commit and only what was pushed; and clients are told of one branch, `master`. -/
example : ∃ (pack rep out file head : Bytes) (ms : List MetaData) (refs : List (Bytes × Bytes)) (m2 : Moment),
    Spec.PushedAny demoServer (ascii "/app") appCmd (ascii "report-status") pack rep dumpMoment bothBefore (bothBefore ++ [(dumpMoment, .ssh 0 (.data 0 pack))]) ∧
    Spec.reportLines false rep = some [ascii "unpack ok\n", ascii "ok refs/heads/master" ++ [0]] ∧
    (serve demoServer m2 (runBoth demoServer .empty (bothBefore ++ [(dumpMoment, .ssh 0 (.data 0 pack))])).web (Spec.fetchReq (ascii "/app" ++ []) (doneBody cloneLines (ascii "\n") []))).1 =
      .reply (.ok (.bytes out)) ∧
    Spec.readClone out = some file ∧ PackHas polyExt file ms ∧ metaOf polyExt (.commit, appCommit.encode) ∈ ms ∧ (∀ x ∈ ms, x ∈ appObjects) ∧
    Spec.ToldBoth demoServer (ascii "/app") .uploadPack m2 (bothBefore ++ [(dumpMoment, .ssh 0 (.data 0 pack))]) head refs ∧
    refs = [(appCmd.new, ascii "refs/heads/master" ++ [0])] ∧ head = appCmd.new := by
  obtain ⟨pack, hpack⟩ := app_packOf demoServer.D.fold (runBoth demoServer .empty bothBefore).web.db
  have before : Spec.PublishedFit demoServer (ascii "/app") bothBefore [] [] := .others [] bothBefore [] [] .nothing bothBefore_noPack
  have after := Spec.PublishedFit.push bothBefore _ [] [] _ dumpMoment appCmd (ascii "report-status") pack appEntries before (dump_publishes hpack) dump_moved
  have names : ∀ x ∈ bothBefore ++ [(dumpMoment, Visit.ssh 0 (.data 0 pack))], x.1.sql.fold = demoFold ∧ ∀ a, x.2.repo = some a → a = ascii "/app" := by
    intro x hx
    rcases List.mem_append.1 hx with hx | hx
    · exact bothBefore_names x hx
    · cases List.mem_singleton.1 hx
      exact ⟨rfl, fun _ e => nomatch e⟩
  have hf : Spec.SameFoldAny demoServer.D.fold (bothBefore ++ [(dumpMoment, Visit.ssh 0 (.data 0 pack))]) := fun x hx => (names x hx).1
  have hab : Spec.NoneAboveAny demoServer.D.fold (ascii "/app") (bothBefore ++ [(dumpMoment, Visit.ssh 0 (.data 0 pack))]) :=
    fun a ha b hb x y hx hy _ _ => by rw [(names a ha).2 x hx, (names b hb).2 y hy]
  obtain ⟨rep, r1, r2⟩ := C152_tables_accepted_partial demoServer demoFold_hash (ascii "/app") bothBefore _ _ _ _ before hf hab bothBefore_unique dumpMoment appCmd (ascii "report-status") pack appEntries
    (dump_publishes hpack) dump_moved
  have objs := dump_objs hpack r1
  obtain ⟨m2, hm2⟩ : ∃ m2 : Moment, m2 = { demoMoment with fuel := (runBoth demoServer .empty (bothBefore ++ [(dumpMoment, .ssh 0 (.data 0 pack))])).web.db.nodes.length } := ⟨_, rfl⟩
  have given : Spec.Given polyExt appEntries (metaOf polyExt (.commit, appCommit.encode)) := ⟨(app_found _ _).2 ⟨by simp [appObjects, appThin], rfl⟩, .inl rfl⟩
  obtain ⟨out, file, ms, k1, _, k3, k4, k5⟩ := C152_tables_exact_partial demoServer demoFold_hash (ascii "/app") _ _ _ after hf hab (app_unique objs) (app_fits objs) ⟨appEntries, by simp, _, given⟩ m2
    (by rw [hm2]; rfl) (by rw [hm2]) (by rw [hm2]; exact fun _ _ => .rfl) (by rw [hm2]; exact demoCut_ok) cloneLines (ascii "\n") [] cloneLines_ok
  obtain ⟨head, refs, t1, t2, name, t3, _⟩ := C152_tables_branches_partial demoServer demoFold_hash (ascii "/app") (by decide) _ _ _ after hf hab (app_unique objs) (by simp)
    ⟨_, .head _, by decide +kernel⟩ m2 (by rw [hm2]; rfl) .uploadPack
  rw [show decide (Capability.sideBand ∈ parseCapabilities (ascii "report-status") ∨ Capability.sideBand64k ∈ parseCapabilities (ascii "report-status")) = false by decide +kernel,
    show Spec.statusLine (appCmd.name ++ [0]) none = ascii "ok refs/heads/master" ++ [0] by decide] at r2
  refine ⟨pack, rep, out, file, head, ms, refs, m2, r1, r2, k1 [] app_clean_url (.inl rfl), k3, k4, (k5 _).2 ⟨appEntries, by simp, given⟩, fun x hx => ?_, t1, List.perm_singleton.1 t2,
    congrArg Prod.fst (List.mem_singleton.1 t3)⟩
  obtain ⟨os, h1, h2⟩ := (k5 x).1 hx
  rw [List.mem_singleton.1 h1] at h2
  exact ((app_found _ _).1 h2.1).1

end Gust

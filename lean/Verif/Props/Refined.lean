import Verif.Props.CutPack

/-! # C152: a repository is what has been published to it -/

namespace Gust

open Spec (nodeObj StoreReach commitsAt InRepo)

/-! ## Spec -/

/-- While `h` goes on (from state `s` of the two servers) nobody sends a pack for the repository `u`, nor for a path that the database takes for the same. Everything else may happen, also that clients
name the repository, ask for its refs, clone it, or announce a push over SSH. -/
def Spec.NoPack (P : ServerExt) (u : Bytes) : Both → BothHist → Prop
  | _, [] => True
  | s, (m, v) :: h =>
    (match v with
    | .http r => ∀ a, route r.method r.path r.service = .receivePack a → P.D.fold a ≠ P.D.fold u
    | .ssh i (.data _ bytes) => (ascii "PACK").isPrefixOf bytes = true → ∀ p, s.link i = .ready (some p) → p.service = .receivePack → P.D.fold p.path ≠ P.D.fold u
    | .ssh _ _ => True) ∧ Spec.NoPack P u (bothStep P m s v) h

/-- What a command does to branches, written as pairs of id and name: it adds one, or moves the one of its name, if that is the only one at the old id. -/
def Spec.Moved (fold : Bytes → Bytes) (c : Spec.PushCmd) (rs rs' : List (Bytes × Bytes)) : Prop :=
  c.new ≠ zeroId ∧ (c.old = zeroId ∧ rs' = rs ++ [(c.new, c.name)] ∨
    c.old ≠ zeroId ∧ ∃ pre post, rs = pre ++ (c.old, c.name) :: post ∧ (∀ p ∈ pre ++ post, fold p.1 ≠ fold c.old) ∧ rs' = pre ++ (c.new, c.name) :: post)

/-- A push of the complete project `os`, sent over HTTP or SSH after `h`, in any well-formed pack. -/
structure Spec.Publishes (P : ServerExt) (u : Bytes) (h h' : BothHist) (m : Moment) (c : Spec.PushCmd) (caps pack : Bytes) (os : List (Nat × Spec.Obj)) : Prop where
  ok : c.Ok
  capsLen : caps.length ≤ 4000
  capsText : ∀ x ∈ caps, x.toNat < 128
  rows : Spec.Accepts m.sql
  packed : Spec.PackOf P.X P.D.fold (runBoth P .empty h).web.db pack os
  project : Spec.Project P.X os
  fuel : os.length < m.fuel
  sent : Spec.SentAny P u c caps pack m h h'

/-- A push that does not arrive whole, or that lacks an object of the project. -/
structure Spec.Fails (P : ServerExt) (u : Bytes) (h h' : BothHist) (m : Moment) (c : Spec.PushCmd) (caps part pack : Bytes) (os : List (Nat × Spec.Obj)) : Prop where
  ok : c.Ok
  capsLen : caps.length ≤ 4000
  capsText : ∀ x ∈ caps, x.toNat < 128
  packed : Spec.PackOf P.X P.D.fold (runBoth P .empty h).web.db pack os
  broken : (part ≠ [] ∧ ∃ rest, rest ≠ [] ∧ pack = part ++ rest) ∨ part = pack ∧ ∃ x, Spec.PackReach (Spec.found P.X os) x ∧ ∀ q ∈ os, idOf P.X q.2 ≠ x
  sent : Spec.SentAny P u c caps part m h h'

/-- The command cannot be carried out: it moves or deletes a branch, and it deletes it or no branch is at the old id. -/
def Spec.Stale (fold : Bytes → Bytes) (c : Spec.PushCmd) (rs : List (Bytes × Bytes)) : Prop :=
  c.old ≠ zeroId ∧ (c.new = zeroId ∨ ∀ p ∈ rs, fold p.1 ≠ fold c.old)

/-- What has been published to the repository `u` in the course of a history, and which branches it has then. Nothing here says anything about how the server stores it. Pushes that fail for the reasons of
`Spec.Fails` publish nothing; those of a complete project whose command cannot be carried out publish the project, but leave the branches alone (`C154_stale_false`). -/
inductive Spec.Published (P : ServerExt) (u : Bytes) : BothHist → List (List (Nat × Spec.Obj)) → List (Bytes × Bytes) → Prop
  | nothing : Published P u [] [] []
  | others (h h2 : BothHist) (ps : List (List (Nat × Spec.Obj))) (rs : List (Bytes × Bytes)) : Published P u h ps rs → Spec.NoPack P u (runBoth P .empty h) h2 → Published P u (h ++ h2) ps rs
  | push (h h' : BothHist) (ps : List (List (Nat × Spec.Obj))) (rs rs' : List (Bytes × Bytes)) (m : Moment) (c : Spec.PushCmd) (caps pack : Bytes) (os : List (Nat × Spec.Obj)) :
      Published P u h ps rs → Spec.Publishes P u h h' m c caps pack os → Spec.Moved P.D.fold c rs rs' → Published P u h' (os :: ps) rs'
  | fails (h h' : BothHist) (ps : List (List (Nat × Spec.Obj))) (rs : List (Bytes × Bytes)) (m : Moment) (c : Spec.PushCmd) (caps part pack : Bytes) (os : List (Nat × Spec.Obj)) :
      Published P u h ps rs → Spec.Fails P u h h' m c caps part pack os → Published P u h' ps rs
  | stale (h h' : BothHist) (ps : List (List (Nat × Spec.Obj))) (rs : List (Bytes × Bytes)) (m : Moment) (c : Spec.PushCmd) (caps pack : Bytes) (os : List (Nat × Spec.Obj)) :
      Published P u h ps rs → Spec.Publishes P u h h' m c caps pack os → Spec.Stale P.D.fold c rs → Published P u h' (os :: ps) rs

/-- The object is one of the project: a commit, or a directory or file reachable from one. -/
def Spec.Given (X : Ext) (os : List (Nat × Spec.Obj)) (m : MetaData) : Prop :=
  Spec.found X os m.id = some m ∧ (m.t = .commit ∨ Spec.PackReach (Spec.found X os) m.id)

/-! ## Lemmas -/

theorem sameFoldAny_sub {fold : Bytes → Bytes} {h h' : BothHist} (hs : ∀ x ∈ h, x ∈ h') (hf : Spec.SameFoldAny fold h') : Spec.SameFoldAny fold h := fun p hp => hf p (hs p hp)

theorem noneAboveAny_sub {fold : Bytes → Bytes} {u : Bytes} {h h' : BothHist} (hs : ∀ x ∈ h, x ∈ h') (hf : Spec.NoneAboveAny fold u h') : Spec.NoneAboveAny fold u h :=
  fun p hp q hq => hf p (hs p hp) q (hs q hq)

theorem noPack_sends {P : ServerExt} {u : Bytes} {s : Both} {m : Moment} {v : Visit} {h : BothHist} (hn : Spec.NoPack P u s ((m, v) :: h)) {a file : Bytes} (hs : Sends s a file v)
    (hp : (ascii "PACK").isPrefixOf file = true) : P.D.fold a ≠ P.D.fold u := by
  obtain ⟨h2, _⟩ := hn
  cases v with
  | http r => exact h2 a hs.1
  | ssh i e =>
    cases e with
    | data ch bytes =>
      obtain ⟨k0, p, k1, k2, k3⟩ := hs
      rw [← k2]
      exact h2 (by rw [← k0]; exact hp) p k1 k3
    | _ => cases hs

/-- More nodes, and no other commits at the path: the same objects. -/
theorem inRepo_same {X : Ext} {fold : Bytes → Bytes} {path : Bytes} {db db' : Db} (hrun : StoreRun X fold path db) (hrun' : StoreRun X fold path db') (ext : Extends db db')
    (hu : UniqueIds X db') (old : ∀ r ∈ commitsAt fold db'.commits path, r ∈ commitsAt fold db.commits path) (o : Spec.Obj) : InRepo fold db' path o ↔ InRepo fold db path o := by
  have inv := storeRun_inv hrun (ext.unique hu)
  have inv' := storeRun_inv hrun' hu
  constructor
  · rintro (⟨r, hr⟩ | ⟨r, c, h, n, hr, hc, hre, hn, e⟩)
    · exact .commit r (old r hr)
    · exact node_of_old inv ext (same_of_inv inv' hu) (old r hr) hc hre hn e
  · exact inRepo_mono ext

/-- What anybody does, except sending a pack for it, leaves a repository as it is. -/
theorem noPack_step {P : ServerExt} {u : Bytes} {h h2 : BothHist} {m : Moment} {v : Visit} (hn : Spec.NoPack P u (runBoth P .empty h) ((m, v) :: h2))
    (hf : Spec.SameFoldAny P.D.fold (h ++ [(m, v)])) (hab : Spec.NoneAboveAny P.D.fold u (h ++ [(m, v)])) (hu : UniqueIds P.X (runBoth P .empty (h ++ [(m, v)])).web.db) :
    (∀ o, InRepo P.D.fold (runBoth P .empty (h ++ [(m, v)])).web.db u o ↔ InRepo P.D.fold (runBoth P .empty h).web.db u o) ∧
      Spec.refsAt P.D.fold (runBoth P .empty (h ++ [(m, v)])).web.db.refs u = Spec.refsAt P.D.fold (runBoth P .empty h).web.db.refs u := by
  have sub : ∀ x ∈ h, x ∈ h ++ [(m, v)] := fun x hx => List.mem_append_left _ hx
  obtain ⟨i1, i2, i3⟩ := runBoth_inv P u h (sameFoldAny_sub sub hf) (noneAboveAny_sub sub hab)
  have hm : m.sql.fold = P.D.fold := hf (m, v) (by simp)
  have hrun' := (runBoth_inv P u _ hf hab).2.2
  rw [runBoth_concat] at hu hrun' ⊢
  have ext := both_extends P m (runBoth P .empty h) v
  rcases both_effect P m (runBoth P .empty h) v with e | ⟨a, ha, he⟩
  · rw [e]
    exact ⟨fun _ => .rfl, rfl⟩
  · have named : ∃ p ∈ h ++ [(m, v)], p.2.repo = some a := by
      rcases ha with ⟨i, p, h1, h2⟩ | ha
      · obtain ⟨q, q1, q2⟩ := i2 i p h1
        exact ⟨q, sub q q1, by rw [q2, h2]⟩
      · exact ⟨(m, v), by simp, ha⟩
    generalize hdb : (bothStep P m (runBoth P .empty h) v).web.db = db' at he hu hrun' ext ⊢
    cases he with
    | same => exact ⟨fun _ => .rfl, rfl⟩
    | head =>
      by_cases e : P.D.fold a = P.D.fold u
      · have hsame : (getHeadObjectId P.X m.sql (runBoth P .empty h).web.db a).2 = (runBoth P .empty h).web.db := by
          refine getHead_same _ _ _ _ fun r hr hp => ?_
          obtain ⟨q, q1, q2⟩ := i1 r hr
          obtain ⟨p, p1, p2⟩ := named
          exact hab q (sub q q1) p p1 _ _ q2 p2 e hp
        rw [hsame]
        exact ⟨fun _ => .rfl, rfl⟩
      · refine ⟨inRepo_same i3 hrun' ext hu fun r hr => ?_, ?_⟩
        · obtain ⟨k1, k2⟩ := commitsAt_mem.1 hr
          obtain ⟨_, _, h3⟩ := getHead_only P.X m.sql a (runBoth P .empty h).web.db
          rcases h3 r k1 with h | h
          · exact commitsAt_mem.2 ⟨h, k2⟩
          · rw [h] at k2
            exact absurd k2 e
        · rw [← hm]
          exact getHead_refsAt (by rw [hm]; exact e) _
    | push file p hs hd =>
      have hne := noPack_sends hn hs (decodePack_magic hd)
      exact ⟨C73_isolated i3 m.sql hm m.fuel file p hd a hne hu, by rw [savePackfile_refs]⟩
    | pushRef file p cmd hs hd =>
      have hne := noPack_sends hn hs (decodePack_magic hd)
      obtain ⟨k1, k2⟩ := handleRefs_only m.sql cmd a (savePackfile m.sql m.fuel p a (runBoth P .empty h).web.db).2
      refine ⟨fun o => ?_, ?_⟩
      · rw [inRepo_congr k1 k2]
        refine C73_isolated i3 m.sql hm m.fuel file p hd a hne ?_ o
        have ext' : Extends (savePackfile m.sql m.fuel p a (runBoth P .empty h).web.db).2 (handleRefs m.sql cmd a (savePackfile m.sql m.fuel p a (runBoth P .empty h).web.db).2).2 :=
          ⟨fun n hn => by rw [k1]; exact hn, fun n hn => by rw [k2]; exact hn⟩
        exact ext'.unique hu
      · rw [← hm, handleRefs_refsAt (by rw [hm]; exact hne), savePackfile_refs]

theorem noPack_run {P : ServerExt} {u : Bytes} : ∀ (h2 h : BothHist), Spec.NoPack P u (runBoth P .empty h) h2 →
    Spec.SameFoldAny P.D.fold (h ++ h2) → Spec.NoneAboveAny P.D.fold u (h ++ h2) → UniqueIds P.X (runBoth P .empty (h ++ h2)).web.db →
    (∀ o, InRepo P.D.fold (runBoth P .empty (h ++ h2)).web.db u o ↔ InRepo P.D.fold (runBoth P .empty h).web.db u o) ∧
      Spec.refsAt P.D.fold (runBoth P .empty (h ++ h2)).web.db.refs u = Spec.refsAt P.D.fold (runBoth P .empty h).web.db.refs u
  | [], h, _, _, _, _ => by
    rw [List.append_nil]
    exact ⟨fun _ => .rfl, rfl⟩
  | (m, v) :: h2, h, hn, hf, hab, hu => by
    have e : h ++ (m, v) :: h2 = h ++ [(m, v)] ++ h2 := by simp
    rw [e] at hf hab hu ⊢
    have sub : ∀ x ∈ h ++ [(m, v)], x ∈ h ++ [(m, v)] ++ h2 := fun x hx => List.mem_append_left _ hx
    have ext : Extends (runBoth P .empty (h ++ [(m, v)])).web.db (runBoth P .empty (h ++ [(m, v)] ++ h2)).web.db := by
      rw [runBoth_append P .empty (h ++ [(m, v)])]
      exact runBoth_extends P _ _
    obtain ⟨a1, a2⟩ := noPack_step hn (sameFoldAny_sub sub hf) (noneAboveAny_sub sub hab) (ext.unique hu)
    obtain ⟨b1, b2⟩ := noPack_run h2 (h ++ [(m, v)]) (by rw [runBoth_concat]; exact hn.2) hf hab hu
    exact ⟨fun o => (b1 o).trans (a1 o), b2.trans a2⟩

theorem split_unique {α : Type} {p : α → Prop} {a b : α} : ∀ {l1 l2 k1 k2 : List α}, l1 ++ a :: l2 = k1 ++ b :: k2 → p a → (∀ x ∈ k1 ++ k2, ¬ p x) → l1 = k1 ∧ a = b ∧ l2 = k2
  | [], _, [], _, h, _, _ => by
    simp only [List.nil_append, List.cons.injEq] at h
    exact ⟨rfl, h.1, h.2⟩
  | [], _, y :: k1, k2, h, ha, hn => by
    simp only [List.nil_append, List.cons_append, List.cons.injEq] at h
    exact absurd ha (hn a (by simp [h.1]))
  | x :: l1, l2, [], k2, h, ha, hn => by
    simp only [List.nil_append, List.cons_append, List.cons.injEq] at h
    exact absurd ha (hn a (by rw [← h.2]; simp))
  | x :: l1, l2, y :: k1, k2, h, ha, hn => by
    simp only [List.cons_append, List.cons.injEq] at h
    obtain ⟨e1, e2, e3⟩ := split_unique h.2 ha (fun z hz => hn z (by simp at hz ⊢; exact .inr hz))
    exact ⟨by rw [h.1, e1], e2, e3⟩

/-- The row for a branch. -/
def branchRow (u : Bytes) (p : Bytes × Bytes) : RefRow := { repoPath := u, refName := p.2 ++ [0], refGitId := p.1 }

theorem moved_applies {fold : Bytes → Bytes} {db : Db} {u : Bytes} {c : Spec.PushCmd} {rs rs' : List (Bytes × Bytes)} (hr : Spec.refsAt fold db.refs u = rs.map (branchRow u))
    (hm : Spec.Moved fold c rs rs') : Spec.Applies fold db u c := by
  obtain ⟨hn, ⟨h, _⟩ | ⟨_, pre, post, e, _⟩⟩ := hm
  · exact .inl h
  · have : branchRow u (c.old, c.name) ∈ Spec.refsAt fold db.refs u := by
      rw [hr, e]
      simp
    obtain ⟨k1, k2⟩ := refsAt_mem.1 this
    exact .inr ⟨hn, _, k1, k2, rfl⟩

/-- The text of branches that were pushed. -/
def branchOk (p : Bytes × Bytes) : Prop :=
  p.1.length = 40 ∧ (∀ x ∈ p.1, Spec.IsHexDigit x) ∧ p.1 ≠ zeroId ∧ p.2.length ≤ 60000 ∧ ∀ x ∈ p.2, 33 ≤ x.toNat ∧ x.toNat < 127

theorem fails_same {P : ServerExt} (hfold : ∀ a b : Hash, P.D.fold (Hash.toPlainStr a) = P.D.fold (Hash.toPlainStr b) → a = b) {u : Bytes} {h h' : BothHist} {m : Moment}
    {c : Spec.PushCmd} {caps part pack : Bytes} {os : List (Nat × Spec.Obj)} (hf : Spec.Fails P u h h' m c caps part pack os) (hu : UniqueIds P.X (runBoth P .empty h).web.db)
    (hm : m.sql.fold = P.D.fold) : Spec.LostAny P u c caps part m h h' ∧ (runBoth P .empty h').web = (runBoth P .empty h).web := by
  have hpack := hf.packed
  rcases hf.broken with ⟨h1, rest, h2, rfl⟩ | ⟨rfl, x, h1, h2⟩
  · exact C154_cut P hfold u h h' m hu hm c hf.ok caps hf.capsLen hf.capsText os part rest hpack h1 h2 hf.sent
  · exact C154_lacking P hfold u h h' m hu hm c hf.ok caps hf.capsLen hf.capsText os part hpack x h1 h2 hf.sent

/-- A command that cannot be carried out. -/
theorem stale_command {fold : Bytes → Bytes} {u : Bytes} {c : Spec.PushCmd} {rs : List (Bytes × Bytes)} (hst : Spec.Stale fold c rs) {db db1 : Db}
    (hr : Spec.refsAt fold db.refs u = rs.map (branchRow u)) (s2 : db1.refs = db.refs) {E : SqlExt} (hm : E.fold = fold) :
    handleRefs E { RefCommand.new c.old c.new (c.name ++ [0]) with ok := true } u db1 = (.panic, db1) := by
  by_cases hn : c.new = zeroId
  · simp only [handleRefs, RefCommand.new]
    rw [if_neg (fun h => hst.1 h.symm), if_pos hn.symm]
  · have hk : ({ RefCommand.new c.old c.new (c.name ++ [0]) with ok := true } : RefCommand).commandType = .update := by
      simp only [RefCommand.new]
      rw [if_neg (fun h => hst.1 h.symm), if_neg (fun h => hn h.symm)]
    rcases C53_update_scope_partial E { RefCommand.new c.old c.new (c.name ++ [0]) with ok := true } u db1 hk with ⟨pre, r, post, q1, q2, q3, _⟩ | ⟨_, q⟩
    · exfalso
      rw [hm] at q2 q3
      have : r ∈ Spec.refsAt fold db.refs u := refsAt_mem.2 ⟨by rw [← s2, q1]; simp, q2⟩
      rw [hr] at this
      obtain ⟨q, hq, rfl⟩ := List.mem_map.1 this
      rcases hst.2 with k | k
      · exact hn k
      · exact k q hq (by simpa [RefCommand.new, branchRow] using q3)
    · exact q

/-- A complete project is pushed with a command that cannot be carried out. -/
theorem stale_saved {P : ServerExt} (hfold : ∀ a b : Hash, P.D.fold (Hash.toPlainStr a) = P.D.fold (Hash.toPlainStr b) → a = b) {u : Bytes} {h h' : BothHist} {m : Moment}
    {c : Spec.PushCmd} {caps pack : Bytes} {os : List (Nat × Spec.Obj)} {rs : List (Bytes × Bytes)} (hpub : Spec.Publishes P u h h' m c caps pack os) (hst : Spec.Stale P.D.fold c rs)
    (hr : Spec.refsAt P.D.fold (runBoth P .empty h).web.db.refs u = rs.map (branchRow u)) (hu : UniqueIds P.X (runBoth P .empty h).web.db) (hm : m.sql.fold = P.D.fold) :
    Spec.LostAny P u c caps pack m h h' ∧ ∃ p db1, decodePack P.X (getHashObject P.X m.sql (runBoth P .empty h).web.db) m.fuel pack = .ok p ∧
      p.result.hashObject = Spec.found P.X os ∧ savePackfile m.sql m.fuel p u (runBoth P .empty h).web.db = (.ok (), db1) ∧ (runBoth P .empty h').web.db = db1 ∧
      db1.refs = (runBoth P .empty h).web.db.refs := by
  obtain ⟨p, d1, d2⟩ := packOf_read hfold (both_nodes P h) hu hm hpub.packed (fuel := m.fuel) (by have := hpub.fuel; omega)
  obtain ⟨db1, s1, s2⟩ := project_saved hpub.packed.ids hpub.project d1 d2 hpub.fuel hpub.rows.nodes u (runBoth P .empty h).web.db
  have s3 := stale_command hst hr s2 hm
  refine ⟨?_, p, db1, d1, d2, s1, ?_, s2⟩
  · refine sent_lost hpub.ok hpub.capsLen hpub.capsText hpub.sent (.inl ?_)
    rw [push_answer _ u _ c hpub.ok caps hpub.capsLen hpub.capsText pack (decodePack_magic d1)]
    unfold receiveData
    simp only [List.getLast?_singleton, mysqlPush, d1, s1, s3]
    rfl
  · rw [sent_section hpub.ok hpub.capsLen hpub.capsText hpub.sent, gitReceiveDb, if_pos (decodePack_magic d1), receiveDataDb]
    simp only [List.getLast?_singleton, mysqlPush, d1, s1, s3]

/-- What has been published is what is stored. -/
theorem published_inv {P : ServerExt} (hfold : ∀ a b : Hash, P.D.fold (Hash.toPlainStr a) = P.D.fold (Hash.toPlainStr b) → a = b) {u : Bytes} {h : BothHist}
    {ps : List (List (Nat × Spec.Obj))} {rs : List (Bytes × Bytes)} (hp : Spec.Published P u h ps rs) (hf : Spec.SameFoldAny P.D.fold h) (hab : Spec.NoneAboveAny P.D.fold u h)
    (hu : UniqueIds P.X (runBoth P .empty h).web.db) :
    (∀ o, InRepo P.D.fold (runBoth P .empty h).web.db u o ↔ ∃ os ∈ ps, Spec.Given P.X os (metaOf P.X o)) ∧
      Spec.refsAt P.D.fold (runBoth P .empty h).web.db.refs u = rs.map (branchRow u) ∧ ∀ p ∈ rs, branchOk p := by
  induction hp with
  | nothing =>
    refine ⟨fun o => ⟨fun ho => ?_, fun ⟨_, h, _⟩ => nomatch h⟩, rfl, fun _ h => nomatch h⟩
    rcases ho with ⟨r, hr⟩ | ⟨r, _, _, _, hr⟩ <;> exact nomatch (commitsAt_mem.1 hr).1
  | others h h2 ps rs _ hn ih =>
    have sub : ∀ x ∈ h, x ∈ h ++ h2 := fun x hx => List.mem_append_left _ hx
    have ext : Extends (runBoth P .empty h).web.db (runBoth P .empty (h ++ h2)).web.db := by
      rw [runBoth_append]
      exact runBoth_extends P _ _
    obtain ⟨a1, a2, a3⟩ := ih (sameFoldAny_sub sub hf) (noneAboveAny_sub sub hab) (ext.unique hu)
    obtain ⟨b1, b2⟩ := noPack_run h2 h hn hf hab hu
    exact ⟨fun o => (b1 o).trans (a1 o), b2.trans a2, a3⟩
  | push h h' ps rs rs' m c caps pack os _ hpub hmov ih =>
    obtain ⟨v, e⟩ := sentAny_ends hpub.sent
    have sub : ∀ x ∈ h, x ∈ h' := fun x hx => by rw [e]; exact List.mem_append_left _ hx
    have ext : Extends (runBoth P .empty h).web.db (runBoth P .empty h').web.db := by
      rw [e, runBoth_append]
      exact runBoth_extends P _ _
    have hm : m.sql.fold = P.D.fold := hf (m, v) (by rw [e]; simp)
    have hu0 := ext.unique hu
    obtain ⟨a1, a2, a3⟩ := ih (sameFoldAny_sub sub hf) (noneAboveAny_sub sub hab) hu0
    obtain ⟨rep, r1, _⟩ := C111_both_partial P hfold u h h' m hu0 hm hpub.rows c hpub.ok caps hpub.capsLen hpub.capsText (moved_applies a2 hmov) os pack hpub.packed hpub.project hpub.fuel hpub.sent
    obtain ⟨p, d1, d2⟩ := packOf_read hfold (both_nodes P h) hu0 hm hpub.packed (fuel := m.fuel) (by have := hpub.fuel; omega)
    have run0 := (runBoth_inv P u h (sameFoldAny_sub sub hf) (noneAboveAny_sub sub hab)).2.2
    have run0' : StoreRun P.X m.sql.fold u (runBoth P .empty h).web.db := by rw [hm]; exact run0
    obtain ⟨st, b1, b2, _⟩ := pushedAny_http hpub.ok hpub.capsLen hpub.capsText r1
    obtain ⟨p', db1, g1, g2, g3, g4, _, _⟩ := push_run run0' hpub.ok hpub.capsLen hpub.capsText (decodePack_magic d1) b1
    rw [d1] at g1
    cases g1
    refine ⟨fun o => ?_, ?_, ?_⟩
    · have hund : UniqueIds P.X db1 := by
        have ext : Extends db1 (runBoth P .empty h').web.db := by
          rw [b2]
          exact ⟨fun n hn => by rw [g3]; exact hn, fun n hn => by rw [g4]; exact hn⟩
        exact ext.unique hu
      rw [b2, inRepo_congr g3 g4, push_inRepo run0 m.sql hm hpub.rows.commits m.fuel pack p d1 g2 hund o, a1]
      constructor
      · rintro (⟨os', h1, h2⟩ | ⟨x, q1, rfl, q3⟩)
        · exact ⟨os', .tail _ h1, h2⟩
        · rw [d2] at q1 q3
          exact ⟨os, .head _, q1, q3⟩
      · rintro ⟨os', h1, h2⟩
        rcases List.mem_cons.1 h1 with rfl | h1
        · exact .inr ⟨_, by rw [d2]; exact h2.1, rfl, by rw [d2]; exact h2.2⟩
        · exact .inl ⟨os', h1, h2⟩
    · obtain ⟨hn, hk⟩ := hmov
      rcases pushedAny_refs hpub.ok hn hpub.capsLen hpub.capsText (decodePack_magic d1) r1 hm hpub.rows.refs with ⟨ho, e⟩ | ⟨ho, pre, r, post, e1, e2, e3, e4⟩
      · rcases hk with ⟨_, rfl⟩ | ⟨k, _⟩
        · rw [e, refsAt_append, a2]
          simp [Spec.refsAt, branchRow]
        · exact absurd ho k
      · rcases hk with ⟨k, _⟩ | ⟨_, pre', post', f1, f2, rfl⟩
        · exact absurd k ho
        · have split : ∀ x : RefRow, P.D.fold x.repoPath = P.D.fold u → Spec.refsAt P.D.fold (pre ++ x :: post) u = Spec.refsAt P.D.fold pre u ++ x :: Spec.refsAt P.D.fold post u := fun x hx => by
            rw [refsAt_append, show x :: post = [x] ++ post from rfl, refsAt_append]
            simp [Spec.refsAt, hx]
          rw [e1, split r e2, f1, List.map_append, List.map_cons] at a2
          obtain ⟨k1, k2, k3⟩ := split_unique (p := fun r => P.D.fold r.refGitId = P.D.fold c.old) a2 e3 (fun x hx => by
            rw [← List.map_append] at hx
            obtain ⟨y, hy, rfl⟩ := List.mem_map.1 hx
            exact f2 y hy)
          rw [e4, split { r with refGitId := c.new } e2, k1, k2, k3, List.map_append, List.map_cons]
          rfl
    · have hnew : branchOk (c.new, c.name) := by
        obtain ⟨_, _, o3, o4, _, o6, o7⟩ := hpub.ok
        exact ⟨o3, o4, hmov.1, o6, o7⟩
      intro q hq
      obtain ⟨_, ⟨_, rfl⟩ | ⟨_, pre, post, f1, _, rfl⟩⟩ := hmov
      · rcases List.mem_append.1 hq with hq | hq
        · exact a3 q hq
        · rw [List.mem_singleton.1 hq]
          exact hnew
      · rcases List.mem_append.1 hq with hq | hq
        · exact a3 q (by rw [f1]; simp [hq])
        · rcases List.mem_cons.1 hq with rfl | hq
          · exact hnew
          · exact a3 q (by rw [f1]; simp [hq])
  | fails h h' ps rs m c caps part pack os _ hfail ih =>
    obtain ⟨v, e⟩ := sentAny_ends hfail.sent
    have sub : ∀ x ∈ h, x ∈ h' := fun x hx => by rw [e]; exact List.mem_append_left _ hx
    have ext : Extends (runBoth P .empty h).web.db (runBoth P .empty h').web.db := by
      rw [e, runBoth_append]
      exact runBoth_extends P _ _
    have hu0 := ext.unique hu
    rw [(fails_same hfold hfail hu0 (hf (m, v) (by rw [e]; simp))).2]
    exact ih (sameFoldAny_sub sub hf) (noneAboveAny_sub sub hab) hu0
  | stale h h' ps rs m c caps pack os _ hpub hst ih =>
    obtain ⟨v, e⟩ := sentAny_ends hpub.sent
    have sub : ∀ x ∈ h, x ∈ h' := fun x hx => by rw [e]; exact List.mem_append_left _ hx
    have ext : Extends (runBoth P .empty h).web.db (runBoth P .empty h').web.db := by
      rw [e, runBoth_append]
      exact runBoth_extends P _ _
    have hm : m.sql.fold = P.D.fold := hf (m, v) (by rw [e]; simp)
    have hu0 := ext.unique hu
    obtain ⟨a1, a2, a3⟩ := ih (sameFoldAny_sub sub hf) (noneAboveAny_sub sub hab) hu0
    obtain ⟨_, p, db1, d1, d2, s1, s2, s3⟩ := stale_saved hfold hpub hst a2 hu0 hm
    have run0 := (runBoth_inv P u h (sameFoldAny_sub sub hf) (noneAboveAny_sub sub hab)).2.2
    rw [s2] at hu ⊢
    refine ⟨fun o => ?_, by rw [s3, a2], a3⟩
    rw [push_inRepo run0 m.sql hm hpub.rows.commits m.fuel pack p d1 s1 hu o, a1]
    constructor
    · rintro (⟨os', h1, h2⟩ | ⟨x, q1, rfl, q3⟩)
      · exact ⟨os', .tail _ h1, h2⟩
      · rw [d2] at q1 q3
        exact ⟨os, .head _, q1, q3⟩
    · rintro ⟨os', h1, h2⟩
      rcases List.mem_cons.1 h1 with rfl | h1
      · exact .inr ⟨_, by rw [d2]; exact h2.1, rfl, by rw [d2]; exact h2.2⟩
      · exact .inl ⟨os', h1, h2⟩

theorem given_meta {X : Ext} {os : List (Nat × Spec.Obj)} {m : MetaData} (h : Spec.Given X os m) : ∃ o, m = metaOf X o := by
  have h1 := h.1
  unfold Spec.found at h1
  obtain ⟨p, _, e⟩ := Option.map_eq_some_iff.1 h1
  exact ⟨p.2, e.symm⟩

/-! ## C152 -/

/-- **C152 (partial)** Whatever has been published to a repository, and whatever anybody has done on the two servers besides: the next push of a complete project is answered with `ok`. (Missing from the
full claim: as for `C152_exact_partial`.) -/
theorem C152_accepted_partial (P : ServerExt) (hfold : ∀ a b : Hash, P.D.fold (Hash.toPlainStr a) = P.D.fold (Hash.toPlainStr b) → a = b) (u : Bytes) (h h' : BothHist)
    (ps : List (List (Nat × Spec.Obj))) (rs rs' : List (Bytes × Bytes)) (hp : Spec.Published P u h ps rs) (hf : Spec.SameFoldAny P.D.fold h') (hab : Spec.NoneAboveAny P.D.fold u h')
    (hu : UniqueIds P.X (runBoth P .empty h).web.db) (m : Moment) (c : Spec.PushCmd) (caps pack : Bytes) (os : List (Nat × Spec.Obj)) (hpub : Spec.Publishes P u h h' m c caps pack os)
    (hmov : Spec.Moved P.D.fold c rs rs') :
    ∃ rep, Spec.PushedAny P u c caps pack rep m h h' ∧
      Spec.reportLines (decide (.sideBand ∈ parseCapabilities caps ∨ .sideBand64k ∈ parseCapabilities caps)) rep =
        some [ascii "unpack ok\n", Spec.statusLine (c.name ++ [0]) none] := by
  obtain ⟨v, e⟩ := sentAny_ends hpub.sent
  have sub : ∀ x ∈ h, x ∈ h' := fun x hx => by rw [e]; exact List.mem_append_left _ hx
  have a2 := (published_inv hfold hp (sameFoldAny_sub sub hf) (noneAboveAny_sub sub hab) hu).2.1
  exact C111_both_partial P hfold u h h' m hu (hf (m, v) (by rw [e]; simp)) hpub.rows c hpub.ok caps hpub.capsLen hpub.capsText (moved_applies a2 hmov) os pack hpub.packed hpub.project
    hpub.fuel hpub.sent

/-- **C152 (partial)** A repository is what has been published to it: after any history in which complete projects are pushed to it over HTTP and SSH, and anything else is done on both servers, a clone is
answered over HTTP and on every SSH connection opened for it, with the same bytes. It can be read, and it has exactly the objects of the projects published: their commits, and the directories and files
reachable from them. Pushes that do not arrive whole or lack objects, any number of them, make no difference (`Spec.Published.fails`). (Missing from the full claim: pushes that are refused for another reason
publish their objects all the same, see `C154_stale_false`; pushes without the objects that the server has, see `C111_both_update_false`; inserts that fail, see C105; paths above or below other repositories,
see C55; objects with the same id, see C72.) -/
theorem C152_exact_partial (P : ServerExt) (hfold : ∀ a b : Hash, P.D.fold (Hash.toPlainStr a) = P.D.fold (Hash.toPlainStr b) → a = b) (u : Bytes) (h : BothHist)
    (ps : List (List (Nat × Spec.Obj))) (rs : List (Bytes × Bytes)) (hp : Spec.Published P u h ps rs) (hf : Spec.SameFoldAny P.D.fold h) (hab : Spec.NoneAboveAny P.D.fold u h)
    (hu : UniqueIds P.X (runBoth P .empty h).web.db) (hfit : FitsPack P.X (runBoth P .empty h).web.db) (hcommit : ∃ os ∈ ps, ∃ m, Spec.Given P.X os m) (m2 : Moment)
    (hm2 : m2.sql.fold = P.D.fold) (hfuel : (runBoth P .empty h).web.db.nodes.length ≤ m2.fuel) (hord : ∀ l x, x ∈ m2.ord l ↔ x ∈ l) (hcut : Spec.CutOk m2.cut)
    (ls : List Spec.ReqLine) (t rest : Bytes) (hr : Spec.CloneReq ls t) :
    ∃ out file ms, (∀ g, Spec.CleanUrl u → (g = [] ∨ g = ascii ".git") →
        (serve P m2 (runBoth P .empty h).web (Spec.fetchReq (u ++ g) (doneBody ls t rest))).1 = .reply (.ok (.bytes out))) ∧
      (∀ i ch, Spec.Opened P u i h → (sshStep P.X m2 (runBoth P .empty h).ssh i (.data ch (doneBody ls t rest))).1 = [(ch, out)]) ∧
      Spec.readClone out = some file ∧ PackHas P.X file ms ∧ ∀ m, m ∈ ms ↔ ∃ os ∈ ps, Spec.Given P.X os m := by
  obtain ⟨a1, _, _⟩ := published_inv hfold hp hf hab hu
  have hend := (runBoth_inv P u _ hf hab).2.2
  have hne : commitsAt P.D.fold (runBoth P .empty h).web.db.commits u ≠ [] := by
    obtain ⟨os, o1, m, o2⟩ := hcommit
    obtain ⟨o, rfl⟩ := given_meta o2
    have hx := (a1 o).2 ⟨os, o1, o2⟩
    intro e
    cases hx with
    | commit r hr => rw [e] at hr; cases hr
    | node r _ _ _ hr => rw [e] at hr; cases hr
  have inv := storeRun_inv hend hu
  have hdeep : ∀ r ∈ commitsAt P.D.fold (runBoth P .empty h).web.db.commits u, ∀ c, Commit.decode r.data = .ok c →
      Spec.NestedWithin (runBoth P .empty h).web.db.nodes m2.fuel c.treeId := fun _ hr' _ hc => inv.nested hr' hc hfuel
  have hend' := hend
  have hfold' := hfold
  rw [← hm2] at hend' hfold' hdeep hne
  obtain ⟨file0, _, c1, _⟩ := C49_clone_partial P.X m2.sql u _ hend' hu hfold' hfit m2.fuel hdeep hne
  obtain ⟨out, ho⟩ := httpUploadPack_ok (St := mysqlFetch P.X m2.sql m2.fuel (runBoth P .empty h).web.db u) (cut := m2.cut) (rest := rest) hord hr c1
  obtain ⟨file, f1, f2⟩ := httpUploadPack_clone hord hcut hr ho
  obtain ⟨ms, w1, w2⟩ := clone_has hend hu hfold hfit hm2 f1
  refine ⟨out, file, ms, fun g hg1 hg2 => ?_, fun i ch hop => ?_, f2, w1, fun m => ?_⟩
  · simp only [serve, Spec.fetchReq, route_fetch hg1 hg2, ho, Res.outcome]
  · rw [opened_sent hop (fun l x => (hord l x).1), ho]
    refine if_neg ?_
    intro e
    have e : out = [] := e
    rw [e] at f2
    cases f2
  · rw [w2]
    constructor
    · rintro ⟨o, h1, rfl⟩
      exact (a1 o).1 h1
    · rintro ⟨os, h1, h2⟩
      obtain ⟨o, rfl⟩ := given_meta h2
      exact ⟨o, (a1 o).2 ⟨os, h1, h2⟩, rfl⟩

/-- **C152 (partial)** Nothing else matters: two repositories, on the same servers or on different ones, to which the same objects have been published, in whatever order, in however many pushes, packed in
whatever way, over HTTP or SSH, with whatever happens in between, give clones with the same objects. (As above.) -/
theorem C152_same_partial (P : ServerExt) (hfold : ∀ a b : Hash, P.D.fold (Hash.toPlainStr a) = P.D.fold (Hash.toPlainStr b) → a = b) (u u' : Bytes) (h h' : BothHist)
    (ps ps' : List (List (Nat × Spec.Obj))) (rs rs' : List (Bytes × Bytes)) (hp : Spec.Published P u h ps rs) (hp' : Spec.Published P u' h' ps' rs')
    (heq : ∀ m, (∃ os ∈ ps, Spec.Given P.X os m) ↔ ∃ os ∈ ps', Spec.Given P.X os m)
    (hf : Spec.SameFoldAny P.D.fold h) (hf' : Spec.SameFoldAny P.D.fold h') (hab : Spec.NoneAboveAny P.D.fold u h) (hab' : Spec.NoneAboveAny P.D.fold u' h')
    (hu : UniqueIds P.X (runBoth P .empty h).web.db) (hu' : UniqueIds P.X (runBoth P .empty h').web.db)
    (hfit : FitsPack P.X (runBoth P .empty h).web.db) (hfit' : FitsPack P.X (runBoth P .empty h').web.db) (m m' : Moment) (hm : m.sql.fold = P.D.fold) (hm' : m'.sql.fold = P.D.fold)
    (hord : ∀ l x, x ∈ m.ord l ↔ x ∈ l) (hcut : Spec.CutOk m.cut) (hord' : ∀ l x, x ∈ m'.ord l ↔ x ∈ l) (hcut' : Spec.CutOk m'.cut)
    (ls ls' : List Spec.ReqLine) (t rest t' rest' out out' : Bytes) (hr : Spec.CloneReq ls t) (hr' : Spec.CloneReq ls' t')
    (hfe : Spec.FetchedAny P u (doneBody ls t rest) out m h) (hfe' : Spec.FetchedAny P u' (doneBody ls' t' rest') out' m' h') :
    ∃ file file' ms ms', Spec.readClone out = some file ∧ Spec.readClone out' = some file' ∧ PackHas P.X file ms ∧ PackHas P.X file' ms' ∧ ms.Perm ms' := by
  obtain ⟨a1, _, _⟩ := published_inv hfold hp hf hab hu
  obtain ⟨b1, _, _⟩ := published_inv hfold hp' hf' hab' hu'
  obtain ⟨file, f1, f2⟩ := httpUploadPack_clone hord hcut hr (fetchedAny_http (fun l x => (hord l x).1) hfe)
  obtain ⟨file', f1', f2'⟩ := httpUploadPack_clone hord' hcut' hr' (fetchedAny_http (fun l x => (hord' l x).1) hfe')
  obtain ⟨ms, w1, w2⟩ := clone_has (runBoth_inv P u _ hf hab).2.2 hu hfold hfit hm f1
  obtain ⟨ms', w1', w2'⟩ := clone_has (runBoth_inv P u' _ hf' hab').2.2 hu' hfold hfit' hm' f1'
  refine ⟨file, file', ms, ms', f2, f2', w1, w1', (List.perm_ext_iff_of_nodup w1.1 w1'.1).2 fun x => ?_⟩
  rw [w2, w2']
  constructor
  · rintro ⟨o, h1, rfl⟩
    exact ⟨o, (b1 o).2 ((heq _).1 ((a1 o).1 h1)), rfl⟩
  · rintro ⟨o, h1, rfl⟩
    exact ⟨o, (a1 o).2 ((heq _).2 ((b1 o).1 h1)), rfl⟩

/-- **C152 (partial)** The branches of a repository are those published: after such a history whoever asks for the refs, over HTTP or on any SSH connection, reads exactly the branches (with a NUL
byte after each name, `C150_name_false`), and as HEAD one of them that the database takes for master. (Missing from the full claim: as above; repositories without a branch master, see C122; with branches at the same
commit, see C52.) -/
theorem C152_branches_partial (P : ServerExt) (hfold : ∀ a b : Hash, P.D.fold (Hash.toPlainStr a) = P.D.fold (Hash.toPlainStr b) → a = b) (u : Bytes) (hb : (0x5c : UInt8) ∉ u) (h : BothHist)
    (ps : List (List (Nat × Spec.Obj))) (rs : List (Bytes × Bytes)) (hp : Spec.Published P u h ps rs) (hf : Spec.SameFoldAny P.D.fold h) (hab : Spec.NoneAboveAny P.D.fold u h)
    (hu : UniqueIds P.X (runBoth P .empty h).web.db) (hids : (rs.map Prod.fst).Nodup) (hmas : ∃ p ∈ rs, P.D.fold (p.2 ++ [0]) = P.D.fold (ascii "refs/heads/master"))
    (m : Moment) (hm : m.sql.fold = P.D.fold) (t : ServiceType) :
    ∃ head refs, Spec.ToldBoth P u t m h head refs ∧ refs.Perm (rs.map (fun p => (p.1, p.2 ++ [0]))) ∧
      ∃ name, (head, name) ∈ rs ∧ P.D.fold (name ++ [0]) = P.D.fold (ascii "refs/heads/master") := by
  obtain ⟨_, a2, a3⟩ := published_inv hfold hp hf hab hu
  have hpath : ∀ r ∈ Spec.refsAt P.D.fold (runBoth P .empty h).web.db.refs u, ∃ p ∈ rs, r = branchRow u p := fun r hr => by
    rw [a2] at hr
    obtain ⟨p, h1, h2⟩ := List.mem_map.1 hr
    exact ⟨p, h1, h2.symm⟩
  have hmas' : Spec.HasMaster P.D.fold (runBoth P .empty h).web.db u := by
    obtain ⟨p, h1, h2⟩ := hmas
    have : branchRow u p ∈ Spec.refsAt P.D.fold (runBoth P .empty h).web.db.refs u := by
      rw [a2]
      exact List.mem_map.2 ⟨p, h1, rfl⟩
    exact ⟨branchRow u p, (refsAt_mem.1 this).1, rfl, h2⟩
  have htell : Spec.Tellable P.D.fold (runBoth P .empty h).web.db.refs u := by
    refine ⟨?_, fun r hr => ?_⟩
    · rw [a2, List.map_map]
      exact hids
    · obtain ⟨p, h1, rfl⟩ := hpath r hr
      obtain ⟨k1, k2, k3, k4, k5⟩ := a3 p h1
      refine ⟨⟨k1, k2, ?_, ?_⟩, ?_, k3⟩
      · simp only [branchRow, List.length_append, List.length_singleton]
        omega
      · intro hx
        rcases List.mem_append.1 hx with hx | hx
        · exact absurd (k5 _ hx).1 (by decide)
        · exact absurd hx (by decide)
      · refine utf8Valid_ascii _ fun x hx => ?_
        rcases List.mem_append.1 hx with hx | hx
        · exact Nat.lt_of_lt_of_le (k5 _ hx).2 (by decide)
        · rw [List.mem_singleton.1 hx]
          decide
  obtain ⟨r, refs, k1, k2, k3, k4, k5⟩ := told_both hb t m hm h hmas' htell
  rw [a2, List.map_map] at k5
  refine ⟨_, refs, k1, k5, ?_⟩
  obtain ⟨p, h1, rfl⟩ := hpath r (refsAt_mem.2 ⟨k2, by rw [k3]⟩)
  exact ⟨p.2, h1, k4⟩

/-- **C154 is false** for pushes whose branch has moved: a complete project is pushed with a command that cannot be carried out, since no branch is at the old id any more, or because it deletes a branch.
The push gets no answer, and the branches are as before; but all objects of the push are in the repository: every clone has them from then on, whatever anybody does, unless there are pushes to the repository. -/
theorem C154_stale_false (P : ServerExt) (hfold : ∀ a b : Hash, P.D.fold (Hash.toPlainStr a) = P.D.fold (Hash.toPlainStr b) → a = b) (u : Bytes) (h h' h2 : BothHist)
    (ps : List (List (Nat × Spec.Obj))) (rs : List (Bytes × Bytes)) (hp : Spec.Published P u h ps rs) (hf : Spec.SameFoldAny P.D.fold (h' ++ h2)) (hab : Spec.NoneAboveAny P.D.fold u (h' ++ h2))
    (hu : UniqueIds P.X (runBoth P .empty (h' ++ h2)).web.db) (hfit : FitsPack P.X (runBoth P .empty (h' ++ h2)).web.db) (m : Moment) (c : Spec.PushCmd) (caps pack : Bytes)
    (os : List (Nat × Spec.Obj)) (hpub : Spec.Publishes P u h h' m c caps pack os) (hst : Spec.Stale P.D.fold c rs) (hno : Spec.NoPack P u (runBoth P .empty h') h2) :
    Spec.LostAny P u c caps pack m h h' ∧ Spec.Published P u (h' ++ h2) (os :: ps) rs ∧
      ∀ (m2 : Moment) (ls : List Spec.ReqLine) (t rest out : Bytes), m2.sql.fold = P.D.fold → (∀ l x, x ∈ m2.ord l ↔ x ∈ l) → Spec.CutOk m2.cut → Spec.CloneReq ls t →
        Spec.FetchedAny P u (doneBody ls t rest) out m2 (h' ++ h2) →
        ∃ file ms, Spec.readClone out = some file ∧ PackHas P.X file ms ∧ ∀ x, Spec.Given P.X os x → x ∈ ms := by
  obtain ⟨v, e⟩ := sentAny_ends hpub.sent
  have sub' : ∀ x ∈ h', x ∈ h' ++ h2 := fun x hx => List.mem_append_left _ hx
  have sub : ∀ x ∈ h, x ∈ h' ++ h2 := fun x hx => sub' x (by rw [e]; exact List.mem_append_left _ hx)
  have ext : Extends (runBoth P .empty h).web.db (runBoth P .empty (h' ++ h2)).web.db := by
    rw [e, List.append_assoc, runBoth_append]
    exact runBoth_extends P _ _
  have hu0 := ext.unique hu
  have a2 := (published_inv hfold hp (sameFoldAny_sub sub hf) (noneAboveAny_sub sub hab) hu0).2.1
  have hpub' : Spec.Published P u (h' ++ h2) (os :: ps) rs := .others h' h2 _ _ (.stale h h' ps rs m c caps pack os hp hpub hst) hno
  refine ⟨(stale_saved hfold hpub hst a2 hu0 (hf (m, v) (sub' _ (by rw [e]; simp)))).1, hpub', ?_⟩
  intro m2 ls t rest out hm2 hord hcut hr hfe
  obtain ⟨b1, _, _⟩ := published_inv hfold hpub' hf hab hu
  obtain ⟨file, f1, f2⟩ := httpUploadPack_clone hord hcut hr (fetchedAny_http (fun l x => (hord l x).1) hfe)
  obtain ⟨ms, w1, w2⟩ := clone_has (runBoth_inv P u _ hf hab).2.2 hu hfold hfit hm2 f1
  refine ⟨file, ms, f2, w1, fun x hx => ?_⟩
  obtain ⟨o, rfl⟩ := given_meta hx
  exact (w2 _).2 ⟨o, (b1 o).2 ⟨os, .head _, hx⟩, rfl⟩

end Gust

import Verif.Props.BelowExamples

/-! # C90: a repository serves only what was pushed to it -/

namespace Gust

open Spec (nodeObj StoreReach commitsAt InRepo)

/-- A pack that a client sent, in a history of requests, to a path the database takes for `path`: the pack in the body of a push request, as decoded when it arrived. -/
def Spec.PushedPack (P : ServerExt) (path : Bytes) (h : List (Moment × HttpReq)) (p : Pack) : Prop :=
  ∃ h1 m r h2 repo file, h = h1 ++ (m, r) :: h2 ∧ route r.method r.path r.service = .receivePack repo ∧ P.D.fold repo = P.D.fold path ∧ file = Spec.packPart r.body ∧
    decodePack P.X (getHashObject P.X m.sql (runServer P .empty h1).db) m.fuel file = .ok p

/-- An object that some client sent to the path: it is in a pack pushed there. -/
def Spec.PushedTo (P : ServerExt) (path : Bytes) (h : List (Moment × HttpReq)) (o : Spec.Obj) : Prop :=
  ∃ p, Spec.PushedPack P path h p ∧ p.result.hashObject (idOf P.X o) = some (metaOf P.X o)

theorem Spec.PushedPack.more {P : ServerExt} {path : Bytes} {h : List (Moment × HttpReq)} {p : Pack} (hp : Spec.PushedPack P path h p) (h' : List (Moment × HttpReq)) :
    Spec.PushedPack P path (h ++ h') p := by
  obtain ⟨h1, m, r, h2, repo, file, e, rest⟩ := hp
  exact ⟨h1, m, r, h2 ++ h', repo, file, by rw [e]; simp, rest⟩

/-- Every commit stored for the path came in a pack pushed there, together with rows for all that is reachable in the pack. -/
def Confined (P : ServerExt) (path : Bytes) (h : List (Moment × HttpReq)) (db : Db) : Prop :=
  ∀ r ∈ commitsAt P.D.fold db.commits path, ∃ p, Spec.PushedPack P path h p ∧
    (∃ o c, p.result.hashObject o.id = some o ∧ o.t = .commit ∧ r.data = o.data ∧ Commit.decode o.data = .ok c) ∧
    ∀ x, Spec.PackReach p.result.hashObject x → ∃ n ∈ db.nodes, n.gitId = Hash.toPlainStr x ∧
      ∃ o, p.result.hashObject o.id = some o ∧ o = metaOf P.X (nodeObj n)

theorem Confined.mono {P : ServerExt} {path : Bytes} {h : List (Moment × HttpReq)} {db db' : Db} (hc : Confined P path h db) (h' : List (Moment × HttpReq))
    (hn : ∀ n ∈ db.nodes, n ∈ db'.nodes) {r : CommitRow} (hr : r ∈ commitsAt P.D.fold db.commits path) :
    ∃ p, Spec.PushedPack P path (h ++ h') p ∧
    (∃ o c, p.result.hashObject o.id = some o ∧ o.t = .commit ∧ r.data = o.data ∧ Commit.decode o.data = .ok c) ∧
    ∀ x, Spec.PackReach p.result.hashObject x → ∃ n ∈ db'.nodes, n.gitId = Hash.toPlainStr x ∧
      ∃ o, p.result.hashObject o.id = some o ∧ o = metaOf P.X (nodeObj n) := by
  obtain ⟨p, h1, h2, h3⟩ := hc r hr
  refine ⟨p, h1.more h', h2, fun x hx => ?_⟩
  obtain ⟨n, hm, rest⟩ := h3 x hx
  exact ⟨n, hn n hm, rest⟩

theorem confined_run (P : ServerExt) (path : Bytes) : ∀ (n : Nat) (h : List (Moment × HttpReq)), h.length = n →
    Spec.NoneAbove P.D.fold path h → Confined P path h (runServer P .empty h).db
  | 0, h, hn, _ => by
    have : h = [] := List.length_eq_zero_iff.1 hn
    subst this
    intro r hr
    cases hr
  | n + 1, h, hn, hab => by
    have hne : h ≠ [] := by rintro rfl; cases hn
    obtain ⟨h', ⟨m, q⟩, rfl⟩ : ∃ h' q, h = h' ++ [q] := ⟨h.dropLast, h.getLast hne, (List.dropLast_append_getLast hne).symm⟩
    have ih := confined_run P path n h' (by simpa using hn) (fun p hp q hq => hab p (by simp [hp]) q (by simp [hq]))
    have habove : ∀ a, q.repo = some a → P.D.fold a = P.D.fold path → ∀ x ∈ (runServer P .empty h').db.refs, pathStartsWith a x.repoPath = true → x.repoPath = a := by
      intro a ha he x hx hp
      obtain ⟨p, hp1, hp2⟩ := run_paths P _ h' rfl x hx
      exact hab p (by simp [hp1]) (m, q) (by simp) _ _ hp2 ha he hp
    rw [runServer_concat, serve_db]
    unfold HttpReq.repo at habove
    cases h : route q.method q.path q.service <;> rw [h] at habove <;> simp only <;> (try exact fun r hr => ih.mono _ (fun _ h => h) hr)
    · rename_i repo t
      obtain ⟨k1, _, k3⟩ := getHead_only P.X m.sql repo (runServer P .empty h').db
      by_cases he : P.D.fold repo = P.D.fold path
      · rw [getHead_same _ _ _ _ (habove repo rfl he)]
        exact fun r hr => ih.mono _ (fun _ h => h) hr
      · intro r hr
        obtain ⟨h1, h2⟩ := commitsAt_mem.1 hr
        rcases k3 r h1 with h1 | h1
        · exact ih.mono _ (fun n hn => by rw [k1]; exact hn) (commitsAt_mem.2 ⟨h1, h2⟩)
        · rw [h1] at h2
          exact absurd h2 he
    · rename_i repo
      have key : ∀ file p, file = Spec.packPart q.body → decodePack P.X (getHashObject P.X m.sql (runServer P .empty h').db) m.fuel file = .ok p →
          Confined P path (h' ++ [(m, q)]) (savePackfile m.sql m.fuel p repo (runServer P .empty h').db).2 := by
        intro file p hfile hd r hr
        obtain ⟨rows, h1, h2, h3, h4⟩ := push_effect hd m.sql m.fuel repo (runServer P .empty h').db
        obtain ⟨g1, g2⟩ := commitsAt_mem.1 hr
        rcases h4 r g1 with g1 | ⟨g3, g4, o, c, g5, g6, g7, g8, _⟩
        · exact ih.mono _ (fun n hn => by rw [h1]; exact List.mem_append_left _ hn) (commitsAt_mem.2 ⟨g1, g2⟩)
        · refine ⟨p, ⟨h', m, q, [], repo, file, rfl, h, ?_, hfile, hd⟩, ⟨o, c, g5, g6, g7, g8⟩, fun x hx => ?_⟩
          · rw [← g3]; exact g2
          · obtain ⟨n, hn, e⟩ := g4 x hx
            obtain ⟨o', e1, e2, _⟩ := h2 n hn
            exact ⟨n, by rw [h1]; exact List.mem_append_right _ hn, e, o', e1, e2⟩
      rcases httpReceiveDb_from P.X m.sql m.fuel repo q.body (runServer P .empty h').db with e | ⟨file, p, hfile, hd, e | ⟨cmd, e⟩⟩ <;> rw [e]
      · exact fun r hr => ih.mono _ (fun _ h => h) hr
      · exact key file p hfile hd
      · obtain ⟨k1, k2⟩ := handleRefs_only m.sql cmd repo (savePackfile m.sql m.fuel p repo (runServer P .empty h').db).2
        have := key file p hfile hd
        unfold Confined at this ⊢
        rw [k1, k2]
        exact this

/-- Every commit stored for the path came in a pack with the property `Q`, together with rows for all that is reachable in the pack. -/
def ConfinedIn (X : Ext) (fold : Bytes → Bytes) (path : Bytes) (Q : Pack → Prop) (db : Db) : Prop :=
  ∀ r ∈ commitsAt fold db.commits path, ∃ p, Q p ∧
    (∃ o c, p.result.hashObject o.id = some o ∧ o.t = .commit ∧ r.data = o.data ∧ Commit.decode o.data = .ok c) ∧
    ∀ x, Spec.PackReach p.result.hashObject x → ∃ n ∈ db.nodes, n.gitId = Hash.toPlainStr x ∧
      ∃ o, p.result.hashObject o.id = some o ∧ o = metaOf X (nodeObj n)

theorem confinedIn_obj {X : Ext} {fold : Bytes → Bytes} {path : Bytes} {Q : Pack → Prop} (hQ : ∀ p, Q p → ∃ St fuel file, decodePack X St fuel file = .ok p) {db : Db}
    (inv : StoreInv X fold path db) (hu : UniqueIds X db) (hc : ConfinedIn X fold path Q db) {o : Spec.Obj} (ho : InRepo fold db path o) :
    ∃ p, Q p ∧ p.result.hashObject (idOf X o) = some (metaOf X o) := by
  have same := same_of_inv inv hu
  cases ho with
  | commit r hr =>
    obtain ⟨p, h1, ⟨o, c, g1, g2, g3, g4⟩, _⟩ := hc r hr
    obtain ⟨hist, ehist, hok⟩ : ∃ hist, p.result = PackCache.empty.run hist ∧ HistOk X (2 ^ 32 - 1) hist := by
      obtain ⟨_, _, _, hd⟩ := hQ p h1
      exact decodePack_hist hd
    have e : metaOf X (.commit, r.data) = o := by
      rw [g3, ← g2]
      rw [ehist, PackCache.hashObject_run] at g1
      obtain ⟨q, hq, rfl⟩ := Option.map_eq_some_iff.1 g1
      exact (metaOf_of_new (hok q (PackCache.lastWith_some hq).1).2).2
    refine ⟨p, h1, ?_⟩
    rw [show idOf X (.commit, r.data) = (metaOf X (.commit, r.data)).id from rfl, e]
    exact g1
  | node r c x n hr hd hre hn e =>
    obtain ⟨p, h1, ⟨o, c', g1, g2, g3, g4⟩, g5⟩ := hc r hr
    rw [g3, g4] at hd
    cases hd
    have reach : ∀ x, StoreReach db.nodes c.treeId x → Spec.PackReach p.result.hashObject x := by
      intro x hx
      induction hx with
      | refl => exact .commit o c g1 g2 g4
      | item n t items i _ hn e ht hd hi ih =>
        obtain ⟨n0, hn0, e0, o', k1, k2⟩ := g5 t ih
        have es : nodeObj n = nodeObj n0 := same n hn n0 hn0 (by rw [e, e0])
        have et : t = o'.id := by
          have := inv.id n0 hn0
          rw [e0] at this
          rw [k2]
          exact Hash.toPlainStr_injective this
        rw [et] at ih
        have en : nodeObj n = (.tree, n.data) := by unfold nodeObj; rw [if_pos ht]
        rw [← es, en] at k2
        refine .item o' items i ih k1 ?_ ?_ hi
        · rw [k2]; rfl
        · rw [k2]; exact hd
    obtain ⟨n0, hn0, e0, o', k1, k2⟩ := g5 x (reach x hre)
    rw [same n hn n0 hn0 (by rw [e, e0])]
    rw [k2] at k1
    exact ⟨p, h1, k1⟩

/-- **C90 (partial)** After any history of requests, every object of the repository at a path, that is every object a clone of it contains, is in a pack that some client pushed to
that path. `hu`: no SHA-1 collision among stored objects. (Missing from the full claim: paths below another repository, see `C90_below_false`; that commit ids of other repositories
are acknowledged, see `C103_other_repository_false`.) -/
theorem C90_confined_partial (P : ServerExt) (path : Bytes) (h : List (Moment × HttpReq)) (hf : Spec.SameFold P.D.fold h) (hab : Spec.NoneAbove P.D.fold path h)
    (hu : UniqueIds P.X (runServer P .empty h).db) (o : Spec.Obj) (ho : InRepo P.D.fold (runServer P .empty h).db path o) : Spec.PushedTo P path h o := by
  have inv := storeRun_inv (run_store P path _ h rfl hf hab) hu
  refine confinedIn_obj ?_ inv hu (confined_run P path _ h rfl hab) ho
  rintro p ⟨_, _, _, _, _, _, _, _, _, _, hd⟩
  exact ⟨_, _, _, hd⟩

theorem readPktLine_infix {body : Bytes} {r : (Nat × Bytes) × Bytes} (h : readPktLine body = .ok r) : r.1.2 <:+: body := by
  unfold readPktLine at h
  split at h
  · cases h; exact List.nil_infix
  · split at h
    · cases h
    · split at h
      · cases h
      · simp only at h
        split at h
        · cases h; exact List.nil_infix
        · split at h
          · cases h
          · split at h
            · cases h
            · cases h
              exact (List.take_prefix _ _).isInfix.trans (List.drop_suffix _ _).isInfix

theorem firstCaps_ids {s s' : FetchState} {l : Bytes} (h : firstCaps s l = .ok s') : s'.want = s.want ∧ s'.have_ = s.have_ := by
  unfold firstCaps at h
  split at h
  · simp only [Res.bind_eq_ok] at h
    obtain ⟨t, _, h⟩ := h
    split at h
    · cases h; exact ⟨rfl, rfl⟩
    · cases h
  · cases h; exact ⟨rfl, rfl⟩

theorem lineId_infix {l id : Bytes} (h : lineId l = .ok id) : id <:+: l := by
  simp only [lineId, Res.bind_eq_ok] at h
  obtain ⟨t, h1, h⟩ := h
  split at h
  · cases h
    unfold slice at h1
    split at h1
    · cases h1
      first
        | exact (List.drop_suffix _ _).isInfix.trans (List.take_prefix _ _).isInfix
        | exact (List.take_prefix _ _).isInfix.trans (List.drop_suffix _ _).isInfix
    · cases h1
  · cases h

theorem insertNew_mem' {x y : Bytes} {l : List Bytes} (h : x ∈ insertNew y l) : x ∈ l ∨ x = y := by
  unfold insertNew at h
  split at h
  · exact .inl h
  · simpa using h

/-- The ids in the state of the request loop were sent by the client. -/
theorem fetchLoop_ids (body : Bytes) : ∀ (fuel : Nat) (s : FetchState) (b : Bytes) (s' : FetchState) (rest : Bytes), b <:+: body →
    (∀ x ∈ s.want, x <:+: body) → (∀ x ∈ s.have_, x <:+: body) → fetchLoop fuel s b = .ok (s', rest) →
    (∀ x ∈ s'.want, x <:+: body) ∧ ∀ x ∈ s'.have_, x <:+: body
  | 0, _, _, _, _, _, _, _, h => by cases h
  | fuel + 1, s, b, s', rest, hb, h1, h2, h => by
    simp only [fetchLoop, Res.bind_eq_ok] at h
    obtain ⟨⟨⟨n, line⟩, r⟩, hl, h⟩ := h
    have hr : r <:+: body := (readPktLine_rest hl).isInfix.trans hb
    have hline : line <:+: body := (readPktLine_infix hl).trans hb
    simp only at h
    split at h
    · exact fetchLoop_ids body fuel s r s' rest hr h1 h2 h
    · simp only [Res.bind_eq_ok] at h
      obtain ⟨o, ho, h⟩ := h
      cases o with
      | none =>
        cases h
        exact ⟨h1, h2⟩
      | some s1 =>
        refine fetchLoop_ids body fuel s1 r s' rest hr ?_ ?_ h <;>
        · simp only [fetchLine, Res.bind_eq_ok] at ho
          obtain ⟨cmd, _, ho⟩ := ho
          split at ho
          · simp only [Res.bind_eq_ok] at ho
            obtain ⟨id, hid, s2, hs, ho⟩ := ho
            cases ho
            obtain ⟨e1, e2⟩ := firstCaps_ids hs
            intro x hx
            first
              | (rw [e2] at hx; exact h2 x hx)
              | (rw [e1] at hx
                 rcases insertNew_mem' hx with hx | rfl
                 · exact h1 x hx
                 · exact (lineId_infix hid).trans hline)
          · split at ho
            · simp only [Res.bind_eq_ok] at ho
              obtain ⟨id, hid, s2, hs, ho⟩ := ho
              cases ho
              obtain ⟨e1, e2⟩ := firstCaps_ids hs
              intro x hx
              first
                | (rw [e1] at hx; exact h1 x hx)
                | (rw [e2] at hx
                   rcases insertNew_mem' hx with hx | rfl
                   · exact h2 x hx
                   · exact (lineId_infix hid).trans hline)
            · split at ho
              · cases ho
              · cases ho
                first | exact h1 | exact h2

theorem foldl_pkts (ls : List Bytes) : ∀ b, ls.foldl addPktLine b = b ++ ls.flatMap (fun l => hex4 (l.length + 4) ++ l) := by
  induction ls with
  | nil => intro b; simp
  | cons l ls ih => intro b; rw [List.foldl_cons, ih, addPktLine, List.flatMap_cons]; simp

/-- A line before the pack of a fetch reply that says nothing but which of the ids in the request are known (`NAK`, or `ACK` with an id the client sent or the fixed one). -/
def Spec.AckLine (body l : Bytes) : Prop :=
  l = ascii "NAK\n" ∨ ∃ id word, (id <:+: body ∨ id = hardCodedAck) ∧ (word = ascii "common" ∨ word = ascii "ready" ∨ word = []) ∧
    l = ascii "ACK " ++ id ++ ascii " " ++ word ++ ascii "\n"

theorem acks_ok {St : FetchStore} {body : Bytes} {ids : List Bytes} (h : ∀ x ∈ ids, x <:+: body) : (∀ l ∈ haveAcks St ids, Spec.AckLine body l) ∧
    ∀ b, ∀ l ∈ wantAcks St b ids, Spec.AckLine body l := by
  have ack : ∀ id ∈ ids, ∀ w, w = ascii "common" ∨ w = ascii "ready" → Spec.AckLine body (ackLine id w) := by
    intro id hid w hw
    exact .inr ⟨id, w, .inl (h id hid), hw.imp_right .inl, rfl⟩
  constructor
  · intro l hl
    obtain ⟨id, hid, hl⟩ := List.mem_flatMap.1 hl
    split at hl
    · rw [List.mem_singleton.1 hl]; exact ack id hid _ (.inl rfl)
    · cases hl
  · intro b l hl
    obtain ⟨id, hid, hl⟩ := List.mem_flatMap.1 hl
    rcases List.mem_append.1 hl with hl | hl
    · split at hl
      · rw [List.mem_singleton.1 hl]; exact ack id hid _ (.inl rfl)
      · cases hl
    · split at hl
      · rw [List.mem_singleton.1 hl]; exact ack id hid _ (.inr rfl)
      · cases hl

/-- The parts of a fetch reply. -/
theorem httpUploadPack_parts {St : FetchStore} {ord : List Bytes → List Bytes} (hord : ∀ l x, x ∈ ord l ↔ x ∈ l) {cut : Bytes → List Bytes} {body out : Bytes}
    (h : httpUploadPack St ord cut body = .ok out) : ∃ (lines : List Bytes) (caps : List Capability) (file : Bytes), out = lines.flatMap (fun l => hex4 (l.length + 4) ++ l) ++ sendPack caps (cut file) ∧
      (∀ l ∈ lines, Spec.AckLine body l) ∧ (file = [] ∨ St.fullPack = .ok file ∨ ∃ w v, St.incPack w v = .ok file) := by
  have last : Spec.AckLine body (ascii "ACK " ++ hardCodedAck ++ ascii " \n") := .inr ⟨hardCodedAck, [], .inr rfl, .inr (.inr rfl), by decide⟩
  simp only [httpUploadPack, Res.bind_eq_ok, Res.pure_eq, Res.ok.injEq] at h
  obtain ⟨⟨s, rest⟩, h1, ⟨file, buf⟩, h2, rfl⟩ := h
  obtain ⟨hw, hh⟩ := fetchLoop_ids body _ _ body s rest (List.infix_refl _) (by intro x hx; cases hx) (by intro x hx; cases hx) h1
  dsimp only at h2
  have pkt : ∀ l : Bytes, addPktLine [] l = [l].flatMap (fun l => hex4 (l.length + 4) ++ l) := by intro l; simp [addPktLine]
  unfold fetchAnswer at h2
  split at h2
  · simp only [Res.bind_eq_ok, Res.pure_eq, Res.unwrap_eq_ok, Res.ok.injEq, Prod.mk.injEq] at h2
    obtain ⟨f, h2, rfl, rfl⟩ := h2
    exact ⟨[ascii "NAK\n"], s.caps, f, by dsimp only; rw [pkt], by intro l hl; rw [List.mem_singleton.1 hl]; exact .inl rfl, .inr (.inl h2)⟩
  · split at h2
    · simp only [Res.bind_eq_ok, Res.pure_eq, Res.unwrap_eq_ok, Res.ok.injEq, Prod.mk.injEq] at h2
      obtain ⟨f, h2, rfl, rfl⟩ := h2
      refine ⟨haveAcks St (ord s.have_) ++ wantAcks St (decide (Capability.noDone ∈ s.caps)) (ord s.want) ++ [ascii "ACK " ++ hardCodedAck ++ ascii " \n"], s.caps, f, ?_, ?_,
        .inr (.inr ⟨_, _, h2⟩)⟩
      · rw [foldl_pkts, foldl_pkts, addPktLine]
        simp
      · intro l hl
        rcases List.mem_append.1 hl with hl | hl
        · rcases List.mem_append.1 hl with hl | hl
          · exact (acks_ok (fun x hx => hh x ((hord _ x).1 hx))).1 l hl
          · exact (acks_ok (fun x hx => hw x ((hord _ x).1 hx))).2 _ l hl
        · rw [List.mem_singleton.1 hl]; exact last
    · simp only [Res.pure_eq, Res.ok.injEq, Prod.mk.injEq] at h2
      obtain ⟨rfl, rfl⟩ := h2
      exact ⟨[ascii "ACK " ++ hardCodedAck ++ ascii " \n"], s.caps, [], by dsimp only; rw [pkt], by intro l hl; rw [List.mem_singleton.1 hl]; exact last, .inl rfl⟩

/-- What an incremental fetch sends is part of the repository. -/
theorem inc_has {X : Ext} {path : Bytes} {db : Db} {E : SqlExt} (hrun : StoreRun X E.fold path db) (hu : UniqueIds X db)
    (hfold : ∀ a b : Hash, E.fold (Hash.toPlainStr a) = E.fold (Hash.toPlainStr b) → a = b) (hfit : FitsPack X db)
    {fuel : Nat} {want have_ : List Bytes} {file : Bytes} (h : getIncPack X E fuel db path want have_ = .ok file) :
    ∃ ms, PackHas X file ms ∧ ∀ m ∈ ms, ∃ o, InRepo E.fold db path o ∧ m = metaOf X o := by
  obtain ⟨hS, hR⟩ := storeRun_ok hrun hu rfl hfold
  simp only [getIncPack, Res.bind_eq_ok] at h
  obtain ⟨hm, h1, h4⟩ := h
  obtain ⟨h2, h3⟩ := incObjects_ok hS hR h1
  have hg : Good X db hm := good_of_entries h2 _ (fun o ho => by
    obtain ⟨_, _, _, n, _, _, _, _, hn, _⟩ := ho
    exact .inl ⟨n, hn, rfl⟩) h3
  have h0 : hm ≠ [] := by
    rintro rfl
    have : E.order (([] : HashMeta).map Prod.snd) = [] := (E.order_perm _).eq_nil
    rw [packOf, this] at h4
    cases h4
  obtain ⟨file', f1, ms, f2, f3⟩ := packOf_has (E := E) hu hfit hg h0
  rw [h4] at f1
  obtain rfl := Res.ok.inj f1
  refine ⟨ms, f2, fun m hmm => ?_⟩
  obtain ⟨p, hp, rfl⟩ := (f3 m).1 hmm
  obtain ⟨o, ho, rfl⟩ := (h3 p).1 hp
  obtain ⟨r, c, x, n, a, _, b, c', d, e⟩ := ho
  exact ⟨_, .node r c x n a b c' d e, rfl⟩

/-- What a fetch reply has in it, when all objects of the repository have the property `Q`. -/
theorem fetch_confined {X : Ext} {fold : Bytes → Bytes} {path : Bytes} {db : Db} (hrun : StoreRun X fold path db) (hu : UniqueIds X db)
    (hfold : ∀ a b : Hash, fold (Hash.toPlainStr a) = fold (Hash.toPlainStr b) → a = b) (hfit : FitsPack X db) {Q : Spec.Obj → Prop} (conf : ∀ o, InRepo fold db path o → Q o)
    {m : Moment} (hm : m.sql.fold = fold) (hord : ∀ l x, x ∈ m.ord l ↔ x ∈ l) {body out : Bytes}
    (hout' : httpUploadPack (mysqlFetch X m.sql m.fuel db path) m.ord m.cut body = .ok out) :
    ∃ (lines : List Bytes) (caps : List Capability) (file : Bytes), out = lines.flatMap (fun l => hex4 (l.length + 4) ++ l) ++ sendPack caps (m.cut file) ∧ (∀ l ∈ lines, Spec.AckLine body l) ∧
      (file = [] ∨ ∃ ms, PackHas X file ms ∧ ∀ x ∈ ms, ∃ o, Q o ∧ x = metaOf X o) := by
  obtain ⟨lines, caps, file, h1, h2, h3⟩ := httpUploadPack_parts hord hout'
  refine ⟨lines, caps, file, h1, h2, ?_⟩
  rcases h3 with h3 | h3 | ⟨w, v, h3⟩
  · exact .inl h3
  · obtain ⟨ms, k1, k2⟩ := clone_has hrun hu hfold hfit hm h3
    refine .inr ⟨ms, k1, fun x hx => ?_⟩
    obtain ⟨o, ho, rfl⟩ := (k2 x).1 hx
    exact ⟨o, conf o ho, rfl⟩
  · rw [← hm] at hrun hfold
    obtain ⟨ms, k1, k2⟩ := inc_has hrun hu hfold hfit h3
    refine .inr ⟨ms, k1, fun x hx => ?_⟩
    obtain ⟨o, ho, rfl⟩ := k2 x hx
    rw [hm] at ho
    exact ⟨o, conf o ho, rfl⟩

/-- **C90 (partial)** A fetch reply, whatever the request, consists of `ACK` and `NAK` lines with ids the client sent itself, then the pieces of one pack (or none); the pack contains
only objects that some client pushed to that path. `hfit`: limits of the pack format. (Missing: see `C90_confined_partial`.) -/
theorem C90_fetch_partial (P : ServerExt) (hfold : ∀ a b : Hash, P.D.fold (Hash.toPlainStr a) = P.D.fold (Hash.toPlainStr b) → a = b) (path : Bytes)
    (h : List (Moment × HttpReq)) (hf : Spec.SameFold P.D.fold h) (hab : Spec.NoneAbove P.D.fold path h) (hu : UniqueIds P.X (runServer P .empty h).db)
    (hfit : FitsPack P.X (runServer P .empty h).db) (m : Moment) (hm : m.sql.fold = P.D.fold) (hord : ∀ l x, x ∈ m.ord l ↔ x ∈ l) (r : HttpReq)
    (hr : route r.method r.path r.service = .uploadPack path) (out : Bytes) (hout : (serve P m (runServer P .empty h) r).1 = .reply (.ok (.bytes out))) :
    ∃ (lines : List Bytes) (caps : List Capability) (file : Bytes), out = lines.flatMap (fun l => hex4 (l.length + 4) ++ l) ++ sendPack caps (m.cut file) ∧ (∀ l ∈ lines, Spec.AckLine r.body l) ∧
      (file = [] ∨ ∃ ms, PackHas P.X file ms ∧ ∀ x ∈ ms, ∃ o, Spec.PushedTo P path h o ∧ x = metaOf P.X o) := by
  have hrun := run_store P path _ h rfl hf hab
  have conf := C90_confined_partial P path h hf hab hu
  have hout' : httpUploadPack (mysqlFetch P.X m.sql m.fuel (runServer P .empty h).db path) m.ord m.cut r.body = .ok out := by
    unfold serve at hout
    rw [hr] at hout
    dsimp only at hout
    generalize httpUploadPack (mysqlFetch P.X m.sql m.fuel (runServer P .empty h).db path) m.ord m.cut r.body = z at hout ⊢
    cases z <;> simp [Res.outcome] at hout
    rw [hout]
  exact fetch_confined hrun hu hfold hfit conf hm hord hout'

end Gust

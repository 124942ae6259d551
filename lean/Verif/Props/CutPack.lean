import Verif.Props.Again

/-! # C154: pushes that fail -/

namespace Gust

/-! ## Reading does not look at what follows -/

theorem readBytes_more {n : Nat} {s a r : Bytes} (h : readBytes n s = .ok (a, r)) (t : Bytes) : readBytes n (s ++ t) = .ok (a, r ++ t) := by
  unfold readBytes at h ⊢
  split at h
  · rename_i hl
    simp only [Res.ok.injEq, Prod.mk.injEq] at h
    rw [if_pos (by rw [List.length_append]; omega), List.take_append_of_le_length hl, List.drop_append_of_le_length hl, h.1, h.2]
  · cases h

theorem readU32_more {s r : Bytes} {a : Nat} (h : readU32 s = .ok (a, r)) (t : Bytes) : readU32 (s ++ t) = .ok (a, r ++ t) := by
  simp only [readU32, Res.bind_eq_ok, Res.pure_eq, Res.ok.injEq] at h ⊢
  obtain ⟨⟨b, r'⟩, h1, h2⟩ := h
  cases h2
  exact ⟨_, readBytes_more h1 t, rfl⟩

theorem readSizeLoop_more : ∀ {s : Bytes} {v l a : Nat} {r : Bytes}, readSizeLoop v l s = .ok (a, r) → ∀ t, readSizeLoop v l (s ++ t) = .ok (a, r ++ t)
  | [], _, _, _, _, h, _ => by cases h
  | b :: s, v, l, a, r, h, t => by
    simp only [readSizeLoop, List.cons_append] at h ⊢
    split
    · rename_i hl
      rw [if_pos hl] at h
      cases h
    · rename_i hl
      rw [if_neg hl] at h
      split
      · rename_i hm
        rw [if_pos hm] at h
        cases h
        rfl
      · rename_i hm
        rw [if_neg hm] at h
        exact readSizeLoop_more h t

theorem readTypeAndSize_more {s r : Bytes} {a : Nat × Nat} (h : readTypeAndSize s = .ok (a, r)) (t : Bytes) : readTypeAndSize (s ++ t) = .ok (a, r ++ t) := by
  simp only [readTypeAndSize, readSizeEncoding, Res.bind_eq_ok, Res.pure_eq, Res.ok.injEq] at h ⊢
  obtain ⟨⟨b, r'⟩, h1, h2⟩ := h
  cases h2
  exact ⟨_, readSizeLoop_more h1 t, rfl⟩

theorem readOffsetLoop_more : ∀ {s : Bytes} {v a : Nat} {r : Bytes}, readOffsetLoop v s = .ok (a, r) → ∀ t, readOffsetLoop v (s ++ t) = .ok (a, r ++ t)
  | [], _, _, _, h, _ => by cases h
  | b :: s, v, a, r, h, t => by
    simp only [readOffsetLoop, List.cons_append] at h ⊢
    split
    · rename_i hm
      rw [if_pos hm] at h
      cases h
      rfl
    · rename_i hm
      rw [if_neg hm] at h
      split
      · rename_i hv
        rw [if_pos hv] at h
        cases h
      · rename_i hv
        rw [if_neg hv] at h
        exact readOffsetLoop_more h t

theorem inflate_more {X : Ext} {s d r : Bytes} (h : X.inflate s = some (d, r)) (t : Bytes) : X.inflate (s ++ t) = some (d, r ++ t) := by
  obtain ⟨z, _, rfl, hz⟩ := X.inflate_prefix _ _ _ h
  rw [List.append_assoc]
  exact hz _

theorem applyDeltaAt_more {X : Ext} {b m : MetaData} {s r : Bytes} (h : applyDeltaAt X b s = .ok (m, r)) (t : Bytes) : applyDeltaAt X b (s ++ t) = .ok (m, r ++ t) := by
  unfold applyDeltaAt at h ⊢
  cases e : X.inflate s with
  | none => rw [e] at h; cases h
  | some p =>
    obtain ⟨d, r'⟩ := p
    rw [e] at h
    rw [inflate_more e t]
    simp only [Res.bind_eq_ok, Res.pure_eq, Res.ok.injEq] at h ⊢
    obtain ⟨m', h1, h2⟩ := h
    cases h2
    exact ⟨_, h1, rfl⟩

theorem baseObjectAt_more {X : Ext} {k n : Nat} {m : MetaData} {s r : Bytes} (h : baseObjectAt X k n s = .ok (m, r)) (t : Bytes) : baseObjectAt X k n (s ++ t) = .ok (m, r ++ t) := by
  unfold baseObjectAt at h ⊢
  split
  · rename_i hn
    rw [if_pos hn] at h
    cases h
  · rename_i hn
    rw [if_neg hn] at h
    cases e : X.inflate s with
    | none => rw [e] at h; cases h
    | some p =>
      obtain ⟨d, r'⟩ := p
      rw [e] at h
      rw [inflate_more e t]
      simp only at h ⊢
      split
      · rename_i hd
        rw [if_pos hd] at h
        cases h
      · rename_i hd
        rw [if_neg hd] at h
        simp only [Res.bind_eq_ok, Res.pure_eq, Res.ok.injEq] at h ⊢
        obtain ⟨ty, h1, m', h2, h3⟩ := h
        cases h3
        exact ⟨_, h1, _, h2, rfl⟩

theorem checkHeader_more {s r : Bytes} {n : Nat} (h : checkHeader s = .ok (n, r)) (t : Bytes) : checkHeader (s ++ t) = .ok (n, r ++ t) := by
  simp only [checkHeader, Res.bind_eq_ok, Res.unwrap_eq_ok] at h ⊢
  obtain ⟨⟨a, r1⟩, h1, h⟩ := h
  refine ⟨_, readBytes_more h1 t, ?_⟩
  simp only at h ⊢
  split
  · rename_i ha
    rw [if_pos ha] at h
    cases h
  · rename_i ha
    rw [if_neg ha] at h
    simp only [Res.bind_eq_ok, Res.unwrap_eq_ok] at h ⊢
    obtain ⟨⟨v, r2⟩, h2, h⟩ := h
    refine ⟨_, readU32_more h2 t, ?_⟩
    simp only at h ⊢
    split
    · rename_i hv
      rw [if_pos hv] at h
      cases h
    · rename_i hv
      rw [if_neg hv] at h
      rw [Res.unwrap_eq_ok] at h ⊢
      exact readU32_more h t

theorem drop_more {file : Bytes} {off : Nat} {α : Type} {f : Bytes → Res α} (h0 : ∀ a, f [] ≠ .ok a) {a : α} (h : f (file.drop off) = .ok a) (t : Bytes) :
    (file ++ t).drop off = file.drop off ++ t := by
  by_cases hl : off ≤ file.length
  · exact List.drop_append_of_le_length hl
  · rw [List.drop_eq_nil_of_le (by omega)] at h
    exact absurd h (h0 a)

theorem sub_more (file r t : Bytes) : (file ++ t).length - (r ++ t).length = file.length - r.length := by
  simp only [List.length_append]
  omega

theorem nextObject_tail {X : Ext} {St : ObjectSource} {file : Bytes} (t : Bytes) : ∀ (fuel off : Nat) (cache : PackCache) (r : (MetaData × PackCache) × Nat),
    nextObject X St file fuel off cache = .ok r → nextObject X St (file ++ t) fuel off cache = .ok r
  | 0, _, _, _, h => by cases h
  | fuel + 1, off, cache, r, h => by
    rw [nextObject, Res.bind_eq_ok] at h
    rw [nextObject, Res.bind_eq_ok]
    obtain ⟨⟨⟨ty, size⟩, rest⟩, h1, h⟩ := h
    rw [Res.unwrap_eq_ok] at h1
    refine ⟨((ty, size), rest ++ t), ?_, ?_⟩
    · rw [drop_more (f := readTypeAndSize) (fun a e => by cases e) h1 t, Res.unwrap_eq_ok]
      exact readTypeAndSize_more h1 t
    · simp only at h ⊢
      split
      · rename_i hk
        rw [if_pos hk] at h
        simp only [Res.bind_eq_ok, Res.pure_eq, Res.ok.injEq] at h ⊢
        obtain ⟨⟨m, r'⟩, h2, rfl⟩ := h
        exact ⟨_, baseObjectAt_more h2 t, by rw [sub_more]⟩
      · rename_i hk
        rw [if_neg hk] at h
        split
        · rename_i h6
          rw [if_pos h6] at h
          simp only [Res.bind_eq_ok, Res.unwrap_eq_ok] at h ⊢
          obtain ⟨⟨d, r1⟩, h2, h⟩ := h
          refine ⟨_, readOffsetLoop_more h2 t, ?_⟩
          simp only at h ⊢
          split
          · rename_i ho
            rw [if_pos ho] at h
            cases h
          · rename_i ho
            rw [if_neg ho] at h
            simp only [Res.bind_eq_ok, Res.pure_eq, Res.ok.injEq] at h ⊢
            obtain ⟨⟨b, c⟩, h3, ⟨m, r'⟩, h4, rfl⟩ := h
            refine ⟨(b, c), ?_, _, applyDeltaAt_more h4 t, by rw [sub_more]⟩
            cases e : cache.offsetObject (off - d) with
            | some m => rw [e] at h3; exact h3
            | none =>
              rw [e] at h3
              simp only [Res.bind_eq_ok, Res.ok.injEq] at h3 ⊢
              obtain ⟨q, h5, h6⟩ := h3
              exact ⟨q, nextObject_tail t _ _ _ _ h5, h6⟩
        · rename_i h6
          rw [if_neg h6] at h
          split
          · rename_i h7
            rw [if_pos h7] at h
            simp only [Res.bind_eq_ok, Res.unwrap_eq_ok, Res.pure_eq, Res.ok.injEq] at h ⊢
            obtain ⟨⟨row, r1⟩, h2, hh, h3, b, h4, ⟨m, r'⟩, h5, rfl⟩ := h
            exact ⟨_, readBytes_more h2 t, hh, h3, b, h4, _, applyDeltaAt_more h5 t, by rw [sub_more]⟩
          · rename_i h7
            rw [if_neg h7] at h
            cases h

theorem decodeLoop_tail {X : Ext} {St : ObjectSource} {file : Bytes} (t : Bytes) (fuel : Nat) : ∀ (n pos : Nat) (cache : PackCache) (r : PackCache × Nat),
    decodeLoop X St file fuel n pos cache = .ok r → decodeLoop X St (file ++ t) fuel n pos cache = .ok r
  | 0, _, _, _, h => h
  | n + 1, pos, cache, r, h => by
    simp only [decodeLoop, Res.bind_eq_ok] at h ⊢
    obtain ⟨⟨⟨m, c⟩, p⟩, h1, h2⟩ := h
    refine ⟨_, nextObject_tail t _ _ _ _ h1, ?_⟩
    simp only at h2 ⊢
    split
    · rename_i hp
      rw [if_pos hp] at h2
      cases h2
    · rename_i hp
      rw [if_neg hp] at h2
      exact decodeLoop_tail t fuel n p c r h2

/-- What is read as a pack is read as the same pack whatever follows. -/
theorem decodePack_tail {X : Ext} {St : ObjectSource} {fuel : Nat} {file : Bytes} {p : Pack} (h : decodePack X St fuel file = .ok p) (t : Bytes) :
    decodePack X St fuel (file ++ t) = .ok p := by
  simp only [decodePack, Res.bind_eq_ok, Res.unwrap_eq_ok] at h ⊢
  obtain ⟨⟨n, r⟩, h1, ⟨c, pos⟩, h2, ⟨id, r'⟩, h3, h4⟩ := h
  refine ⟨_, checkHeader_more h1 t, _, decodeLoop_tail t _ _ _ _ _ h2, (id, r' ++ t), ?_, h4⟩
  simp only at h3 ⊢
  rw [drop_more (f := readBytes 20) (fun a e => by simp [readBytes] at e) h3 t]
  exact readBytes_more h3 t

/-- **C30**, partial: a pack, with deltas and references to objects outside it or not, of which the end is missing, however much of it, is never accepted; and see `C30_damaged_pack_rejected_false`. -/
theorem C30_cut_partial {X : Ext} {St : ObjectSource} {known : Hash → Option Spec.Obj} (hst : Supplies St known) {file a b : Bytes} {es : List (Nat × Spec.Entry)} {trailer : Hash}
    {os : List (Nat × Spec.Obj)} (hp : Spec.PackFile X.inflate file es trailer) (hr : Spec.Resolves (idOf X) known [] es os) (hcol : Spec.NoCollision (idOf X) os)
    (hcap : ∀ p ∈ os, p.2.2.length < 2 ^ 63) (h32 : ∀ p ∈ es, p.1 < 2 ^ 32) (e : file = a ++ b) (hb : b ≠ []) (fuel : Nat) (p : Pack) : decodePack X St fuel a ≠ .ok p := by
  intro hd
  obtain ⟨h, s, rfl, hh, hent⟩ := hp
  obtain ⟨z, rfl, hz⟩ := entries_prefix hent
  have hd : decodePack X St (fuel + 1) a = .ok p := by
    rcases decodePack_more X St a (Nat.le_succ fuel) with k | k
    · rw [k] at hd
      cases hd
    · rw [← k, hd]
  have ht := trailer.2
  by_cases hl : a.length ≤ (h ++ z).length
  · obtain ⟨w, hw⟩ : ∃ w, h ++ z = a ++ w := by
      refine ⟨(h ++ z).drop a.length, ?_⟩
      have e' : (h ++ z) ++ trailer.1 = a ++ b := by rw [List.append_assoc]; exact e
      have := congrArg (List.take a.length) e'
      rw [List.take_left, List.take_append_of_le_length hl] at this
      conv => lhs; rw [← List.take_append_drop a.length (h ++ z), this]
    have h1 := decodePack_tail hd w
    rw [← hw] at h1
    have h2 := decode_tail hst hh (hz []) hr hcol hcap h32 fuel
    rw [dif_neg (by simp), List.append_nil, h1] at h2
    cases h2
  · obtain ⟨w, hw⟩ : ∃ w, a = h ++ (z ++ w) := by
      refine ⟨a.drop (h ++ z).length, ?_⟩
      have e' : (h ++ z) ++ trailer.1 = a ++ b := by rw [List.append_assoc]; exact e
      have := congrArg (List.take (h ++ z).length) e'
      rw [List.take_left, List.take_append_of_le_length (by omega)] at this
      conv => lhs; rw [← List.take_append_drop (h ++ z).length a, ← this, List.append_assoc]
    have h2 := decode_tail hst hh (hz w) hr hcol hcap h32 fuel
    rw [dif_neg, ← hw, hd] at h2
    · cases h2
    · have := congrArg List.length e
      rw [hw] at this
      have hb' := List.length_pos_iff.2 hb
      simp only [List.length_append] at this
      omega

/-! ## The servers after a push -/

theorem sent_section {P : ServerExt} {u : Bytes} {c : Spec.PushCmd} (hc : c.Ok) {caps : Bytes} (hl : caps.length ≤ 4000) (hx : ∀ x ∈ caps, x.toNat < 128) {pack : Bytes} {m : Moment}
    {h h' : BothHist} (hsent : Spec.SentAny P u c caps pack m h h') :
    (runBoth P .empty h').web = { (runBoth P .empty h).web with
      db := gitReceiveDb (mysqlPush P.X m.sql m.fuel) (PushState.mk (parseCapabilities caps) [RefCommand.new c.old c.new (c.name ++ [0])] u (runBoth P .empty h).web.db) pack } := by
  cases hsent with
  | http _ g hu hg =>
    rw [runBoth_concat]
    simp only [bothStep, serve, Spec.pushReq, route_push hu hg, httpReceiveDb, receive_section _ _ _ hc hl hx]
  | ssh h0 h1 h2 _ m0 m1 i ch0 ch1 ch hs hb hn1 hn2 hh p hlink =>
    rw [runBoth_concat]
    simp only [bothStep, sshStep_db]
    show { (runBoth P .empty h).web with db := (sshLinkStep P.X m (runBoth P .empty h).web.db ((runBoth P .empty h).link i) (.data ch pack)).2.2 } = _
    rw [section_sent hc hl hx hs hb hn1 hn2 hh hlink]
    rfl

/-- A push with a pack that cannot be read. -/
theorem unread_lost {P : ServerExt} {u : Bytes} {c : Spec.PushCmd} (hc : c.Ok) {caps : Bytes} (hl : caps.length ≤ 4000) (hx : ∀ x ∈ caps, x.toNat < 128) {pack : Bytes} {m : Moment}
    {h h' : BothHist} (hsent : Spec.SentAny P u c caps pack m h h') (hp : (ascii "PACK").isPrefixOf pack = true)
    (hno : ∀ p, decodePack P.X (getHashObject P.X m.sql (runBoth P .empty h).web.db) m.fuel pack ≠ .ok p) :
    Spec.LostAny P u c caps pack m h h' ∧ (runBoth P .empty h').web = (runBoth P .empty h).web := by
  constructor
  · refine sent_lost hc hl hx hsent ?_
    rw [push_answer _ u _ c hc caps hl hx pack hp]
    unfold receiveData
    simp only [List.getLast?_singleton, mysqlPush]
    cases e : decodePack P.X (getHashObject P.X m.sql (runBoth P .empty h).web.db) m.fuel pack with
    | ok p => exact absurd e (hno p)
    | err _ => exact .inl rfl
    | panic => exact .inl rfl
    | spin => exact .inr rfl
  · rw [sent_section hc hl hx hsent, gitReceiveDb, if_pos hp, receiveDataDb]
    simp only [List.getLast?_singleton, mysqlPush]

/-- If something reachable is missing in the pack, nothing is stored. -/
theorem missing_same {p : Pack} (hk : p.result.Keyed) {x : Hash} (hx : Spec.PackReach p.result.hashObject x) (hn : p.result.hashObject x = none) (E : SqlExt) (fuel : Nat) (path : Bytes) (db : Db) :
    savePackfile E fuel p path db = (.panic, db) ∨ savePackfile E fuel p path db = (.spin, db) := by
  unfold savePackfile
  cases h1 : E.pool p.result with
  | ok D =>
    simp only
    cases h2 : buildNodeTree fuel D with
    | ok rows =>
      exfalso
      have hH : D.Holds p.result := update_holds hk (by have := E.pool_outcome p.result; rwa [h1] at this)
      obtain ⟨r1, r2⟩ := buildCommits_ok (repo_faithful hH) (repo_disjoint hH) D.commits [] rows (by intro h hh; cases hh) h2
      rcases r2 x ((repo_below hH x).2 hx) with hh | ⟨r, hr, e⟩
      · cases hh
      · cases r1 r hr with
        | tree y t _ a b c d =>
          obtain ⟨hm, _⟩ := (repo_tree hH y t).1 a
          obtain ⟨_, q2⟩ := (hH.trees t.base).1 (List.mem_map_of_mem hm)
          rw [e] at b
          rw [← Hash.toPlainStr_injective b, hn] at q2
          cases q2
        | blob y t _ a b c d =>
          obtain ⟨hm, _⟩ := (repo_blob hH y t).1 a
          obtain ⟨_, q2⟩ := (hH.blobs t.base).1 (List.mem_map_of_mem hm)
          rw [e] at b
          rw [← Hash.toPlainStr_injective b, hn] at q2
          cases q2
    | err _ => exact .inl rfl
    | panic => exact .inl rfl
    | spin => exact .inr rfl
  | err _ => exact .inl rfl
  | panic => exact .inl rfl
  | spin => exact .inr rfl

theorem saved_none {P : ServerExt} {u : Bytes} {c : Spec.PushCmd} (hc : c.Ok) {caps : Bytes} (hl : caps.length ≤ 4000) (hx : ∀ x ∈ caps, x.toNat < 128) {pack : Bytes} {m : Moment}
    {h h' : BothHist} (hsent : Spec.SentAny P u c caps pack m h h') (hp : (ascii "PACK").isPrefixOf pack = true)
    (hno : ∀ p, decodePack P.X (getHashObject P.X m.sql (runBoth P .empty h).web.db) m.fuel pack = .ok p →
      savePackfile m.sql m.fuel p u (runBoth P .empty h).web.db = (.panic, (runBoth P .empty h).web.db) ∨ savePackfile m.sql m.fuel p u (runBoth P .empty h).web.db = (.spin, (runBoth P .empty h).web.db)) :
    Spec.LostAny P u c caps pack m h h' ∧ (runBoth P .empty h').web = (runBoth P .empty h).web := by
  cases e : decodePack P.X (getHashObject P.X m.sql (runBoth P .empty h).web.db) m.fuel pack with
  | ok p =>
    constructor
    · refine sent_lost hc hl hx hsent ?_
      rw [push_answer _ u _ c hc caps hl hx pack hp]
      unfold receiveData
      simp only [List.getLast?_singleton, mysqlPush, e]
      rcases hno p e with k | k <;> rw [k]
      · exact .inl rfl
      · exact .inr rfl
    · rw [sent_section hc hl hx hsent, gitReceiveDb, if_pos hp, receiveDataDb]
      simp only [List.getLast?_singleton, mysqlPush, e]
      rcases hno p e with k | k <;> rw [k]
  | err _ => exact unread_lost hc hl hx hsent hp (by rw [e]; exact fun _ h => nomatch h)
  | panic => exact unread_lost hc hl hx hsent hp (by rw [e]; exact fun _ h => nomatch h)
  | spin => exact unread_lost hc hl hx hsent hp (by rw [e]; exact fun _ h => nomatch h)

/-- What begins a pack is too short, or begins with the same four bytes. -/
theorem magic_cut {a b : Bytes} (h : (ascii "PACK").isPrefixOf (a ++ b) = true) : a.length < 4 ∨ (ascii "PACK").isPrefixOf a = true := by
  rw [List.isPrefixOf_iff_prefix] at h ⊢
  by_cases hl : a.length < 4
  · exact .inl hl
  · exact .inr (List.prefix_of_prefix_length_le h (List.prefix_append a b) (by have : (ascii "PACK").length = 4 := by decide
                                                                               omega))

theorem short_command {σ : Type} (st : PushState σ) {a : Bytes} (h0 : a ≠ []) (hl : a.length < 4) : receiveCommand st a = .panic := by
  unfold receiveCommand readPktLine
  rw [if_neg h0, if_pos hl]
  rfl

theorem short_no_pack {a : Bytes} (hl : a.length < 4) : (ascii "PACK").isPrefixOf a = false := by
  rw [Bool.eq_false_iff]
  intro h
  have := (List.isPrefixOf_iff_prefix.1 h).length_le
  have : (ascii "PACK").length = 4 := by decide
  omega

/-! ## C154 -/

/-- **C154** A push whose pack does not arrive whole is not taken: after anything anybody has done on the two servers, a client sends a push over HTTP or SSH, and of its pack, whatever is in it and however
it is written, only a part arrives, the first byte or all but the last or anything in between. The push gets no answer, and everything the two servers keep is as before. -/
theorem C154_cut (P : ServerExt) (hfold : ∀ a b : Hash, P.D.fold (Hash.toPlainStr a) = P.D.fold (Hash.toPlainStr b) → a = b) (u : Bytes) (h h' : BothHist) (m : Moment)
    (hu : UniqueIds P.X (runBoth P .empty h).web.db) (hm : m.sql.fold = P.D.fold) (c : Spec.PushCmd) (hc : c.Ok) (caps : Bytes) (hcaps : caps.length ≤ 4000) (hascii : ∀ x ∈ caps, x.toNat < 128)
    (os : List (Nat × Spec.Obj)) (a b : Bytes) (hpack : Spec.PackOf P.X P.D.fold (runBoth P .empty h).web.db (a ++ b) os) (ha : a ≠ []) (hb : b ≠ [])
    (hsent : Spec.SentAny P u c caps a m h h') : Spec.LostAny P u c caps a m h h' ∧ (runBoth P .empty h').web = (runBoth P .empty h).web := by
  obtain ⟨p0, d0, _⟩ := packOf_read hfold (both_nodes P h) hu hm hpack (fuel := 1) (by omega)
  rcases magic_cut (decodePack_magic d0) with hl | hp
  · constructor
    · refine sent_lost hc hcaps hascii hsent (.inl ?_)
      unfold httpReceivePack
      rw [receive_section _ _ _ hc hcaps hascii, Res.unwrap_ok, Res.bind_ok]
      simp only
      rw [gitReceivePack, if_neg (by rw [short_no_pack hl]; decide), short_command _ ha hl]
      rfl
    · rw [sent_section hc hcaps hascii hsent, gitReceiveDb, if_neg (by rw [short_no_pack hl]; decide)]
  · refine unread_lost hc hcaps hascii hsent hp fun p => ?_
    obtain ⟨es, trailer, known, w1, w2, w3, w4⟩ := hpack.wellFormed
    refine C30_cut_partial (getHash_supplies (both_nodes P h) hu (by rw [hm]; exact hfold) ?_) w1 w4 hpack.ids hpack.size w2 rfl hb _ _
    intro x o e
    obtain ⟨h1, h2, path, h3⟩ := w3 x o e
    refine ⟨h1, ?_⟩
    cases h3 with
    | commit r _ => rcases h2 with h | h <;> cases h
    | node r c h n _ _ _ hn _ => exact ⟨n, hn, rfl⟩

/-- A line that does not arrive whole. -/
theorem cut_line {b a r : Bytes} (hb : b.length ≤ 65531) (e : Spec.frame (.line b) = a ++ r) (ha : a ≠ []) (hr : r ≠ []) : readPktLine a = .panic := by
  have hlen := congrArg List.length e
  have hr0 : 0 < r.length := List.length_pos_iff.2 hr
  simp only [Spec.frame, List.length_append, len4_length] at hlen
  by_cases h4 : a.length < 4
  · rw [readPktLine, if_neg ha, if_pos h4]
  · have ht : a.take 4 = Spec.len4 (b.length + 4) := by
      have := congrArg (List.take 4) e
      rw [Spec.frame, List.take_left' (len4_length _), List.take_append_of_le_length (by omega)] at this
      exact this.symm
    rw [readPktLine, if_neg ha, if_neg h4, ht, parseHex_len4 _ (by omega)]
    simp only
    rw [if_neg (by omega), if_neg (by omega), if_pos (by rw [List.length_drop]; omega)]

/-- A command section of which the end is missing. -/
theorem cut_section {σ P : Type} (E : PushEnv σ P) (u : Bytes) (db : σ) {c : Spec.PushCmd} (hc : c.Ok) {caps : Bytes} (hl : caps.length ≤ 4000) (hx : ∀ x ∈ caps, x.toNat < 128) {a r : Bytes}
    (e : Spec.pushBody c [] caps [] = a ++ r) :
    (ascii "PACK").isPrefixOf a = false ∧ (gitReceivePack E { caps := [], commands := [], path := u, db := db } a = .panic ∨
      ∃ st, gitReceivePack E { caps := [], commands := [], path := u, db := db } a = .ok ([], st) ∧ st.db = db) := by
  have e0 : Spec.pushBody c [] caps [] = Spec.frame (.line (Spec.firstCmdLine c caps)) ++ Spec.frame .flush := by simp [Spec.pushBody, Spec.stream]
  have hno : (ascii "PACK").isPrefixOf a = false := by
    rw [Bool.eq_false_iff]
    intro h
    have h1 := (List.isPrefixOf_iff_prefix.1 h).trans (List.prefix_append a r)
    rw [← e, e0, ← List.isPrefixOf_iff_prefix, frame_not_pack] at h1
    cases h1
  refine ⟨hno, ?_⟩
  rw [gitReceivePack, hno]
  simp only [Bool.false_eq_true, if_false]
  by_cases hr : r = []
  · rw [hr, List.append_nil] at e
    have := receive_section E u db hc hl hx []
    rw [gitReceivePack, e, hno] at this
    simp only [Bool.false_eq_true, if_false] at this
    exact .inr ⟨_, this, rfl⟩
  by_cases ha : a = []
  · rw [ha]
    exact .inr ⟨_, rfl, rfl⟩
  left
  rw [e0] at e
  have hfit := firstCmdLine_fits c hc caps hl
  rcases List.append_eq_append_iff.1 e with ⟨a', rfl, e2⟩ | ⟨c', e2, rfl⟩
  · have h4 : a'.length < 4 := by
      have := congrArg List.length e2
      have h0 : 0 < r.length := List.length_pos_iff.2 hr
      simp only [Spec.frame, List.length_cons, List.length_nil, List.length_append] at this
      omega
    rw [receiveCommand, readPktLine_frame _ _ hfit, Res.bind_ok]
    simp only [Spec.Pkt.observed]
    rw [if_neg (by simp), C23_ref_name_partial c hc caps, Res.bind_ok]
    simp only
    rw [if_pos (utf8Valid_ascii _ hx), sliceFrom, if_neg (by omega)]
    rfl
  · by_cases hc' : c' = []
    · rw [hc', List.append_nil] at e2
      rw [← e2, receiveCommand, ← List.append_nil (Spec.frame (.line (Spec.firstCmdLine c caps))), readPktLine_frame _ _ hfit, Res.bind_ok]
      simp only [Spec.Pkt.observed]
      rw [if_neg (by simp), C23_ref_name_partial c hc caps, Res.bind_ok]
      simp only
      rw [if_pos (utf8Valid_ascii _ hx)]
      rfl
    · rw [receiveCommand, cut_line hfit e2 ha hc']
      rfl

/-- **C154** The same for requests over HTTP of which the end is missing, wherever they are cut off: in the middle of the command, between command and pack, or in the pack. The request is not answered, or with
an empty text, which reports nothing; and everything the two servers keep is as before. -/
theorem C154_request (P : ServerExt) (hfold : ∀ a b : Hash, P.D.fold (Hash.toPlainStr a) = P.D.fold (Hash.toPlainStr b) → a = b) (u g : Bytes) (hu : Spec.CleanUrl u)
    (hg : g = [] ∨ g = ascii ".git") (h : BothHist) (m : Moment) (hun : UniqueIds P.X (runBoth P .empty h).web.db) (hm : m.sql.fold = P.D.fold) (c : Spec.PushCmd) (hc : c.Ok) (caps : Bytes)
    (hcaps : caps.length ≤ 4000) (hascii : ∀ x ∈ caps, x.toNat < 128) (os : List (Nat × Spec.Obj)) (pack : Bytes) (hpack : Spec.PackOf P.X P.D.fold (runBoth P .empty h).web.db pack os)
    (part rest : Bytes) (hcut : Spec.pushBody c [] caps pack = part ++ rest) (hrest : rest ≠ []) :
    ((serve P m (runBoth P .empty h).web (Spec.pushReq (u ++ g) part)).1 = .reply .panic ∨ (serve P m (runBoth P .empty h).web (Spec.pushReq (u ++ g) part)).1 = .hang ∨
      (serve P m (runBoth P .empty h).web (Spec.pushReq (u ++ g) part)).1 = .reply (.ok (.bytes []))) ∧
    (serve P m (runBoth P .empty h).web (Spec.pushReq (u ++ g) part)).2 = (runBoth P .empty h).web := by
  have e0 : Spec.pushBody c [] caps pack = Spec.pushBody c [] caps [] ++ pack := by simp [Spec.pushBody]
  have short : ∀ a r, Spec.pushBody c [] caps [] = a ++ r → ((serve P m (runBoth P .empty h).web (Spec.pushReq (u ++ g) a)).1 = .reply .panic ∨
      (serve P m (runBoth P .empty h).web (Spec.pushReq (u ++ g) a)).1 = .hang ∨ (serve P m (runBoth P .empty h).web (Spec.pushReq (u ++ g) a)).1 = .reply (.ok (.bytes []))) ∧
      (serve P m (runBoth P .empty h).web (Spec.pushReq (u ++ g) a)).2 = (runBoth P .empty h).web := by
    intro a r e
    obtain ⟨hno, hcase⟩ := cut_section (mysqlPush P.X m.sql m.fuel) u (runBoth P .empty h).web.db hc hcaps hascii e
    have hroute := route_push hu hg
    simp only [serve, Spec.pushReq, hroute]
    rcases hcase with k | ⟨st, k, hst⟩
    · simp only [httpReceivePack, httpReceiveDb, k, gitReceiveDb, hno]
      exact ⟨.inl rfl, rfl⟩
    · simp only [httpReceivePack, httpReceiveDb, k, gitReceiveDb]
      have h0 : (ascii "PACK").isPrefixOf ([] : Bytes) = false := rfl
      simp only [Res.unwrap_ok, Res.bind_ok, gitReceivePack, h0, Bool.false_eq_true, if_false, hst]
      exact ⟨.inr (.inr rfl), trivial⟩
  rw [e0] at hcut
  rcases List.append_eq_append_iff.1 hcut with ⟨a', rfl, e2⟩ | ⟨c', e2, rfl⟩
  · by_cases ha : a' = []
    · rw [ha, List.append_nil]
      exact short _ [] (List.append_nil _).symm
    · subst e2
      have hsent : Spec.SentAny P u c caps a' m h (h ++ [(m, .http (Spec.pushReq (u ++ g) (Spec.pushBody c [] caps a')))]) := .http h g hu hg
      obtain ⟨k1, k2⟩ := C154_cut P hfold u h _ m hun hm c hc caps hcaps hascii os a' rest hpack ha hrest hsent
      have e3 : Spec.pushBody c [] caps [] ++ a' = Spec.pushBody c [] caps a' := by simp [Spec.pushBody]
      rw [e3]
      constructor
      · generalize hh : h ++ [(m, Visit.http (Spec.pushReq (u ++ g) (Spec.pushBody c [] caps a')))] = h' at k1
        cases k1 with
        | http g' ha =>
          have := (List.append_cancel_left hh)
          injection this with this _
          injection this with _ this
          injection this with this
          rw [this]
          rcases ha with ha | ha
          · exact .inl ha
          · exact .inr (.inl ha)
        | ssh i ch ha hl =>
          have := (List.append_cancel_left hh)
          injection this with this _
          injection this with _ this
          cases this
      · rw [runBoth_concat] at k2
        exact k2
  · exact short part c' e2

/-- **C154** Over SSH, a push of which the pack does not arrive at all: whatever the client has sent on the session, as long as it is not the beginning of a pack, everything the two servers keep is as before. -/
theorem C154_session (P : ServerExt) (h : BothHist) (i : Nat) (h2 : BothHist) (hd : ∀ x ∈ h2, ∃ ch bytes, x.2 = .ssh i (.data ch bytes) ∧ (ascii "PACK").isPrefixOf bytes = false) :
    (runBoth P .empty (h ++ h2)).web = (runBoth P .empty h).web := by
  induction h2 generalizing h with
  | nil => rw [List.append_nil]
  | cons x h2 ih =>
    have e : h ++ x :: h2 = (h ++ [x]) ++ h2 := by simp
    rw [e, ih (h ++ [x]) (fun y hy => hd y (.tail _ hy)), runBoth_concat]
    obtain ⟨ch, bytes, e1, e2⟩ := hd x (.head _)
    rw [e1]
    have key : (sshLinkStep P.X x.1 (runBoth P .empty h).web.db ((runBoth P .empty h).link i) (.data ch bytes)).2.2 = (runBoth P .empty h).web.db := by
      cases (runBoth P .empty h).link i with
      | ready p =>
        cases p with
        | none => rfl
        | some p =>
          simp only [sshLinkStep, sshData]
          cases p.service with
          | uploadPack => rfl
          | receivePack =>
            simp only [gitReceiveDb, e2]
            rfl
      | _ => rfl
    show { (runBoth P .empty h).web with db := (sshStep P.X x.1 (runBoth P .empty h).ssh i (.data ch bytes)).2.db } = (runBoth P .empty h).web
    have k2 : (sshStep P.X x.1 (runBoth P .empty h).ssh i (.data ch bytes)).2.db = (runBoth P .empty h).web.db := key
    rw [k2]

/-- **C154** A push that lacks an object is not taken: a commit, or a directory reachable from it, refers to an object that is not in the pack. The push gets no answer, and everything the two servers keep
is as before. -/
theorem C154_lacking (P : ServerExt) (hfold : ∀ a b : Hash, P.D.fold (Hash.toPlainStr a) = P.D.fold (Hash.toPlainStr b) → a = b) (u : Bytes) (h h' : BothHist) (m : Moment)
    (hu : UniqueIds P.X (runBoth P .empty h).web.db) (hm : m.sql.fold = P.D.fold) (c : Spec.PushCmd) (hc : c.Ok) (caps : Bytes) (hcaps : caps.length ≤ 4000) (hascii : ∀ x ∈ caps, x.toNat < 128)
    (os : List (Nat × Spec.Obj)) (pack : Bytes) (hpack : Spec.PackOf P.X P.D.fold (runBoth P .empty h).web.db pack os) (x : Hash) (hx : Spec.PackReach (Spec.found P.X os) x)
    (hnot : ∀ q ∈ os, idOf P.X q.2 ≠ x) (hsent : Spec.SentAny P u c caps pack m h h') :
    Spec.LostAny P u c caps pack m h h' ∧ (runBoth P .empty h').web = (runBoth P .empty h).web := by
  obtain ⟨p0, d0, _⟩ := packOf_read hfold (both_nodes P h) hu hm hpack (fuel := 1) (by omega)
  refine saved_none hc hcaps hascii hsent (decodePack_magic d0) fun p hp => ?_
  obtain ⟨p1, d1, d2⟩ := packOf_read hfold (both_nodes P h) hu hm hpack (fuel := m.fuel + 1) (by omega)
  have e : p = p1 := by
    rcases decodePack_more P.X (getHashObject P.X m.sql (runBoth P .empty h).web.db) pack (Nat.le_succ m.fuel) with k | k
    · rw [k] at hp
      cases hp
    · rw [k, d1] at hp
      exact (Res.ok.inj hp).symm
  subst e
  obtain ⟨hist, e, _⟩ := decodePack_hist hp
  refine missing_same (by rw [e]; exact PackCache.keyed_run hist) (by rw [d2]; exact hx) ?_ _ _ _ _
  rw [d2]
  cases k : Spec.found P.X os x with
  | none => rfl
  | some o =>
    obtain ⟨q, hq, e1, e2⟩ := (found_iff hpack.ids _ _).1 k
    exact absurd (by rw [← e2, ← e1]; rfl) (hnot q hq)

/-- **C63 is false** for every pack: a pack that a client sends over SSH in more than one message is never taken, wherever it is divided (messages have a maximal length, so this is the case for every project
that is not small). After the first message nothing is ever sent on the connection, whatever is sent, and whatever the client sends on it changes nothing. -/
theorem C63_pieces_false (P : ServerExt) (hfold : ∀ a b : Hash, P.D.fold (Hash.toPlainStr a) = P.D.fold (Hash.toPlainStr b) → a = b) (u : Bytes) (hs : (0x20 : UInt8) ∉ u)
    (hb : isBoundary u 0 = true) (h0 h1 h2 : BothHist) (m0 m1 m : Moment) (i ch0 ch1 ch : Nat) (hn1 : Spec.NotOn i h1) (hn2 : Spec.NotOn i h2) (c : Spec.PushCmd) (hc : c.Ok) (caps : Bytes)
    (hcaps : caps.length ≤ 4000) (hascii : ∀ x ∈ caps, x.toNat < 128) (h : BothHist)
    (hh : h = h0 ++ (m0, .ssh i (.exec ch0 (Spec.sshAsk .receivePack u))) :: (h1 ++ (m1, .ssh i (.data ch1 (Spec.pushBody c [] caps []))) :: h2))
    (hu : UniqueIds P.X (runBoth P .empty h).web.db) (hm : m.sql.fold = P.D.fold) (os : List (Nat × Spec.Obj)) (a b : Bytes)
    (hpack : Spec.PackOf P.X P.D.fold (runBoth P .empty h).web.db (a ++ b) os) (ha : a ≠ []) (hb' : b ≠ []) :
    (runBoth P .empty (h ++ [(m, .ssh i (.data ch a))])).web = (runBoth P .empty h).web ∧
      ∀ (h3 : BothHist) (m3 : Moment) (ev : SshEvent),
        (sshStep P.X m3 (runBoth P .empty (h ++ [(m, .ssh i (.data ch a))] ++ h3)).ssh i ev).1 = [] ∧
        (runBoth P .empty (h ++ [(m, .ssh i (.data ch a))] ++ h3 ++ [(m3, .ssh i ev)])).web = (runBoth P .empty (h ++ [(m, .ssh i (.data ch a))] ++ h3)).web := by
  have dead : ∀ (h3 : BothHist) (s : Both), (s.link i = .hung ∨ s.link i = .closed) → (runBoth P s h3).link i = .hung ∨ (runBoth P s h3).link i = .closed := by
    intro h3
    induction h3 with
    | nil => exact fun _ hs => hs
    | cons q h3 ih =>
      intro s hs
      obtain ⟨mq, v⟩ := q
      refine ih _ ?_
      cases v with
      | http r => exact hs
      | ssh j e =>
        by_cases hj : j = i
        · subst hj
          show (bothStep P mq s (.ssh j e)).link j = .hung ∨ (bothStep P mq s (.ssh j e)).link j = .closed
          rw [bothStep_link, dead_link hs]
          exact hs
        · show (if i = j then _ else s.link i) = .hung ∨ (if i = j then _ else s.link i) = .closed
          rw [if_neg (fun e => hj e.symm)]
          exact hs
  have silent : ∀ (s : Both) (m3 : Moment) (ev : SshEvent), (s.link i = .hung ∨ s.link i = .closed) →
      (sshStep P.X m3 s.ssh i ev).1 = [] ∧ (bothStep P m3 s (.ssh i ev)).web = s.web := by
    intro s m3 ev hs
    have e := dead_link (X := P.X) (m := m3) (db := s.web.db) hs ev
    refine ⟨congrArg Prod.fst e, ?_⟩
    simp only [bothStep, sshStep_db]
    show { s.web with db := (sshLinkStep P.X m3 s.web.db (s.link i) ev).2.2 } = s.web
    rw [e]
  have key : (runBoth P .empty (h ++ [(m, .ssh i (.data ch a))])).web = (runBoth P .empty h).web ∧
      ((runBoth P .empty (h ++ [(m, .ssh i (.data ch a))])).link i = .hung ∨ (runBoth P .empty (h ++ [(m, .ssh i (.data ch a))])).link i = .closed) := by
    have bad : ((runBoth P .empty h).link i = .hung ∨ (runBoth P .empty h).link i = .closed) → (runBoth P .empty (h ++ [(m, .ssh i (.data ch a))])).web = (runBoth P .empty h).web ∧
        ((runBoth P .empty (h ++ [(m, .ssh i (.data ch a))])).link i = .hung ∨ (runBoth P .empty (h ++ [(m, .ssh i (.data ch a))])).link i = .closed) := by
      intro hd
      rw [runBoth_concat]
      refine ⟨(silent _ _ _ hd).2, ?_⟩
      rw [bothStep_link, dead_link hd]
      exact hd
    cases hl : (runBoth P .empty h).link i with
    | hung => exact bad (.inl hl)
    | closed => exact bad (.inr hl)
    | fresh =>
      rw [runBoth_concat]
      refine ⟨?_, .inr (by rw [bothStep_link, hl]; rfl)⟩
      simp only [bothStep, sshStep_db]
      show { (runBoth P .empty h).web with db := (sshLinkStep P.X m (runBoth P .empty h).web.db ((runBoth P .empty h).link i) (.data ch a)).2.2 } = _
      rw [hl]
      rfl
    | ready p =>
      obtain ⟨hlost, hweb⟩ := C154_cut P hfold u h _ m hu hm c hc caps hcaps hascii os a b hpack ha hb' (.ssh h0 h1 h2 h m0 m1 i ch0 ch1 ch hs hb hn1 hn2 hh p hl)
      refine ⟨hweb, ?_⟩
      generalize eh : h ++ [(m, Visit.ssh i (.data ch a))] = h' at hlost
      cases hlost with
      | http g =>
        have := List.append_cancel_left eh
        cases this
      | ssh j ch' k1 k2 =>
        have := List.append_cancel_left eh
        simp only [List.cons.injEq, Prod.mk.injEq, Visit.ssh.injEq, SshEvent.data.injEq, and_true, true_and] at this
        obtain ⟨rfl, rfl⟩ := this
        rw [runBoth_concat]
        exact k2.symm
  refine ⟨key.1, fun h3 m3 ev => ?_⟩
  have hd := dead h3 _ key.2
  rw [← runBoth_append] at hd
  obtain ⟨k1, k2⟩ := silent _ m3 ev hd
  exact ⟨k1, by rw [runBoth_concat]; exact k2⟩

end Gust

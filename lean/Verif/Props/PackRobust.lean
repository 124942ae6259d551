import Verif.Lemmas.Halt
import Verif.Props.Pack

/-! # C30, C31: damaged and malicious packs -/

namespace Gust

/-! ## C30 -/

/-- **C30** is false at every pack: whatever 20 bytes stand where the checksum should be, the pack decodes as if intact. -/
theorem C30_any_trailer_accepted (X : Ext) (St : ObjectSource) (ms : List MetaData)
    (hobj : ∀ m ∈ ms, MetaData.new X m.t m.data = .ok m)
    (hcol : ∀ a ∈ ms, ∀ b ∈ ms, a.id = b.id → a = b) (hsize : ∀ m ∈ ms, m.data.length < 2 ^ 61) (h0 : ms ≠ [])
    (hn : ms.length < 2 ^ 32) (hoff : 12 + (encodeEntries X ms).length ≤ 2 ^ 32) (fuel : Nat) :
    ∃ body, encodePack X ms = .ok ((ms.length, X.sha1 body), body ++ (X.sha1 body).1) ∧
      ∀ wrong : Hash, ∃ pack, decodePack X St (fuel + 1) (body ++ wrong.1) = .ok pack ∧ PackOf X pack ms wrong := by
  obtain ⟨hd, _, h1, _⟩ := decode_written St hobj hcol hsize h0 hn hoff fuel (X.sha1 [])
  refine ⟨hd ++ encodeEntries X ms, by simp only [encodePack, h1, Res.bind_ok, Res.pure_eq, signPack], ?_⟩
  intro wrong
  obtain ⟨hd', pack, h1', _, h3, h4⟩ := decode_written St hobj hcol hsize h0 hn hoff fuel wrong
  rw [h1] at h1'
  obtain rfl := Res.ok.inj h1'
  exact ⟨pack, h3, h4⟩

/-- **C30 is false**: a pack whose checksum is not the SHA-1 of its contents is accepted. -/
theorem C30_damaged_pack_rejected_false :
    ¬ ∀ (X : Ext) (St : ObjectSource) (fuel : Nat) (body : Bytes) (trailer : Hash) (pack : Pack),
      decodePack X St fuel (body ++ trailer.1) = .ok pack → trailer = X.sha1 body := by
  intro hall
  obtain ⟨body, _, h⟩ := C30_any_trailer_accepted demoExt (fun _ => none) exampleMs exampleMs_obj exampleMs_ids (by decide)
    (by decide) (by decide) (by decide +kernel) 0
  obtain ⟨p1, h1, _⟩ := h Hash.zero
  obtain ⟨p2, h2, _⟩ := h (demoSha1 [1])
  have e := (hall _ _ _ _ _ _ h1).trans (hall _ _ _ _ _ _ h2).symm
  exact absurd e (by decide)

/-- **C30**, what holds: a pack cut off anywhere inside the checksum is not accepted. (That the checksum is compared with
the contents is what is missing.) -/
theorem C30_truncated_trailer_partial {X : Ext} {St : ObjectSource} {known : Hash → Option Spec.Obj}
    (hst : Supplies St known) {file : Bytes} {es : List (Nat × Spec.Entry)} {trailer : Hash} {os : List (Nat × Spec.Obj)}
    (hp : Spec.PackFile X.inflate file es trailer) (hr : Spec.Resolves (idOf X) known [] es os)
    (hcol : Spec.NoCollision (idOf X) os) (hcap : ∀ p ∈ os, p.2.2.length < 2 ^ 63) (h32 : ∀ p ∈ es, p.1 < 2 ^ 32)
    (fuel : Nat) (cut : Nat) (h1 : 0 < cut) (h2 : cut ≤ 20) :
    decodePack X St (fuel + 1) (file.take (file.length - cut)) = .panic := by
  obtain ⟨h, s, rfl, hh, hent⟩ := hp
  obtain ⟨z, rfl, hz⟩ := entries_prefix hent
  have ht := trailer.2
  have e : (h ++ (z ++ trailer.1)).take ((h ++ (z ++ trailer.1)).length - cut) =
      h ++ (z ++ trailer.1.take (20 - cut)) := by
    rw [← List.append_assoc, ← List.append_assoc,
      show ((h ++ z) ++ trailer.1).length - cut = (h ++ z).length + (20 - cut) by
        simp only [List.length_append]; omega, List.take_length_add_append]
  rw [e, decode_tail hst hh (hz _) hr hcol hcap h32 fuel, dif_neg]
  simp only [List.length_take]
  omega

/-- Whatever the file: the checksum reported is some 20 consecutive bytes of it. -/
theorem C30_signature_from_file {X : Ext} {St : ObjectSource} {fuel : Nat} {file : Bytes} {pack : Pack}
    (h : decodePack X St fuel file = .ok pack) :
    ∃ pos, pos + 20 ≤ file.length ∧ pack.signature.1 = (file.drop pos).take 20 := by
  rw [decodePack] at h
  simp only [Res.bind_eq_ok, Res.unwrap_eq_ok, Res.pure_eq, Res.ok.injEq] at h
  obtain ⟨⟨n, _⟩, _, ⟨c, pos⟩, _, ⟨id, r⟩, h1, sig, h2, rfl⟩ := h
  simp only [readBytes, List.length_drop] at h1
  split at h1
  · simp only [Res.ok.injEq, Prod.mk.injEq] at h1
    refine ⟨pos, by omega, ?_⟩
    rw [Hash.fromRow] at h2
    split at h2
    · obtain rfl := Res.ok.inj h2
      exact h1.1.symm
    · cases h2
  · cases h1

example : decodePack demoExt (fun _ => none) 1 (foreignPack.take (foreignPack.length - 1)) = .panic :=
  C30_truncated_trailer_partial (known := fun _ => none) (fun _ _ _ e => by cases e) foreignPack_file foreignPack_resolves
    foreignPack_ids (by decide) (by decide) 0 1 (by decide) (by decide)

/-! ## C31 -/

/-- **C31** A delta whose distance is zero, met at an offset not yet decoded, makes the decoder call itself for ever (in the
code: until the stack is exhausted and the process is killed). -/
theorem C31_zero_distance_loops {X : Ext} {St : ObjectSource} {file : Bytes} {off n : Nat} {r r' : Bytes} {cache : PackCache}
    (hh : Spec.EntryHeader (file.drop off) 6 n r) (ho : Spec.offsetField r = some (0, r'))
    (hc : cache.offsetObject off = none) (fuel : Nat) : nextObject X St file fuel off cache = .spin := by
  induction fuel with
  | zero => rfl
  | succ fuel ih =>
    rw [nextObject, readTypeAndSize_spec hh]
    simp only [Res.unwrap_ok, Res.bind_ok, show ¬ (1 ≤ 6 ∧ 6 ≤ 4) by omega, if_false, if_true,
      C03_offset_reader_spec _ _ _ ho (by omega), Nat.not_lt_zero, Nat.sub_zero, hc, ih, Res.bind_spin]

/-- Fourteen bytes: a valid header announcing one object, and a delta against itself. -/
def selfDeltaPack : Bytes := [80, 65, 67, 75, 0, 0, 0, 2, 0, 0, 0, 1, 0x60, 0x00]

/-- **C31 is false**: there is a byte string on which decoding never ends. -/
theorem C31_decode_terminates_false :
    ¬ ∀ (X : Ext) (St : ObjectSource) (file : Bytes), ∃ fuel, (decodePack X St fuel file).halts := by
  intro h
  obtain ⟨fuel, hf⟩ := h demoExt (fun _ => none) selfDeltaPack
  have hd : selfDeltaPack.drop 12 = [0x60, 0x00] := rfl
  have hloop := C31_zero_distance_loops (X := demoExt) (St := fun _ => none) (file := selfDeltaPack) (off := 12) (n := 0)
    (r := [0x00]) (r' := []) (cache := PackCache.empty)
    (by rw [hd]; exact ⟨0x60, by decide, by decide, by decide, by decide, by decide⟩) (by decide) rfl fuel
  have hc : checkHeader selfDeltaPack = .ok (1, [0x60, 0x00]) := by decide
  rw [decodePack, hc] at hf
  simp only [Res.bind_ok, decodeLoop, hloop, Res.bind_spin] at hf
  exact hf

/-- **C31**, what holds: if among the entries that are read, one after the other, and the bases they lead to no delta names itself as its base, decoding ends on
every byte string, valid or not, after recursion no deeper than the file is long; the outcome does not depend on how much
more fuel is supplied. -/
theorem C31_decode_terminates_partial (X : Ext) (St : ObjectSource) (file : Bytes) (hz : Spec.NoSelfDelta X.inflate file) :
    ∃ r, r.halts ∧ ∀ fuel, file.length < fuel → decodePack X St fuel file = r := by
  have key : ∀ f1 f2, file.length < f1 → file.length < f2 →
      Res.Agree (decodePack X St f1 file) (decodePack X St f2 file) := by
    intro f1 f2 h1 h2
    rw [decodePack, decodePack]
    refine Res.agree_bind (Res.agree_refl (checkHeader_halts _)) ?_
    rintro ⟨n, rest⟩ hc
    obtain ⟨h, rfl, hh⟩ := (C29_header_iff _ _ _).1 hc
    have hlen : h.length = 12 := by
      have := congrArg List.length hh.2
      simpa [Spec.be32] using this
    have htake : (h ++ rest).take 12 = h := by rw [← hlen, List.take_left]
    refine Res.agree_bind (decodeLoop_agree X St (h ++ rest) f1 f2 h1 h2 n 12 _ (fun k p a => hz n k p a (by rw [htake]; exact hh))
      (by simp only [List.length_append]; omega)) ?_
    rintro ⟨c, pos⟩ _
    refine Res.agree_bind (Res.agree_refl (Res.halts_unwrap (readBytes_halts _ _))) ?_
    rintro ⟨id, r⟩ _
    exact Res.agree_bind (Res.agree_refl (fromRow_halts _)) (fun _ _ => Res.agree_refl trivial)
  refine ⟨decodePack X St (file.length + 1) file, (key _ _ (Nat.lt_succ_self _) (Nat.lt_succ_self _)).2, ?_⟩
  intro fuel hf
  exact (key fuel (file.length + 1) hf (Nat.lt_succ_self _)).1

theorem nextObject_stable (X : Ext) (St : ObjectSource) (file : Bytes) : ∀ (off f1 f2 : Nat) (cache : PackCache), off < f1 → off < f2 →
    nextObject X St file f1 off cache = nextObject X St file f2 off cache := by
  intro off
  induction off using Nat.strongRecOn with
  | _ off ih =>
    intro f1 f2 cache h1 h2
    obtain ⟨f1, rfl⟩ : ∃ g, f1 = g + 1 := ⟨f1 - 1, by omega⟩
    obtain ⟨f2, rfl⟩ : ∃ g, f2 = g + 1 := ⟨f2 - 1, by omega⟩
    have spin : ∀ n r r', (readTypeAndSize (file.drop off)).unwrap = .ok ((6, n), r) → (readOffsetEncoding r).unwrap = .ok (0, r') →
        cache.offsetObject off = none → ∀ f, nextObject X St file f off cache = .spin := by
      intro n r r' e1 e2 e3 f
      induction f with
      | zero => rfl
      | succ f ih =>
        rw [nextObject, e1]
        simp only [Res.bind_ok, show ¬ (1 ≤ 6 ∧ 6 ≤ 4) by omega, if_false, if_true, e2, Nat.not_lt_zero, Nat.sub_zero, e3, ih, Res.bind_spin]
    cases hts : (readTypeAndSize (file.drop off)).unwrap with
    | err e => simp only [nextObject, hts, Res.bind_err]
    | panic => simp only [nextObject, hts, Res.bind_panic]
    | spin => simp only [nextObject, hts, Res.bind_spin]
    | ok q =>
      obtain ⟨⟨k, n⟩, r⟩ := q
      by_cases hk : k = 6
      · subst hk
        cases ho : (readOffsetEncoding r).unwrap with
        | err e => simp only [nextObject, hts, ho, Res.bind_ok, Res.bind_err, show ¬ (1 ≤ 6 ∧ 6 ≤ 4) by omega, if_false, if_true]
        | panic => simp only [nextObject, hts, ho, Res.bind_ok, Res.bind_panic, show ¬ (1 ≤ 6 ∧ 6 ≤ 4) by omega, if_false, if_true]
        | spin => simp only [nextObject, hts, ho, Res.bind_ok, Res.bind_spin, show ¬ (1 ≤ 6 ∧ 6 ≤ 4) by omega, if_false, if_true]
        | ok q =>
          obtain ⟨d, r'⟩ := q
          by_cases hd : d = 0 ∧ cache.offsetObject off = none
          · obtain ⟨rfl, hc⟩ := hd
            rw [spin n r r' hts ho hc, spin n r r' hts ho hc]
          · rw [nextObject, nextObject, hts]
            simp only [Res.bind_ok, show ¬ (1 ≤ 6 ∧ 6 ≤ 4) by omega, if_false, if_true, ho]
            split
            · rfl
            · rename_i hle
              cases hc : cache.offsetObject (off - d) with
              | some m => rfl
              | none =>
                have hd : d ≠ 0 := by
                  rintro rfl
                  exact hd ⟨rfl, hc⟩
                rw [ih (off - d) (by omega) f1 f2 cache (by omega) (by omega)]
      · rw [nextObject, nextObject, hts]
        simp only [Res.bind_ok, if_neg hk]

theorem decodeLoop_stable (X : Ext) (St : ObjectSource) (file : Bytes) {f1 f2 : Nat} (h1 : file.length < f1) (h2 : file.length < f2) :
    ∀ (n pos : Nat) (cache : PackCache), pos ≤ file.length → decodeLoop X St file f1 n pos cache = decodeLoop X St file f2 n pos cache := by
  intro n
  induction n with
  | zero => intros; rfl
  | succ n ih =>
    intro pos cache hp
    rw [decodeLoop, decodeLoop, nextObject_stable X St file pos f1 f2 cache (by omega) (by omega)]
    cases hn : nextObject X St file f2 pos cache with
    | err e => rfl
    | panic => rfl
    | spin => rfl
    | ok q =>
      obtain ⟨⟨m, c⟩, pos'⟩ := q
      simp only [Res.bind_ok]
      split
      · rfl
      · obtain ⟨z, d, rest, q1, q2, q3⟩ := nextObject_pos hn
        exact ih _ _ (by simp only at q3; omega)

theorem spin_bind {α β : Type} {x y : Res α} {k k' : α → Res β} (h : x = .spin ∨ x = y) (hk : ∀ a, k a = .spin ∨ k a = k' a) :
    (x >>= k) = .spin ∨ (x >>= k) = (y >>= k') := by
  rcases h with rfl | rfl
  · exact .inl rfl
  · cases x with
    | ok a => exact hk a
    | err e => exact .inr rfl
    | panic => exact .inr rfl
    | spin => exact .inl rfl

theorem nextObject_more (X : Ext) (St : ObjectSource) (file : Bytes) : ∀ (f off : Nat) (cache : PackCache),
    nextObject X St file f off cache = .spin ∨ nextObject X St file f off cache = nextObject X St file (f + 1) off cache := by
  intro f
  induction f with
  | zero => exact fun _ _ => .inl rfl
  | succ f ih =>
    intro off cache
    rw [nextObject, nextObject]
    refine spin_bind (.inr rfl) ?_
    rintro ⟨⟨k, n⟩, r⟩
    simp only
    split
    · exact .inr rfl
    · split
      · refine spin_bind (.inr rfl) ?_
        rintro ⟨d, r'⟩
        simp only
        split
        · exact .inr rfl
        · refine spin_bind ?_ (fun _ => .inr rfl)
          split
          · exact .inr rfl
          · exact spin_bind (ih _ _) (fun _ => .inr rfl)
      · exact .inr rfl

theorem decodeLoop_more (X : Ext) (St : ObjectSource) (file : Bytes) (f : Nat) : ∀ (n pos : Nat) (cache : PackCache),
    decodeLoop X St file f n pos cache = .spin ∨ decodeLoop X St file f n pos cache = decodeLoop X St file (f + 1) n pos cache := by
  intro n
  induction n with
  | zero => exact fun _ _ => .inr rfl
  | succ n ih =>
    intro pos cache
    rw [decodeLoop, decodeLoop]
    refine spin_bind (nextObject_more X St file f pos cache) ?_
    rintro ⟨⟨m, c⟩, pos'⟩
    simp only
    split
    · exact .inr rfl
    · exact ih _ _

/-- More stack does not change an outcome. -/
theorem decodePack_more (X : Ext) (St : ObjectSource) (file : Bytes) {f g : Nat} (h : f ≤ g) :
    decodePack X St f file = .spin ∨ decodePack X St f file = decodePack X St g file := by
  induction h with
  | refl => exact .inr rfl
  | step _ ih =>
    rename_i g _
    rcases ih with ih | ih
    · exact .inl ih
    · rw [ih]
      rw [decodePack, decodePack]
      refine spin_bind (.inr rfl) ?_
      rintro ⟨n, _⟩
      exact spin_bind (decodeLoop_more X St file g n 12 _) (fun _ => .inr rfl)

/-- **C31**, for every byte string whatsoever: decoding either ends, with recursion no deeper than the file is long, or never ends, however large the stack. -/
theorem C31_dichotomy (X : Ext) (St : ObjectSource) (file : Bytes) :
    (∃ r, r.halts ∧ ∀ fuel, file.length < fuel → decodePack X St fuel file = r) ∨ ∀ fuel, decodePack X St fuel file = .spin := by
  have same : ∀ fuel, file.length < fuel → decodePack X St fuel file = decodePack X St (file.length + 1) file := by
    intro fuel hf
    rw [decodePack, decodePack]
    cases hc : checkHeader file with
    | err e => rfl
    | panic => rfl
    | spin => rfl
    | ok q =>
      obtain ⟨n, rest⟩ := q
      have hlen : 12 ≤ file.length := by
        obtain ⟨h, rfl, hh⟩ := (C29_header_iff _ _ _).1 hc
        have := congrArg List.length hh.2
        simp only [List.length_append] at this ⊢
        simp [Spec.be32] at this
        omega
      simp only [Res.bind_ok, decodeLoop_stable X St file hf (Nat.lt_succ_self _) n 12 _ hlen]
  cases hr : decodePack X St (file.length + 1) file with
  | spin =>
    refine .inr (fun fuel => ?_)
    rcases Nat.lt_or_ge file.length fuel with h | h
    · rw [same fuel h, hr]
    · rcases decodePack_more X St file (show fuel ≤ file.length + 1 by omega) with e | e
      · exact e
      · rw [e, hr]
  | ok p => exact .inl ⟨.ok p, trivial, fun fuel h => (same fuel h).trans hr⟩
  | err e => exact .inl ⟨.err e, trivial, fun fuel h => (same fuel h).trans hr⟩
  | panic => exact .inl ⟨.panic, trivial, fun fuel h => (same fuel h).trans hr⟩

theorem drop_append_length {file z r : Bytes} {off : Nat} (h : file.drop off = z ++ r) : file.drop (off + z.length) = r := by
  rw [← List.drop_drop, h, List.drop_left]

theorem entryCode_at {X : Ext} {file : Bytes} {off : Nat} {s : Bytes} {es : List (Nat × Spec.Entry)} {rest : Bytes} (h : Spec.Entries X.inflate off s es rest)
    (hs : file.drop off = s) : ∀ p ∈ es, ∃ s', Spec.EntryCode X.inflate (file.drop p.1) p.2 s' := by
  induction h with
  | nil => intro p hp; cases hp
  | cons off s s' rest e es hc _ ih =>
    intro p hp
    rcases List.mem_cons.1 hp with rfl | hp
    · exact ⟨s', by rw [hs]; exact hc⟩
    · obtain ⟨z, _, rfl, _⟩ := entryCode_prefix hc
      refine ih ?_ p hp
      rw [List.length_append, Nat.add_sub_cancel]
      exact drop_append_length hs

theorem entryBody_of {X : Ext} {s s' : Bytes} {e : Spec.Entry} (h : Spec.EntryCode X.inflate s e s') : ∃ z d, Spec.entryBody s = some z ∧ X.inflate z = some (d, s') := by
  unfold Spec.entryBody
  cases h with
  | whole r _ data kind hh h1 h2 hi =>
    obtain ⟨v, e1, _, _, e2, _⟩ := hh
    rw [e1]
    simp only
    rw [if_neg (by omega), if_neg (by omega)]
    exact ⟨_, _, rfl, hi⟩
  | ofs r r' _ delta dist hh ho hi =>
    obtain ⟨v, e1, _, _, e2, _⟩ := hh
    rw [e1]
    simp only
    rw [if_pos e2, ho]
    exact ⟨_, _, rfl, hi⟩
  | ref r _ delta base hh hi =>
    obtain ⟨v, e1, _, _, e2, _⟩ := hh
    rw [e1]
    simp only
    rw [if_neg (by omega), if_pos e2, show (base.1 ++ r).drop 20 = r from List.drop_left' base.2]
    exact ⟨_, _, rfl, hi⟩

theorem entrySeq_mem {X : Ext} {file : Bytes} {off k p : Nat} (hs : Spec.EntrySeq X.inflate file off k p) : ∀ {s : Bytes} {es : List (Nat × Spec.Entry)} {rest : Bytes},
    Spec.Entries X.inflate off s es rest → file.drop off = s → k < es.length → p ∈ es.map Prod.fst := by
  induction hs with
  | zero pos =>
    intro s es rest h _ hk
    cases h with
    | nil => cases hk
    | cons => exact .head _
  | succ pos k a z d rest h1 h2 _ ih =>
    intro s es rest' h hd hk
    cases h with
    | nil => cases hk
    | cons _ _ s' _ e es hc h =>
      refine .tail _ ?_
      obtain ⟨z', d', g1, g2⟩ := entryBody_of hc
      rw [hd, g1] at h1
      cases h1
      rw [g2] at h2
      cases h2
      obtain ⟨y, hy, rfl, _⟩ := entryCode_prefix hc
      have e2 : file.length - rest.length = pos + y.length := by
        have := congrArg List.length hd
        have hl := List.length_pos_iff.2 hy
        simp only [List.length_drop, List.length_append] at this
        omega
      rw [List.length_append, Nat.add_sub_cancel] at h
      rw [e2] at ih
      exact ih h (drop_append_length hd) (Nat.lt_of_succ_lt_succ hk)

theorem delta_base {idOf : Spec.Obj → Hash} {known : Hash → Option Spec.Obj} {earlier os : List (Nat × Spec.Obj)} {es : List (Nat × Spec.Entry)} (h : Spec.Resolves idOf known earlier es os)
    {a d : Nat} {delta : Bytes} (ha : (a, Spec.Entry.ofs d delta) ∈ es) : ∃ b, b + d = a ∧ (b ∈ earlier.map Prod.fst ∨ b ∈ es.map Prod.fst) ∧
      ((∀ x ∈ earlier.map Prod.fst, x < a) → es.Pairwise (fun a b => a.1 < b.1) → b < a) := by
  induction h with
  | nil => cases ha
  | cons earlier off e es o os hd _ ih =>
    rcases List.mem_cons.1 ha with e | ha
    · cases e
      cases hd with
      | ofs _ b _ _ _ _ he hm _ =>
        have := List.mem_map_of_mem (f := Prod.fst) hm
        exact ⟨b, he, .inl this, fun h _ => h b this⟩
    · obtain ⟨b, h1, h2, h3⟩ := ih ha
      refine ⟨b, h1, ?_, fun h hp => h3 ?_ (List.pairwise_cons.1 hp).2⟩
      · rcases h2 with h2 | h2
        · rw [List.map_append, List.mem_append] at h2
          rcases h2 with h2 | h2
          · exact .inl h2
          · exact .inr (by rw [List.map_cons, List.mem_singleton.1 h2]; exact .head _)
        · exact .inr (.tail _ h2)
      · intro x hx
        rw [List.map_append, List.mem_append] at hx
        rcases hx with hx | hx
        · exact h x hx
        · rw [List.mem_singleton.1 hx]
          exact (List.pairwise_cons.1 hp).1 _ ha

/-- In a well-formed pack no delta names itself as its base: C31 is about damaged and malicious packs. -/
theorem wellformed_no_self_delta {X : Ext} {known : Hash → Option Spec.Obj} {file : Bytes} {es : List (Nat × Spec.Entry)} {trailer : Hash} {os : List (Nat × Spec.Obj)}
    (hp : Spec.PackFile X.inflate file es trailer) (hr : Spec.Resolves (idOf X) known [] es os) (h32 : ∀ p ∈ es, p.1 < 2 ^ 32) : Spec.NoSelfDelta X.inflate file := by
  obtain ⟨h, s, rfl, hh, hent⟩ := hp
  have hlen : h.length = 12 := by
    have := congrArg List.length hh.2
    simpa [Spec.be32] using this
  have htake : (h ++ s).take 12 = h := by rw [← hlen, List.take_left]
  have hdrop : (h ++ s).drop 12 = s := by rw [← hlen, List.drop_left]
  obtain ⟨hpw, _⟩ := entries_offsets hent
  -- what stands at the offset of an entry
  have at_ : ∀ a ∈ es.map Prod.fst, ∀ v r, Spec.sizeField ((h ++ s).drop a) = some (v, r) → v / 16 % 8 = 6 → ∃ d r', Spec.offsetField r = some (d, r') ∧ 0 < d ∧ d < 2 ^ 32 ∧
      a - d ∈ es.map Prod.fst := by
    intro a ha v r hv hk
    obtain ⟨⟨a, e⟩, hm, rfl⟩ := List.mem_map.1 ha
    obtain ⟨s', hc⟩ := entryCode_at hent hdrop _ hm
    cases e with
    | whole kind data =>
      cases hc with
      | whole r _ data kind hh h1 h2 hi =>
        obtain ⟨v', e1, _, _, e2, _⟩ := hh
        rw [hv] at e1
        cases e1
        omega
    | ref base delta =>
      cases hc with
      | ref r _ delta base hh hi =>
        obtain ⟨v', e1, _, _, e2, _⟩ := hh
        rw [hv] at e1
        cases e1
        omega
    | ofs dist delta =>
      cases hc with
      | ofs r0 r' _ delta dist hh ho hi =>
        obtain ⟨v', e1, _, _, e2, _⟩ := hh
        rw [hv] at e1
        cases e1
        obtain ⟨b, h1, h2, h3⟩ := delta_base hr hm
        have h3 := h3 (fun _ h => nomatch h) hpw
        have h4 := h32 _ hm
        simp only at h4
        refine ⟨dist, r', ho, by omega, by omega, ?_⟩
        rcases h2 with h2 | h2
        · cases h2
        · simp only
          rwa [show a - dist = b by omega]
  have base : ∀ p a, Spec.BaseOf (h ++ s) p a → p ∈ es.map Prod.fst → a ∈ es.map Prod.fst := by
    intro p a hb
    induction hb with
    | here => exact id
    | base pos a v w r r' h1 h2 h3 h4 _ ih =>
      intro hm
      obtain ⟨d, r'', e, _, hd, hin⟩ := at_ pos hm v r h1 h2
      rw [h3] at e
      cases e
      rw [Nat.mod_eq_of_lt (by omega)] at ih
      exact ih hin
  intro n k p a hn hk hseq hb
  rw [htake] at hn
  have en : n = es.length := by
    have h1 := (C29_header_iff (h ++ s) n s).2 ⟨h, rfl, hn⟩
    have h2 := (C29_header_iff (h ++ s) es.length s).2 ⟨h, rfl, hh⟩
    rw [h1] at h2
    simp only [Res.ok.injEq, Prod.mk.injEq] at h2
    exact h2.1
  subst en
  have hm := base p a hb (entrySeq_mem hseq hent hdrop hk)
  rintro ⟨v, r, w, r', h1, h2, h3, h4⟩
  obtain ⟨d, r'', e, hd, hd2, _⟩ := at_ a hm v r h1 h2
  rw [h3] at e
  cases e
  rw [Nat.mod_eq_of_lt (by omega)] at h4
  omega

/-- C31 at work, on a pack with a delta. -/
example : ∃ r, r.halts ∧ ∀ fuel, 100 < fuel → decodePack demoExt (fun _ => none) fuel foreignPack = r := by
  obtain ⟨r, h1, h2⟩ := C31_decode_terminates_partial demoExt (fun _ => none) foreignPack (wellformed_no_self_delta foreignPack_file foreignPack_resolves (by decide))
  exact ⟨r, h1, fun fuel hf => h2 fuel (Nat.lt_trans (by decide +kernel) hf)⟩

/-- A malicious pack: a delta whose base is the last byte of the header, where nothing can be read. -/
def headerDeltaPack : Bytes := [80, 65, 67, 75, 0, 0, 0, 2, 0, 0, 0, 1, 0x60, 0x01, 0x35]

/-- C31 at work, on this pack: decoding ends (with a panic). -/
example : ∃ r, r.halts ∧ ∀ fuel, 15 < fuel → decodePack demoExt (fun _ => none) fuel headerDeltaPack = r := by
  refine C31_decode_terminates_partial demoExt (fun _ => none) headerDeltaPack ?_
  intro n k p a hn hk hs hb
  have en : n = 1 := by
    have h1 := (C29_header_iff headerDeltaPack n [0x60, 0x01, 0x35]).2 ⟨_, rfl, hn⟩
    rw [show checkHeader headerDeltaPack = .ok (1, [0x60, 0x01, 0x35]) from by decide] at h1
    simp only [Res.ok.injEq, Prod.mk.injEq] at h1
    exact h1.1.symm
  have s12 : Spec.sizeField (headerDeltaPack.drop 12) = some (96, [0x01, 0x35]) := by decide
  have o12 : Spec.offsetField [0x01, 0x35] = some (1, [0x35]) := by decide
  have s11 : Spec.sizeField (headerDeltaPack.drop 11) = some (1, [0x60, 0x01, 0x35]) := by decide
  subst en
  cases hs with
  | succ => omega
  | zero =>
    cases hb with
    | here =>
      rintro ⟨v, r, w, r', h1, h2, h3, h4⟩
      rw [s12] at h1
      cases h1
      rw [o12] at h3
      cases h3
      omega
    | base _ _ v w r r' h1 h2 h3 h4 hb =>
      rw [s12] at h1
      cases h1
      rw [o12] at h3
      cases h3
      rw [show 12 - 1 % 2 ^ 64 = 11 from rfl] at hb
      cases hb with
      | here =>
        rintro ⟨v, r, w, r', h1, h2, h3, h4⟩
        rw [s11] at h1
        cases h1
        omega
      | base _ _ v w r r' h1 h2 h3 h4 hb =>
        rw [s11] at h1
        cases h1
        omega

end Gust

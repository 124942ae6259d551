import Verif.Lemmas.Pack

/-! # C27, C29, C30, C32, C64: packs and the object cache -/

namespace Gust

/-! ## C29: headers -/

theorem beNat4 (a b c d : UInt8) :
    beNat [a, b, c, d] = a.toNat * 256 ^ 3 + b.toNat * 256 ^ 2 + c.toNat * 256 + d.toNat := by
  simp [beNat]; ring

theorem split4 {s : Bytes} (h : 4 ≤ s.length) : ∃ a b c d r, s = a :: b :: c :: d :: r := by
  match s, h with
  | a :: b :: c :: d :: r, _ => exact ⟨a, b, c, d, r, rfl⟩

theorem readU32_cons (a b c d : UInt8) (r : Bytes) :
    readU32 (a :: b :: c :: d :: r) = .ok (beNat [a, b, c, d], r) := by
  simp [readU32, readBytes]

theorem readU32_ok {s : Bytes} {n : Nat} {r : Bytes} (h : readU32 s = .ok (n, r)) :
    ∃ a b c d, s = a :: b :: c :: d :: r ∧ n = beNat [a, b, c, d] := by
  simp only [readU32, Res.bind_eq_ok, readBytes] at h
  obtain ⟨⟨bs, r'⟩, h1, h2⟩ := h
  split at h1
  · rename_i hl
    obtain ⟨a, b, c, d, r'', rfl⟩ := split4 hl
    simp only [List.take_succ_cons, List.take_zero, List.drop_succ_cons, List.drop_zero, Res.ok.injEq,
      Prod.mk.injEq] at h1
    simp only [Res.pure_eq, Res.ok.injEq, Prod.mk.injEq] at h2
    obtain ⟨rfl, rfl⟩ := h1
    exact ⟨a, b, c, d, by rw [h2.2], h2.1.symm⟩
  · cases h1

theorem be32_beNat (a b c d : UInt8) : Spec.be32 (beNat [a, b, c, d]) = [a.toNat, b.toNat, c.toNat, d.toNat] := by
  have ha := a.toNat_lt
  have hb := b.toNat_lt
  have hc := c.toNat_lt
  have hd := d.toNat_lt
  rw [beNat4]
  simp only [Spec.be32, List.cons.injEq, and_true]
  refine ⟨by omega, by omega, by omega, by omega⟩

theorem beNat_be32 {a b c d : UInt8} {n : Nat} (hn : n < 2 ^ 32)
    (h : [a.toNat, b.toNat, c.toNat, d.toNat] = Spec.be32 n) : beNat [a, b, c, d] = n := by
  simp only [Spec.be32, List.cons.injEq, and_true] at h
  rw [beNat4, h.1, h.2.1, h.2.2.1, h.2.2.2]
  omega

theorem beNat_lt (a b c d : UInt8) : beNat [a, b, c, d] < 2 ^ 32 := by
  have ha := a.toNat_lt
  have hb := b.toNat_lt
  have hc := c.toNat_lt
  have hd := d.toNat_lt
  rw [beNat4]; omega

/-- **C29** A file passes the header check exactly when it starts with `PACK`, version 2 and a four byte count; the count
reported is the one in the header, and reading continues right behind it. -/
theorem C29_header_iff (file : Bytes) (n : Nat) (rest : Bytes) :
    checkHeader file = .ok (n, rest) ↔ ∃ h, file = h ++ rest ∧ Spec.PackHeader h n := by
  constructor
  · intro h
    simp only [checkHeader, Res.bind_eq_ok, Res.unwrap_eq_ok] at h
    obtain ⟨⟨magic, r1⟩, h1, h⟩ := h
    simp only at h
    split at h
    · cases h
    · rename_i hm
      simp only [ne_eq, not_not] at hm
      simp only [Res.bind_eq_ok, Res.unwrap_eq_ok] at h
      obtain ⟨⟨v, r2⟩, h2, h⟩ := h
      simp only at h
      split at h
      · cases h
      · rename_i hv
        simp only [ne_eq, not_not] at hv
        rw [Res.unwrap_eq_ok] at h
        obtain ⟨a, b, c, d, rfl, ev⟩ := readU32_ok h2
        obtain ⟨a', b', c', d', rfl, rfl⟩ := readU32_ok h
        simp only [readBytes] at h1
        split at h1
        · simp only [Res.ok.injEq, Prod.mk.injEq] at h1
          refine ⟨ascii "PACK" ++ [a, b, c, d, a', b', c', d'], ?_, beNat_lt _ _ _ _, ?_⟩
          · rw [← hm, ← h1.1]
            conv => lhs; rw [← List.take_append_drop 4 file, h1.2]
            simp
          · rw [be32_beNat, ← hv, ev, be32_beNat]
            have : (ascii "PACK").map UInt8.toNat = [0x50, 0x41, 0x43, 0x4b] := by decide
            simp [this]
        · cases h1
  · rintro ⟨h, rfl, hn, hh⟩
    have hl : h.length = 12 := by
      have := congrArg List.length hh
      simpa [Spec.be32] using this
    match h, hl with
    | [m1, m2, m3, m4, v1, v2, v3, v4, c1, c2, c3, c4], _ =>
      simp only [List.map_cons, List.map_nil, List.cons_append, List.nil_append, List.cons.injEq] at hh
      obtain ⟨e1, e2, e3, e4, hh⟩ := hh
      have hm : [m1, m2, m3, m4] = ascii "PACK" := by
        have : ([m1, m2, m3, m4] : Bytes).map UInt8.toNat = (ascii "PACK").map UInt8.toNat := by
          simp only [List.map_cons, List.map_nil, e1, e2, e3, e4]; decide
        exact List.map_injective_iff.2 (fun _ _ => UInt8.toNat_inj.1) this
      have hv : beNat [v1, v2, v3, v4] = 2 := by
        apply beNat_be32 (by omega)
        have := congrArg (List.take 4) hh
        simpa [Spec.be32] using this
      have hc : beNat [c1, c2, c3, c4] = n := by
        apply beNat_be32 hn
        have := congrArg (List.drop 4) hh
        simpa [Spec.be32] using this
      have hr : readBytes 4 ([m1, m2, m3, m4, v1, v2, v3, v4, c1, c2, c3, c4] ++ rest) =
          .ok (ascii "PACK", [v1, v2, v3, v4, c1, c2, c3, c4] ++ rest) := by
        rw [← hm]; simp [readBytes]
      rw [checkHeader, hr]
      simp only [Res.unwrap_ok, Res.bind_ok, ne_eq, not_true_eq_false, if_false, List.cons_append,
        List.nil_append, readU32_cons, hv, hc]

/-- **C29** The header written for 1 to 2^32-1 objects is valid and gives the count back; other counts are refused
(assertion failure), not written wrongly. -/
theorem C29_header_roundtrip (n : Nat) :
    (1 ≤ n ∧ n < 2 ^ 32 → ∃ h, encodeHeader n = .ok h ∧ Spec.PackHeader h n ∧ h.length = 12 ∧
        ∀ rest, checkHeader (h ++ rest) = .ok (n, rest)) ∧
      (n = 0 ∨ 2 ^ 32 ≤ n → encodeHeader n = .panic) := by
  constructor
  · rintro ⟨h1, h2⟩
    have hph : Spec.PackHeader ([80, 65, 67, 75, 0, 0, 0, 2] ++ u32Vec n) n := by
      refine ⟨h2, ?_⟩
      simp only [u32Vec, and_ff, Nat.shiftRight_eq_div_pow, List.map_append, List.map_cons, List.map_nil, u8_toNat,
        Spec.be32, Nat.mod_mod]
      have e1 : n / 2 ^ 24 % 256 = n / 256 ^ 3 % 256 := by norm_num
      have e2 : n / 2 ^ 16 % 256 = n / 256 ^ 2 % 256 := by norm_num
      have e3 : n / 2 ^ 8 % 256 = n / 256 % 256 := by norm_num
      rw [e1, e2, e3]
      rfl
    refine ⟨_, by rw [encodeHeader, if_neg (by omega)], hph, by simp [u32Vec], ?_⟩
    intro rest
    exact (C29_header_iff _ _ _).2 ⟨_, rfl, hph⟩
  · intro h
    rw [encodeHeader, if_pos h]

example : checkHeader ([0x50, 0x41, 0x43, 0x4b, 0, 0, 0, 2, 0, 0, 1, 4] ++ [9]) = .ok (260, [9]) :=
  (C29_header_iff _ _ _).2 ⟨_, rfl, by omega, by decide⟩

example : checkHeader [0x50, 0x41, 0x43, 0x4b, 0, 0, 0, 3, 0, 0, 0, 1] = .err .packFile := by decide

/-! ## C32: the cache -/

/-- **C32** After any history of insertions: an id is findable exactly when it has an offset; looking up an id gives the
object most recently stored under it; and if ids identify contents, looking up an offset gives the object most recently
stored at that offset (nothing if there is none). -/
theorem C32_cache_consistent (hist : List (MetaData × Nat)) (c : PackCache)
    (hc : c = hist.foldl (fun c p => c.update p.1 p.2) PackCache.empty) :
    (∀ h, (∃ m, c.hashObject h = some m) ↔ ∃ o, c.byOffset h = some o) ∧
    (∀ h, c.hashObject h = (Spec.lastWith (fun p => decide (p.1.id = h)) hist).map Prod.fst ∧
      c.byOffset h = (Spec.lastWith (fun p => decide (p.1.id = h)) hist).map Prod.snd) ∧
    ((∀ a ∈ hist, ∀ b ∈ hist, a.1.id = b.1.id → a.1 = b.1) →
      ∀ o, c.offsetObject o = (Spec.lastWith (fun p => decide (p.2 = o)) hist).map Prod.fst) := by
  subst hc
  refine ⟨?_, ?_, ?_⟩
  · intro h
    have h1 := PackCache.hashObject_run hist h
    have h2 := PackCache.byOffset_run hist h
    unfold PackCache.run at h1 h2
    rw [h1, h2]
    cases Spec.lastWith (fun p => decide (p.1.id = h)) hist <;> simp
  · intro h
    exact ⟨PackCache.hashObject_run hist h, PackCache.byOffset_run hist h⟩
  · intro hid o
    exact PackCache.offsetObject_run hist hid o

/-- **C32** Without the assumption on ids the last part is false: a second object with the same id replaces the first at
the first one's offset, too. -/
theorem C32_colliding_ids (a b : MetaData) (h : a.id = b.id) (o o' : Nat) (ho : o ≠ o') :
    ((PackCache.empty.update a o).update b o').offsetObject o = some b := by
  simp [PackCache.update, PackCache.offsetObject, ho, h, HashMap.get_insert]

/-- **C32** The objects are kept in increasing order of ids, each id once. -/
theorem C32_cache_sorted (hist : List (MetaData × Nat)) :
    ((PackCache.empty.run hist).byHash.Pairwise (fun a b => bytesLt a.1.1 b.1.1 = true)) ∧
      ∀ p ∈ (PackCache.empty.run hist).byHash, p.2.id = p.1 := by
  refine ⟨PackCache.sorted_run hist, ?_⟩
  induction hist using PackCache.snoc_induction with
  | h0 => intro p hp; cases hp
  | h1 l a ih =>
    intro p hp
    rw [PackCache.run_snoc] at hp
    rcases HashMap.mem_insert _ _ _ _ hp with rfl | hp
    · rfl
    · exact ih p hp

example : ((PackCache.empty.update exampleBase 12).update { exampleNew with id := demoExt.sha1 [1] } 40).offsetObject 12 =
    some exampleBase := by
  have := (C32_cache_consistent [(exampleBase, 12), ({ exampleNew with id := demoExt.sha1 [1] }, 40)] _ rfl).2.2
    (by decide) 12
  exact this

/-! ## C64: decoding implements the format -/

/-- The decoded pack consists of exactly these objects (with their offsets) and has this trailer. -/
structure DecodedTo (X : Ext) (pack : Pack) (os : List (Nat × Spec.Obj)) (trailer : Hash) : Prop where
  count : pack.numberOfObjects = os.length
  signature : pack.signature = trailer
  /-- they are real objects -/
  objects : ∀ p ∈ os, ∃ m, MetaData.new X p.2.1 p.2.2 = .ok m
  /-- every object is found by its id, and nothing else is -/
  byId : ∀ h m, pack.result.hashObject h = some m ↔ ∃ p ∈ os, MetaData.new X p.2.1 p.2.2 = .ok m ∧ m.id = h
  /-- every object is found at its offset, and nothing elsewhere -/
  atOffset : ∀ off m, pack.result.offsetObject off = some m ↔ ∃ p ∈ os, p.1 = off ∧ MetaData.new X p.2.1 p.2.2 = .ok m
  /-- the offset recorded for an id is one where an object of that id is -/
  offsetOf : ∀ h off, pack.result.byOffset h = some off → ∃ p ∈ os, p.1 = off ∧ idOf X p.2 = h
  /-- every object has a recorded offset -/
  hasOffset : ∀ p ∈ os, ∃ off, pack.result.byOffset (idOf X p.2) = some off
  /-- the objects are listed in order of ids, each once -/
  listed : ∀ h m, (h, m) ∈ pack.result.byHash ↔ pack.result.hashObject h = some m
  sorted : pack.result.byHash.Pairwise (fun a b => bytesLt a.1.1 b.1.1 = true)

theorem resolves_base {X : Ext} {known : Hash → Option Spec.Obj} (hk : ∀ h t b, known h = some (t, b) → t.isBase = true)
    {earlier : List (Nat × Spec.Obj)} {es : List (Nat × Spec.Entry)} {os : List (Nat × Spec.Obj)}
    (h : Spec.Resolves (idOf X) known earlier es os) : (∀ p ∈ earlier, p.2.1.isBase = true) →
    (∀ p ∈ os, p.2.1.isBase = true) ∧ os.map Prod.fst = es.map Prod.fst := by
  induction h with
  | nil => intro _; simp
  | cons earlier off e es o os hd _ ih =>
    intro hb
    have ho : o.1.isBase = true := by
      cases hd with
      | whole k t d h => exact (kindOf_ofNumber h).2.2.2.1
      | ofs _ _ _ _ _ _ _ hm _ => exact hb _ hm
      | refIn _ _ _ _ _ _ hm _ _ => exact hb _ hm
      | refOut _ _ _ _ _ _ h _ => exact hk _ _ _ h
    obtain ⟨h1, h2⟩ := ih (by
      intro p hp
      rcases List.mem_append.1 hp with hp | hp
      · exact hb p hp
      · rw [List.mem_singleton.1 hp]; exact ho)
    refine ⟨?_, by simp [h2]⟩
    intro p hp
    rcases List.mem_cons.1 hp with rfl | hp
    · exact ho
    · exact h1 p hp

theorem new_iff_metaOf {X : Ext} {o : Spec.Obj} (h : o.1.isBase = true) (m : MetaData) :
    MetaData.new X o.1 o.2 = .ok m ↔ metaOf X o = m := by
  rw [new_metaOf X o h]
  constructor
  · exact Res.ok.inj
  · rintro rfl; rfl

/-- Decoding up to and including the trailer, whatever follows the entries. -/
theorem decode_tail {X : Ext} {St : ObjectSource} {known : Hash → Option Spec.Obj} (hst : Supplies St known)
    {h s tail : Bytes} {es : List (Nat × Spec.Entry)} {os : List (Nat × Spec.Obj)} (hh : Spec.PackHeader h es.length)
    (hent : Spec.Entries X.inflate 12 s es tail) (hr : Spec.Resolves (idOf X) known [] es os)
    (hcol : Spec.NoCollision (idOf X) os) (hcap : ∀ p ∈ os, p.2.2.length < 2 ^ 63) (h32 : ∀ p ∈ es, p.1 < 2 ^ 32)
    (fuel : Nat) :
    decodePack X St (fuel + 1) (h ++ s) =
      if hl : 20 ≤ tail.length then
        .ok { numberOfObjects := es.length, signature := ⟨tail.take 20, by simp; omega⟩, result := cacheOf X os }
      else .panic := by
  have hl : h.length = 12 := by
    have := congrArg List.length hh.2
    simpa [Spec.be32] using this
  have hloop := decodeLoop_entries hst (file := h ++ s) fuel hent (earlier := []) (os := os) (pre := h) rfl hl.symm hr
    (by simpa using hcol) (by simp) (by simp) (by simp) hcap h32
  obtain ⟨z, rfl, _⟩ := entries_prefix hent
  have hdrop : (h ++ (z ++ tail)).drop ((h ++ (z ++ tail)).length - tail.length) = tail := by
    rw [← List.append_assoc]
    exact drop_of_split rfl (by simp only [List.length_append]; omega)
  have hempty : cacheOf X [] = PackCache.empty := rfl
  rw [hempty] at hloop
  rw [decodePack, (C29_header_iff _ _ _).2 ⟨h, rfl, hh⟩]
  simp only [Res.bind_ok, hloop, List.nil_append, hdrop]
  by_cases ht : 20 ≤ tail.length
  · have hlen : (tail.take 20).length = 20 := by simp; omega
    rw [dif_pos ht, readBytes, if_pos ht]
    simp only [Res.unwrap_ok, Res.bind_ok, Hash.fromRow, hlen, dite_true, Res.pure_eq]
  · rw [dif_neg ht, readBytes, if_neg ht]
    rfl

/-- **C64** Every well-formed pack (whole objects, offset deltas and reference deltas in any mixture, written by anyone)
decodes to exactly the objects it stands for in the documented format. Well-formed: the entries fit the 32-bit offsets the
decoder insists on, offset deltas point to the start of an earlier entry, and the bases of reference deltas are earlier
entries or objects supplied by the storage. The trailer is returned as it is. -/
theorem C64_decode_wellformed {X : Ext} {St : ObjectSource} {known : Hash → Option Spec.Obj} (hst : Supplies St known)
    {file : Bytes} {es : List (Nat × Spec.Entry)} {trailer : Hash} {os : List (Nat × Spec.Obj)}
    (hp : Spec.PackFile X.inflate file es trailer) (hr : Spec.Resolves (idOf X) known [] es os)
    (hcol : Spec.NoCollision (idOf X) os) (hcap : ∀ p ∈ os, p.2.2.length < 2 ^ 63) (h32 : ∀ p ∈ es, p.1 < 2 ^ 32)
    (fuel : Nat) :
    ∃ pack, decodePack X St (fuel + 1) file = .ok pack ∧ DecodedTo X pack os trailer := by
  obtain ⟨h, s, rfl, hh, hent⟩ := hp
  obtain ⟨hbase, hoffs⟩ := resolves_base (fun h t b e => (hst h t b e).1) hr (by simp)
  have hpw : os.Pairwise (fun a b => a.1 < b.1) := by
    have := (entries_offsets hent).1
    rw [← List.pairwise_map (f := Prod.fst) (R := (· < ·)), ← hoffs] at this
    exact List.pairwise_map.1 this
  have hlen : os.length = es.length := by
    have := congrArg List.length hoffs
    simpa using this
  refine ⟨{ numberOfObjects := es.length, signature := trailer, result := cacheOf X os }, ?_, ?_⟩
  · rw [decode_tail hst hh hent hr hcol hcap h32 fuel, dif_pos (by rw [trailer.2])]
    have : trailer.1.take 20 = trailer.1 := List.take_of_length_le (by rw [trailer.2])
    simp only [this]
  · refine ⟨hlen.symm, rfl, fun p hp => ⟨_, new_metaOf X p.2 (hbase p hp)⟩, ?_, ?_, ?_, ?_, ?_, PackCache.sorted_run _⟩
    · intro h m
      rw [cacheOf_hashObject hcol]
      constructor
      · rintro ⟨p, hp, h1, h2⟩
        exact ⟨p, hp, (new_iff_metaOf (hbase p hp) m).2 h2, by rw [← h2]; exact h1⟩
      · rintro ⟨p, hp, h1, h2⟩
        have := (new_iff_metaOf (hbase p hp) m).1 h1
        exact ⟨p, hp, by rw [← h2, ← this]; rfl, this⟩
    · intro off m
      rw [cacheOf_offsetObject hcol hpw]
      constructor
      · rintro ⟨p, hp, h1, h2⟩
        exact ⟨p, hp, h1, (new_iff_metaOf (hbase p hp) m).2 h2⟩
      · rintro ⟨p, hp, h1, h2⟩
        exact ⟨p, hp, h1, (new_iff_metaOf (hbase p hp) m).1 h2⟩
    · intro h off e
      simp only [cacheOf, PackCache.byOffset_run] at e
      obtain ⟨a, ha, rfl⟩ := Option.map_eq_some_iff.1 e
      obtain ⟨h1, h2⟩ := PackCache.lastWith_some ha
      obtain ⟨p, hp, rfl⟩ := List.mem_map.1 h1
      simp only [decide_eq_true_eq] at h2
      exact ⟨p, hp, rfl, h2⟩
    · intro p hp
      obtain ⟨b, hb⟩ := PackCache.lastWith_exists (p := fun q : MetaData × Nat => decide (q.1.id = idOf X p.2))
        (List.mem_map.2 ⟨p, hp, rfl⟩ : (metaOf X p.2, p.1) ∈ os.map (fun p => (metaOf X p.2, p.1)))
        (by simp only [decide_eq_true_eq]; rfl)
      exact ⟨b.2, by simp only [cacheOf, PackCache.byOffset_run, hb, Option.map_some]⟩
    · intro h m
      exact HashMap.mem_iff_get (PackCache.sorted_run _) h m

/-! ## C27: packs of whole objects -/

/-- Offsets and objects of a pack of whole objects: each entry starts where the previous one ends. -/
def objectsAt (X : Ext) : Nat → List MetaData → List (Nat × Spec.Obj)
  | _, [] => []
  | off, m :: ms => (off, (m.t, m.data)) :: objectsAt X (off + (MetaData.convertToVec X m).length) ms

theorem objectsAt_length (X : Ext) (off : Nat) (ms : List MetaData) : (objectsAt X off ms).length = ms.length := by
  induction ms generalizing off with
  | nil => rfl
  | cons m ms ih => simp [objectsAt, ih]

theorem objectsAt_append (X : Ext) (a b : List MetaData) : ∀ off,
    objectsAt X off (a ++ b) = objectsAt X off a ++ objectsAt X (off + (encodeEntries X a).length) b := by
  induction a with
  | nil => intro off; simp [objectsAt, encodeEntries]
  | cons m a ih =>
    intro off
    simp only [List.cons_append, objectsAt, ih, encodeEntries, List.flatMap_cons, List.length_append, Nat.add_assoc]

theorem mem_objectsAt {X : Ext} {ms : List MetaData} : ∀ {off : Nat} {p : Nat × Spec.Obj}, p ∈ objectsAt X off ms ↔
    ∃ a m b, ms = a ++ m :: b ∧ p = (off + (encodeEntries X a).length, (m.t, m.data)) := by
  induction ms with
  | nil =>
    intro off p
    simp [objectsAt]
  | cons m ms ih =>
    intro off p
    simp only [objectsAt, List.mem_cons, ih]
    constructor
    · rintro (rfl | ⟨a, m', b, rfl, rfl⟩)
      · exact ⟨[], m, ms, rfl, by simp [encodeEntries]⟩
      · exact ⟨m :: a, m', b, rfl, by simp [encodeEntries, Nat.add_assoc]⟩
    · rintro ⟨a, m', b, h, rfl⟩
      cases a with
      | nil =>
        simp only [List.nil_append, List.cons.injEq] at h
        left; rw [h.1]; simp [encodeEntries]
      | cons x a =>
        simp only [List.cons_append, List.cons.injEq] at h
        right
        obtain ⟨rfl, h⟩ := h
        exact ⟨a, m', b, h, by simp [encodeEntries, Nat.add_assoc]⟩

/-- The entries of a pack of whole objects. -/
def entriesAt (X : Ext) : Nat → List MetaData → List (Nat × Spec.Entry)
  | _, [] => []
  | off, m :: ms => (off, .whole m.t.number m.data) :: entriesAt X (off + (MetaData.convertToVec X m).length) ms

theorem entries_written {X : Ext} {ms : List MetaData} (h : ∀ m ∈ ms, m.t.isBase = true ∧ m.size = m.data.length ∧
    m.data.length < 2 ^ 61) (rest : Bytes) : ∀ off,
    Spec.Entries X.inflate off (encodeEntries X ms ++ rest) (entriesAt X off ms) rest := by
  induction ms with
  | nil => intro off; exact .nil _ _
  | cons m ms ih =>
    intro off
    obtain ⟨h1, h2, h3⟩ := h m (by simp)
    simp only [encodeEntries, List.flatMap_cons, List.append_assoc, entriesAt]
    refine .cons _ _ _ _ _ _ (entryCode_base h1 h2 h3 _) ?_
    have e : (MetaData.convertToVec X m ++ (ms.flatMap (MetaData.convertToVec X) ++ rest)).length -
        (ms.flatMap (MetaData.convertToVec X) ++ rest).length = (MetaData.convertToVec X m).length := by
      simp only [List.length_append]; omega
    rw [e]
    exact ih (fun m hm => h m (by simp [hm])) _

theorem resolves_written {X : Ext} {known : Hash → Option Spec.Obj} {ms : List MetaData}
    (h : ∀ m ∈ ms, m.t.isBase = true) : ∀ off earlier,
    Spec.Resolves (idOf X) known earlier (entriesAt X off ms) (objectsAt X off ms) := by
  induction ms with
  | nil => intro off earlier; exact .nil _
  | cons m ms ih =>
    intro off earlier
    exact .cons _ _ _ _ _ _ (.whole _ _ _ (kindOf_number (h m (by simp)))) (ih (fun m hm => h m (by simp [hm])) _ _)

theorem entriesAt_fst (X : Ext) (ms : List MetaData) : ∀ off,
    (entriesAt X off ms).map Prod.fst = (objectsAt X off ms).map Prod.fst := by
  induction ms with
  | nil => intro off; rfl
  | cons m ms ih => intro off; simp [entriesAt, objectsAt, ih]

theorem noCollision_objectsAt {X : Ext} {ms : List MetaData} (hobj : ∀ m ∈ ms, MetaData.new X m.t m.data = .ok m)
    (hcol : ∀ a ∈ ms, ∀ b ∈ ms, a.id = b.id → a = b) (off : Nat) : Spec.NoCollision (idOf X) (objectsAt X off ms) := by
  intro p hp q hq e
  obtain ⟨a, m, b, h1, rfl⟩ := mem_objectsAt.1 hp
  obtain ⟨a', m', b', h1', rfl⟩ := mem_objectsAt.1 hq
  have hm : m ∈ ms := by rw [h1]; simp
  have hm' : m' ∈ ms := by rw [h1']; simp
  have e1 := (metaOf_of_new (hobj m hm)).2
  have e2 := (metaOf_of_new (hobj m' hm')).2
  have : m = m' := hcol m hm m' hm' (by rw [← e1, ← e2]; exact e)
  rw [this]

/-- Packs of whole objects are well formed, whatever the trailer. -/
theorem packFile_written {X : Ext} {ms : List MetaData} (hobj : ∀ m ∈ ms, MetaData.new X m.t m.data = .ok m)
    (hsize : ∀ m ∈ ms, m.data.length < 2 ^ 61) (h0 : ms ≠ []) (hn : ms.length < 2 ^ 32) (trailer : Hash) :
    ∃ hd, encodeHeader ms.length = .ok hd ∧ hd.length = 12 ∧
      Spec.PackFile X.inflate (hd ++ encodeEntries X ms ++ trailer.1) (entriesAt X 12 ms) trailer := by
  have hpos : 1 ≤ ms.length := List.length_pos_iff.2 h0
  obtain ⟨hd, h1, h2, h3, _⟩ := (C29_header_roundtrip ms.length).1 ⟨hpos, hn⟩
  refine ⟨hd, h1, h3, hd, encodeEntries X ms ++ trailer.1, by simp, ?_, ?_⟩
  · have : (entriesAt X 12 ms).length = ms.length := by
      have := congrArg List.length (entriesAt_fst X ms 12)
      simpa [objectsAt_length] using this
    rw [this]; exact h2
  · apply entries_written
    intro m hm
    obtain ⟨hb, _, _, hs, _⟩ := new_ok (hobj m hm)
    exact ⟨hb, hs, hsize m hm⟩

/-- What decoding a pack of the whole objects `ms` must give. -/
structure PackOf (X : Ext) (pack : Pack) (ms : List MetaData) (trailer : Hash) : Prop where
  count : pack.numberOfObjects = ms.length
  signature : pack.signature = trailer
  /-- the objects found by id are exactly the given ones, with equal type, content and id -/
  byId : ∀ h m, pack.result.hashObject h = some m ↔ m ∈ ms ∧ m.id = h
  /-- each object is found at the offset at which it was written -/
  atOffset : ∀ a m b, ms = a ++ m :: b → pack.result.offsetObject (12 + (encodeEntries X a).length) = some m
  /-- the offset recorded for an id is one where that object was written -/
  offsetOf : ∀ h off, pack.result.byOffset h = some off →
    ∃ a m b, ms = a ++ m :: b ∧ m.id = h ∧ off = 12 + (encodeEntries X a).length

theorem decode_written {X : Ext} (St : ObjectSource) {ms : List MetaData}
    (hobj : ∀ m ∈ ms, MetaData.new X m.t m.data = .ok m)
    (hcol : ∀ a ∈ ms, ∀ b ∈ ms, a.id = b.id → a = b) (hsize : ∀ m ∈ ms, m.data.length < 2 ^ 61) (h0 : ms ≠ [])
    (hn : ms.length < 2 ^ 32) (hoff : 12 + (encodeEntries X ms).length ≤ 2 ^ 32) (fuel : Nat) (trailer : Hash) :
    ∃ hd pack, encodeHeader ms.length = .ok hd ∧ hd.length = 12 ∧
      decodePack X St (fuel + 1) (hd ++ encodeEntries X ms ++ trailer.1) = .ok pack ∧ PackOf X pack ms trailer := by
  obtain ⟨hd, h1, h1l, h2⟩ := packFile_written hobj hsize h0 hn trailer
  have hbase : ∀ m ∈ ms, m.t.isBase = true := fun m hm => (new_ok (hobj m hm)).1
  have h32 : ∀ p ∈ entriesAt X 12 ms, p.1 < 2 ^ 32 := by
    have hent := entries_written (X := X) (ms := ms) (fun m hm => by
      obtain ⟨hb, _, _, hs, _⟩ := new_ok (hobj m hm)
      exact ⟨hb, hs, hsize m hm⟩) [] 12
    intro p hp
    have := ((entries_offsets hent).2 p hp).2
    simp at this
    omega
  obtain ⟨pack, h3, h4⟩ := C64_decode_wellformed (X := X) (St := St) (known := fun _ => none)
    (fun h t b e => by cases e) h2 (resolves_written hbase 12 []) (noCollision_objectsAt hobj hcol 12)
    (by
      intro p hp
      obtain ⟨a, m, b, e, rfl⟩ := mem_objectsAt.1 hp
      have := hsize m (by rw [e]; simp)
      simp only
      omega) h32 fuel
  refine ⟨hd, pack, h1, h1l, h3, ⟨by rw [h4.count, objectsAt_length], h4.signature, ?_, ?_, ?_⟩⟩
  · intro h m
    rw [h4.byId]
    constructor
    · rintro ⟨p, hp, e1, e2⟩
      obtain ⟨a, m', b, e, rfl⟩ := mem_objectsAt.1 hp
      have hm' : m' ∈ ms := by rw [e]; simp
      rw [hobj m' hm'] at e1
      obtain rfl := Res.ok.inj e1
      exact ⟨hm', e2⟩
    · rintro ⟨hm, e⟩
      obtain ⟨a, b, hs⟩ := List.append_of_mem hm
      exact ⟨_, mem_objectsAt.2 ⟨a, m, b, hs, rfl⟩, hobj m hm, e⟩
  · intro a m b e
    rw [h4.atOffset]
    exact ⟨_, mem_objectsAt.2 ⟨a, m, b, e, rfl⟩, rfl, hobj m (by rw [e]; simp)⟩
  · intro h off e
    obtain ⟨p, hp, e1, e2⟩ := h4.offsetOf h off e
    obtain ⟨a, m, b, e, rfl⟩ := mem_objectsAt.1 hp
    refine ⟨a, m, b, e, ?_, e1.symm⟩
    rw [← e2, ← (metaOf_of_new (hobj m (by rw [e]; simp))).2]
    rfl

/-- **C27** Encoding any non-empty list of objects as a pack and decoding it yields exactly those objects, each at the
offset where it was written, the right count, and a trailer equal to the SHA-1 of everything before it.
Limits: the 32-bit limits of the format and 2^61 bytes per object. `hcol` excludes SHA-1 collisions inside the list. -/
theorem C27_pack_roundtrip (X : Ext) (St : ObjectSource) (ms : List MetaData)
    (hobj : ∀ m ∈ ms, MetaData.new X m.t m.data = .ok m)
    (hcol : ∀ a ∈ ms, ∀ b ∈ ms, a.id = b.id → a = b) (hsize : ∀ m ∈ ms, m.data.length < 2 ^ 61) (h0 : ms ≠ [])
    (hn : ms.length < 2 ^ 32) (hoff : 12 + (encodeEntries X ms).length ≤ 2 ^ 32) (fuel : Nat) :
    ∃ body file pack, encodePack X ms = .ok ((ms.length, X.sha1 body), file) ∧ file = body ++ (X.sha1 body).1 ∧
      decodePack X St (fuel + 1) file = .ok pack ∧ PackOf X pack ms (X.sha1 body) := by
  obtain ⟨hd, _, h1, _⟩ := decode_written St hobj hcol hsize h0 hn hoff fuel (X.sha1 [])
  obtain ⟨hd', pack, h1', _, h3, h4⟩ := decode_written St hobj hcol hsize h0 hn hoff fuel (X.sha1 (hd ++ encodeEntries X ms))
  rw [h1] at h1'
  obtain rfl := Res.ok.inj h1'
  exact ⟨hd ++ encodeEntries X ms, _, pack, by simp only [encodePack, h1, Res.bind_ok, Res.pure_eq, signPack], rfl, h3, h4⟩

/-- **C27**, re-encoding: encoding the objects of any decoded pack again (`encode(None)`, every object whole) and decoding
the result gives the same objects. -/
theorem C27_reencode_decoded (X : Ext) (St : ObjectSource) (pack : Pack) (os : List (Nat × Spec.Obj)) (trailer : Hash)
    (hd : DecodedTo X pack os trailer) (hsize : ∀ p ∈ os, p.2.2.length < 2 ^ 61) (h0 : os ≠ [])
    (hn : pack.result.byHash.length < 2 ^ 32)
    (hoff : 12 + (encodeEntries X (pack.result.byHash.map Prod.snd)).length ≤ 2 ^ 32) (fuel : Nat) :
    ∃ sig file pack', encodeCache X pack.result = .ok ((pack.result.byHash.length, sig), file) ∧
      decodePack X St (fuel + 1) file = .ok pack' ∧ pack'.numberOfObjects = pack.result.byHash.length ∧
      ∀ h, pack'.result.hashObject h = pack.result.hashObject h := by
  have key : ∀ m, m ∈ pack.result.byHash.map Prod.snd ↔ pack.result.hashObject m.id = some m := by
    intro m
    constructor
    · intro h
      obtain ⟨⟨k, m'⟩, h1, rfl⟩ := List.mem_map.1 h
      have h2 := (hd.listed k m').1 h1
      obtain ⟨p, _, _, e⟩ := (hd.byId k m').1 h2
      simp only
      rw [e]; exact h2
    · intro h
      exact List.mem_map.2 ⟨(m.id, m), (hd.listed _ _).2 h, rfl⟩
  have hsrc : ∀ m ∈ pack.result.byHash.map Prod.snd, ∃ p ∈ os, MetaData.new X p.2.1 p.2.2 = .ok m := by
    intro m hm
    obtain ⟨p, hp, e, _⟩ := (hd.byId _ _).1 ((key m).1 hm)
    exact ⟨p, hp, e⟩
  obtain ⟨body, file, pack', h1, _, h2, h3⟩ := C27_pack_roundtrip X St (pack.result.byHash.map Prod.snd)
    (by
      intro m hm
      obtain ⟨p, _, e⟩ := hsrc m hm
      obtain ⟨_, e1, e2, _⟩ := new_ok e
      rw [e1, e2]; exact e)
    (by
      intro a ha b hb e
      have e1 := (key a).1 ha
      have e2 := (key b).1 hb
      rw [e, e2] at e1
      exact (Option.some.inj e1).symm)
    (by
      intro m hm
      obtain ⟨p, hp, e⟩ := hsrc m hm
      rw [(new_ok e).2.2.1]
      exact hsize p hp)
    (by
      intro e
      obtain ⟨p, hp⟩ := List.exists_mem_of_ne_nil _ h0
      obtain ⟨m, hm⟩ := hd.objects p hp
      have := (key m).2 ((hd.byId m.id m).2 ⟨p, hp, hm, rfl⟩)
      rw [e] at this
      cases this)
    (by simpa using hn) hoff fuel
  refine ⟨X.sha1 body, file, pack', by rw [encodeCache, h1]; simp, h2, by rw [h3.count]; simp, ?_⟩
  intro h
  cases e : pack.result.hashObject h with
  | some m =>
    have hid : m.id = h := by
      obtain ⟨_, _, _, e'⟩ := (hd.byId h m).1 e
      exact e'
    rw [h3.byId, key, hid]
    exact ⟨e, rfl⟩
  | none =>
    cases e' : pack'.result.hashObject h with
    | none => rfl
    | some m =>
      obtain ⟨h4, h5⟩ := (h3.byId h m).1 e'
      rw [key, h5, e] at h4
      cases h4

theorem noCollision_of_nodup {X : Ext} {os : List (Nat × Spec.Obj)} (h : (os.map (fun p => idOf X p.2)).Nodup) :
    Spec.NoCollision (idOf X) os := by
  intro a ha b hb e
  rw [List.inj_on_of_nodup_map h ha hb e]

/-- Two objects for the examples. -/
def exampleMs : List MetaData := [metaOf demoExt (.blob, ascii "hello"), metaOf demoExt (.tag, ascii "hi")]

theorem exampleMs_obj : ∀ m ∈ exampleMs, MetaData.new demoExt m.t m.data = .ok m := by
  intro m hm
  simp only [exampleMs, List.mem_cons, List.not_mem_nil, or_false] at hm
  rcases hm with rfl | rfl
  · exact new_metaOf demoExt (.blob, ascii "hello") rfl
  · exact new_metaOf demoExt (.tag, ascii "hi") rfl

theorem exampleMs_ids : ∀ a ∈ exampleMs, ∀ b ∈ exampleMs, a.id = b.id → a = b := by
  have h : (metaOf demoExt (.blob, ascii "hello")).id ≠ (metaOf demoExt (.tag, ascii "hi")).id := by decide +kernel
  intro a ha b hb e
  simp only [exampleMs, List.mem_cons, List.not_mem_nil, or_false] at ha hb
  rcases ha with rfl | rfl <;> rcases hb with rfl | rfl
  · rfl
  · exact absurd e h
  · exact absurd e.symm h
  · rfl

example : ∃ file pack, encodePack demoExt exampleMs = .ok ((2, pack.signature), file) ∧
    decodePack demoExt (fun _ => none) 1 file = .ok pack ∧
    pack.result.offsetObject 25 = some (metaOf demoExt (.tag, ascii "hi")) := by
  obtain ⟨body, file, pack, h1, _, h2, h3⟩ := C27_pack_roundtrip demoExt (fun _ => none) exampleMs exampleMs_obj
    exampleMs_ids (by decide) (by decide) (by decide) (by decide +kernel) 0
  refine ⟨file, pack, by rw [h1, h3.signature]; rfl, h2, ?_⟩
  exact h3.atOffset [metaOf demoExt (.blob, ascii "hello")] _ [] rfl

/-- A pack written by another program: "hello" as a one byte header and then "ellp!" as an offset delta. -/
def foreignPack : Bytes :=
  [80, 65, 67, 75, 0, 0, 0, 2, 0, 0, 0, 2] ++
    ([0x35] ++ demoDeflate (ascii "hello") ++
      ([0x68, 12] ++ demoDeflate [5, 5, 0x91, 1, 3, 2, 112, 33] ++ List.replicate 20 7))

theorem foreignPack_file : Spec.PackFile demoExt.inflate foreignPack
    [(12, .whole 3 (ascii "hello")), (24, .ofs 12 [5, 5, 0x91, 1, 3, 2, 112, 33])] ⟨List.replicate 20 7, rfl⟩ := by
  refine ⟨[80, 65, 67, 75, 0, 0, 0, 2, 0, 0, 0, 2], _, rfl, ⟨by decide, by decide⟩, ?_⟩
  refine .cons _ _ ([0x68, 12] ++ demoDeflate [5, 5, 0x91, 1, 3, 2, 112, 33] ++ List.replicate 20 7) _ _ _
    (.whole _ (demoDeflate (ascii "hello") ++ ([0x68, 12] ++ demoDeflate [5, 5, 0x91, 1, 3, 2, 112, 33] ++
      List.replicate 20 7)) _ _ _ ⟨0x35, by decide, by decide, by decide, by decide, by decide⟩ (by decide) (by decide)
      (demoInflate_deflate _ _)) ?_
  refine .cons _ _ (List.replicate 20 7) _ _ _
    (.ofs _ ([12] ++ demoDeflate [5, 5, 0x91, 1, 3, 2, 112, 33] ++ List.replicate 20 7)
      (demoDeflate [5, 5, 0x91, 1, 3, 2, 112, 33] ++ List.replicate 20 7) _ _ _
      ⟨0x68, by decide, by decide, by decide, by decide, by decide⟩ (by decide) (demoInflate_deflate _ _)) ?_
  exact .nil _ _

theorem foreignPack_resolves : Spec.Resolves (idOf demoExt) (fun _ => none) []
    [(12, .whole 3 (ascii "hello")), (24, .ofs 12 [5, 5, 0x91, 1, 3, 2, 112, 33])]
    [(12, (.blob, ascii "hello")), (24, (.blob, ascii "ellp!"))] :=
  .cons _ _ _ _ _ _ (.whole _ _ _ rfl) (.cons _ _ _ _ _ _
    (.ofs 12 12 _ (ascii "hello") _ .blob rfl List.mem_cons_self exampleDelta_means) (.nil _))

theorem foreignPack_ids : Spec.NoCollision (idOf demoExt) [(12, (.blob, ascii "hello")), (24, (.blob, ascii "ellp!"))] :=
  noCollision_of_nodup (by decide +kernel)

example : ∃ pack, decodePack demoExt (fun _ => none) 1 foreignPack = .ok pack ∧ pack.numberOfObjects = 2 ∧
    pack.result.offsetObject 24 = some (metaOf demoExt (.blob, ascii "ellp!")) := by
  obtain ⟨pack, h1, h2⟩ := C64_decode_wellformed (X := demoExt) (St := fun _ => none) (known := fun _ => none)
    (fun _ _ _ e => by cases e) foreignPack_file foreignPack_resolves foreignPack_ids (by decide) (by decide) 0
  exact ⟨pack, h1, h2.count, (h2.atOffset _ _).2 ⟨_, List.mem_cons_of_mem _ List.mem_cons_self, rfl,
    new_metaOf demoExt (.blob, ascii "ellp!") rfl⟩⟩

end Gust

import Verif.Lemmas.Cache
import Verif.Spec.Pack
import Verif.Props.Varint
import Verif.Props.Delta

/-! # Pack decoding: the reader implements the documented format -/

namespace Gust

/-! ## Header fields -/

theorem sizeField_prefix {s : Bytes} {v : Nat} {rest : Bytes} (h : Spec.sizeField s = some (v, rest)) :
    ∃ z, z ≠ [] ∧ s = z ++ rest ∧ ∀ rest', Spec.sizeField (z ++ rest') = some (v, rest') := by
  induction s generalizing v rest with
  | nil => simp [Spec.sizeField] at h
  | cons b s ih =>
    rw [Spec.sizeField] at h
    by_cases hb : b.toNat < 128
    · simp only [hb, if_true, Option.some.injEq, Prod.mk.injEq] at h
      exact ⟨[b], by simp, by simp [h.2], by intro r; rw [List.singleton_append, Spec.sizeField, if_pos hb, h.1]⟩
    · simp only [hb, if_false] at h
      split at h
      · cases h
      · rename_i v' r' e
        simp only [Option.some.injEq, Prod.mk.injEq] at h
        obtain ⟨z, _, h2, h3⟩ := ih e
        refine ⟨b :: z, by simp, by rw [h2, h.2]; rfl, ?_⟩
        intro r
        rw [List.cons_append, Spec.sizeField, if_neg hb, h3]
        simp [h.1]

theorem offsetDigits_prefix {s : Bytes} {v : List Nat} {rest : Bytes} (h : Spec.offsetDigits s = some (v, rest)) :
    ∃ z, z ≠ [] ∧ s = z ++ rest ∧ ∀ rest', Spec.offsetDigits (z ++ rest') = some (v, rest') := by
  induction s generalizing v rest with
  | nil => simp [Spec.offsetDigits] at h
  | cons b s ih =>
    rw [Spec.offsetDigits] at h
    by_cases hb : b.toNat < 128
    · simp only [hb, if_true, Option.some.injEq, Prod.mk.injEq] at h
      exact ⟨[b], by simp, by simp [h.2], by intro r; rw [List.singleton_append, Spec.offsetDigits, if_pos hb, h.1]⟩
    · simp only [hb, if_false] at h
      split at h
      · cases h
      · rename_i v' r' e
        simp only [Option.some.injEq, Prod.mk.injEq] at h
        obtain ⟨z, _, h2, h3⟩ := ih e
        refine ⟨b :: z, by simp, by rw [h2, h.2]; rfl, ?_⟩
        intro r
        rw [List.cons_append, Spec.offsetDigits, if_neg hb, h3]
        simp [h.1]

theorem offsetField_prefix {s : Bytes} {v : Nat} {rest : Bytes} (h : Spec.offsetField s = some (v, rest)) :
    ∃ z, z ≠ [] ∧ s = z ++ rest ∧ ∀ rest', Spec.offsetField (z ++ rest') = some (v, rest') := by
  unfold Spec.offsetField at h ⊢
  cases e : Spec.offsetDigits s with
  | none => simp [e] at h
  | some p =>
    obtain ⟨ds, r⟩ := p
    simp only [e, Option.some.injEq, Prod.mk.injEq] at h
    obtain ⟨z, h1, h2, h3⟩ := offsetDigits_prefix e
    refine ⟨z, h1, by rw [h2, h.2], ?_⟩
    intro r'
    rw [h3]
    simp [h.1]

theorem entryHeader_prefix {s : Bytes} {k n : Nat} {rest : Bytes} (h : Spec.EntryHeader s k n rest) :
    ∃ z, z ≠ [] ∧ s = z ++ rest ∧ ∀ rest', Spec.EntryHeader (z ++ rest') k n rest' := by
  obtain ⟨v, h1, h2, h3, h4, h5⟩ := h
  obtain ⟨z, hz, hs, hp⟩ := sizeField_prefix h1
  refine ⟨z, hz, hs, ?_⟩
  intro r
  refine ⟨v, hp r, h2, ?_, h4, h5⟩
  subst hs
  simp only [List.length_append] at h3 ⊢
  omega

/-- Reading a type/size header of the documented format. -/
theorem readTypeAndSize_spec {s : Bytes} {k n : Nat} {rest : Bytes} (h : Spec.EntryHeader s k n rest) :
    readTypeAndSize s = .ok ((k, n), rest) := by
  obtain ⟨v, h1, h2, h3, h4, h5⟩ := h
  rw [readTypeAndSize, C01_size_field_reader_spec s v rest h1 h2 h3]
  simp only [Res.bind_ok, Res.pure_eq, keepBits_eq, Nat.shiftRight_eq_div_pow, Nat.shiftLeft_eq]
  have e1 : v / 2 ^ 4 % 2 ^ 3 = k := by omega
  have e2 : v / 2 ^ 7 * 2 ^ 4 % U64 = (v / 128) <<< 4 := by
    rw [Nat.shiftLeft_eq]
    apply Nat.mod_eq_of_lt; unfold U64; omega
  rw [e1, e2, or_shift _ _ _ (Nat.mod_lt _ (by omega)), ← h5]
  congr 3
  omega

theorem entryHeader_size_lt {s : Bytes} {k n : Nat} {rest : Bytes} (h : Spec.EntryHeader s k n rest) : n < 2 ^ 61 := by
  obtain ⟨v, h1, h2, h3, h4, h5⟩ := h
  omega

theorem writeSizeEncoding_length (n k : Nat) (hk : 1 ≤ k) (h : n < 128 ^ k) : (writeSizeEncoding n).length ≤ k := by
  induction k generalizing n with
  | zero => omega
  | succ k ih =>
    rw [writeSizeEncoding]
    by_cases h7 : n >>> 7 > 0
    · rw [dif_pos h7]
      have e7 : n >>> 7 = n / 128 := by simp [Nat.shiftRight_eq_div_pow]
      have hk0 : k ≠ 0 := by
        rintro rfl
        rw [e7] at h7
        omega
      have := ih (n >>> 7) (by omega) (by
        rw [e7, Nat.div_lt_iff_lt_mul (by omega)]
        rw [Nat.pow_succ] at h; exact h)
      simp only [List.length_cons]
      omega
    · rw [dif_neg h7]
      simp

/-- The header written for an object is one of the documented format. -/
theorem entryHeader_written (t : ObjectType) (size : Nat) (hs : size < 2 ^ 61) (rest : Bytes) :
    Spec.EntryHeader (MetaData.entryHeader t size ++ rest) t.number size rest := by
  obtain ⟨v, h1, h2, h3⟩ := C02_entry_header_spec t size rest
  refine ⟨v, h1, by omega, ?_, h2, h3⟩
  have e4 : size >>> 4 = size / 16 := by simp [Nat.shiftRight_eq_div_pow]
  have := writeSizeEncoding_length (size / 16) 9 (by omega) (by
    have : (128 : Nat) ^ 9 = 2 ^ 63 := by norm_num
    rw [this]; omega)
  rw [entryHeader_eq, e4]
  simp only [List.length_append, List.length_cons]
  omega

/-! ## Entries -/

theorem entryCode_prefix {X : Ext} {s : Bytes} {e : Spec.Entry} {rest : Bytes} (h : Spec.EntryCode X.inflate s e rest) :
    ∃ z, z ≠ [] ∧ s = z ++ rest ∧ ∀ rest', Spec.EntryCode X.inflate (z ++ rest') e rest' := by
  cases h with
  | whole r _ data kind h1 h2 h3 h4 =>
    obtain ⟨z1, hz1, rfl, hp1⟩ := entryHeader_prefix h1
    obtain ⟨z2, hz2, rfl, hp2⟩ := X.inflate_prefix _ _ _ h4
    refine ⟨z1 ++ z2, by simp [hz1], by simp, ?_⟩
    intro r'
    rw [List.append_assoc]
    exact .whole _ _ _ _ _ (hp1 _) h2 h3 (hp2 r')
  | ofs r r' _ delta dist h1 h2 h3 =>
    obtain ⟨z1, hz1, rfl, hp1⟩ := entryHeader_prefix h1
    obtain ⟨z2, hz2, rfl, hp2⟩ := offsetField_prefix h2
    obtain ⟨z3, hz3, rfl, hp3⟩ := X.inflate_prefix _ _ _ h3
    refine ⟨z1 ++ (z2 ++ z3), by simp [hz1], by simp, ?_⟩
    intro r'
    rw [List.append_assoc, List.append_assoc]
    exact .ofs _ _ _ _ _ _ (hp1 _) (hp2 _) (hp3 r')
  | ref r _ delta base h1 h2 =>
    obtain ⟨z1, hz1, rfl, hp1⟩ := entryHeader_prefix h1
    obtain ⟨z2, hz2, rfl, hp2⟩ := X.inflate_prefix _ _ _ h2
    refine ⟨z1 ++ (base.1 ++ z2), by simp [hz1], by simp, ?_⟩
    intro r'
    rw [List.append_assoc, List.append_assoc]
    exact .ref _ _ _ _ _ (hp1 _) (hp2 r')

theorem entries_prefix {X : Ext} {off : Nat} {s : Bytes} {es : List (Nat × Spec.Entry)} {rest : Bytes}
    (h : Spec.Entries X.inflate off s es rest) :
    ∃ z, s = z ++ rest ∧ ∀ rest', Spec.Entries X.inflate off (z ++ rest') es rest' := by
  induction h with
  | nil off s => exact ⟨[], rfl, fun r => .nil _ _⟩
  | cons off s s' rest e es hc _ ih =>
    obtain ⟨z1, hz1, rfl, hp1⟩ := entryCode_prefix hc
    obtain ⟨z2, rfl, hp2⟩ := ih
    refine ⟨z1 ++ z2, by simp, ?_⟩
    intro r
    rw [List.append_assoc]
    refine .cons _ _ _ _ _ _ (hp1 _) ?_
    have := hp2 r
    simp only [List.length_append] at this ⊢
    have e : z1.length + (z2.length + r.length) - (z2.length + r.length) =
      z1.length + (z2.length + rest.length) - (z2.length + rest.length) := by omega
    rw [e]
    exact this

theorem entries_append {X : Ext} {off : Nat} {s : Bytes} {es : List (Nat × Spec.Entry)} {mid : Bytes}
    (h : Spec.Entries X.inflate off s es mid) {es' : List (Nat × Spec.Entry)} {rest : Bytes}
    (h' : Spec.Entries X.inflate (off + (s.length - mid.length)) mid es' rest) :
    Spec.Entries X.inflate off s (es ++ es') rest := by
  induction h with
  | nil off s => simpa using h'
  | cons off s s' mid e es hc hes ih =>
    refine .cons _ _ _ _ _ _ hc ?_
    apply ih
    obtain ⟨z, _, rfl, _⟩ := entryCode_prefix hc
    obtain ⟨z2, rfl, _⟩ := entries_prefix hes
    simp only [List.length_append] at h' ⊢
    have e : off + (z.length + (z2.length + mid.length) - (z2.length + mid.length)) +
        (z2.length + mid.length - mid.length) = off + (z.length + (z2.length + mid.length) - mid.length) := by omega
    rw [e]
    exact h'

theorem entries_offsets {X : Ext} {off : Nat} {s : Bytes} {es : List (Nat × Spec.Entry)} {rest : Bytes}
    (h : Spec.Entries X.inflate off s es rest) :
    es.Pairwise (fun a b => a.1 < b.1) ∧ ∀ p ∈ es, off ≤ p.1 ∧ p.1 < off + (s.length - rest.length) := by
  induction h with
  | nil off s => simp
  | cons off s s' rest e es hc hes ih =>
    obtain ⟨z, hz, rfl, _⟩ := entryCode_prefix hc
    obtain ⟨z2, rfl, _⟩ := entries_prefix hes
    have hpos : 0 < z.length := List.length_pos_iff.2 hz
    simp only [List.length_append] at ih ⊢
    refine ⟨List.pairwise_cons.2 ⟨?_, ih.1⟩, ?_⟩
    · intro p hp
      have := ih.2 p hp
      omega
    · intro p hp
      rcases List.mem_cons.1 hp with rfl | hp
      · simp only; omega
      · have := ih.2 p hp
        omega

/-! ## One object -/

/-- The id Git gives an object. -/
def idOf (X : Ext) (o : Spec.Obj) : Hash :=
  X.sha1 (o.1.toBytes ++ [0x20] ++ decStr o.2.length ++ [0] ++ o.2)

/-- The decoded form of an object. -/
def metaOf (X : Ext) (o : Spec.Obj) : MetaData :=
  { t := o.1, id := idOf X o, size := o.2.length, data := o.2, deltaHeader := [] }

theorem new_metaOf (X : Ext) (o : Spec.Obj) (h : o.1.isBase = true) : MetaData.new X o.1 o.2 = .ok (metaOf X o) :=
  new_base X o.1 o.2 h

theorem metaOf_of_new {X : Ext} {m : MetaData} (h : MetaData.new X m.t m.data = .ok m) :
    m.t.isBase = true ∧ metaOf X (m.t, m.data) = m := by
  have hb := (new_ok h).1
  refine ⟨hb, ?_⟩
  have := new_metaOf X (m.t, m.data) hb
  rw [h] at this
  exact (Res.ok.inj this).symm

theorem kindOf_ofNumber {k : Nat} {t : ObjectType} (h : Spec.kindOf k = some t) :
    1 ≤ k ∧ k ≤ 4 ∧ ObjectType.ofNumber k = .ok t ∧ t.isBase = true ∧ t.number = k := by
  unfold Spec.kindOf at h
  split at h
  · cases h; subst k; decide
  · split at h
    · cases h; subst k; decide
    · split at h
      · cases h; subst k; decide
      · split at h
        · cases h; subst k; decide
        · cases h

theorem kindOf_number {t : ObjectType} (h : t.isBase = true) : Spec.kindOf t.number = some t := by
  cases t <;> first | rfl | exact absurd h (by decide)

/-- The cache holding these objects at these offsets. -/
def cacheOf (X : Ext) (os : List (Nat × Spec.Obj)) : PackCache :=
  PackCache.empty.run (os.map (fun p => (metaOf X p.2, p.1)))

theorem cacheOf_snoc (X : Ext) (os : List (Nat × Spec.Obj)) (off : Nat) (o : Spec.Obj) :
    cacheOf X (os ++ [(off, o)]) = (cacheOf X os).update (metaOf X o) off := by
  simp [cacheOf, PackCache.run]

theorem metaOf_inj {X : Ext} {a b : Spec.Obj} (h : metaOf X a = metaOf X b) : a = b :=
  Prod.ext (congrArg MetaData.t h) (congrArg MetaData.data h)

theorem cacheOf_hist_ids {X : Ext} {os : List (Nat × Spec.Obj)} (h : Spec.NoCollision (idOf X) os) :
    ∀ a ∈ os.map (fun p => (metaOf X p.2, p.1)), ∀ b ∈ os.map (fun p => (metaOf X p.2, p.1)), a.1.id = b.1.id → a.1 = b.1 := by
  intro a ha b hb e
  obtain ⟨x, hx, rfl⟩ := List.mem_map.1 ha
  obtain ⟨y, hy, rfl⟩ := List.mem_map.1 hb
  simp only [metaOf] at e
  simp only [h x hx y hy e]

theorem cacheOf_hashObject {X : Ext} {os : List (Nat × Spec.Obj)} (hc : Spec.NoCollision (idOf X) os) (h : Hash)
    (m : MetaData) : (cacheOf X os).hashObject h = some m ↔ ∃ p ∈ os, idOf X p.2 = h ∧ metaOf X p.2 = m := by
  rw [cacheOf, PackCache.hashObject_run]
  constructor
  · intro e
    obtain ⟨a, ha, rfl⟩ := Option.map_eq_some_iff.1 e
    obtain ⟨h1, h2⟩ := PackCache.lastWith_some ha
    obtain ⟨p, hp, rfl⟩ := List.mem_map.1 h1
    simp only [decide_eq_true_eq] at h2
    exact ⟨p, hp, h2, rfl⟩
  · rintro ⟨p, hp, h1, rfl⟩
    obtain ⟨b, hb⟩ := PackCache.lastWith_exists (p := fun q : MetaData × Nat => decide (q.1.id = h))
      (List.mem_map.2 ⟨p, hp, rfl⟩ : (metaOf X p.2, p.1) ∈ os.map (fun p => (metaOf X p.2, p.1))) (by simp [metaOf, h1])
    rw [hb]
    obtain ⟨h3, h4⟩ := PackCache.lastWith_some hb
    obtain ⟨q, hq, rfl⟩ := List.mem_map.1 h3
    simp only [decide_eq_true_eq] at h4
    simp only [Option.map_some, hc q hq p hp (h4.trans h1.symm)]

theorem cacheOf_hashObject_none {X : Ext} {os : List (Nat × Spec.Obj)} (h : Hash) (hn : ∀ p ∈ os, idOf X p.2 ≠ h) :
    (cacheOf X os).hashObject h = none := by
  rw [cacheOf, PackCache.hashObject_run]
  cases e : Spec.lastWith (fun q : MetaData × Nat => decide (q.1.id = h)) (os.map (fun p => (metaOf X p.2, p.1))) with
  | none => rfl
  | some b =>
    obtain ⟨h3, h4⟩ := PackCache.lastWith_some e
    obtain ⟨q, hq, rfl⟩ := List.mem_map.1 h3
    simp only [decide_eq_true_eq] at h4
    exact absurd h4 (hn q hq)

theorem offsets_inj {α : Type} {os : List (Nat × α)} (ho : os.Pairwise (fun a b => a.1 < b.1)) :
    ∀ p ∈ os, ∀ q ∈ os, p.1 = q.1 → p = q := by
  induction os with
  | nil => simp
  | cons a os ih =>
    obtain ⟨h1, h2⟩ := List.pairwise_cons.1 ho
    intro p hp q hq e
    rcases List.mem_cons.1 hp with hp | hp <;> rcases List.mem_cons.1 hq with hq | hq
    · rw [hp, hq]
    · have := h1 q hq
      rw [← hp] at this
      omega
    · have := h1 p hp
      rw [← hq] at this
      omega
    · exact ih h2 p hp q hq e

theorem cacheOf_offsetObject {X : Ext} {os : List (Nat × Spec.Obj)} (hc : Spec.NoCollision (idOf X) os)
    (ho : os.Pairwise (fun a b => a.1 < b.1)) (off : Nat) (m : MetaData) :
    (cacheOf X os).offsetObject off = some m ↔ ∃ p ∈ os, p.1 = off ∧ metaOf X p.2 = m := by
  have hinj := offsets_inj ho
  rw [cacheOf, PackCache.offsetObject_run _ (cacheOf_hist_ids hc)]
  constructor
  · intro e
    obtain ⟨a, ha, rfl⟩ := Option.map_eq_some_iff.1 e
    obtain ⟨h1, h2⟩ := PackCache.lastWith_some ha
    obtain ⟨p, hp, rfl⟩ := List.mem_map.1 h1
    exact ⟨p, hp, by simpa using h2, rfl⟩
  · rintro ⟨p, hp, h1, rfl⟩
    obtain ⟨b, hb⟩ := PackCache.lastWith_exists (p := fun q : MetaData × Nat => decide (q.2 = off))
      (List.mem_map.2 ⟨p, hp, rfl⟩ : (metaOf X p.2, p.1) ∈ os.map (fun p => (metaOf X p.2, p.1))) (by simp [h1])
    rw [hb]
    obtain ⟨h3, h4⟩ := PackCache.lastWith_some hb
    obtain ⟨q, hq, rfl⟩ := List.mem_map.1 h3
    simp only [decide_eq_true_eq] at h4
    simp only [Option.map_some, hinj q hq p hp (by rw [h4, h1])]

/-- What the storage must answer for the objects the pack refers to outside itself. -/
def Supplies (St : ObjectSource) (known : Hash → Option Spec.Obj) : Prop :=
  ∀ h t b, known h = some (t, b) → t.isBase = true ∧
    ∃ m, St (Hash.toPlainStr h) = some m ∧ m.t = t ∧ m.data = b ∧ m.size = b.length

theorem applyDeltaAt_means {X : Ext} {base : MetaData} (hs : base.size = base.data.length) (hb : base.t.isBase = true)
    {r delta out rest : Bytes} (hi : X.inflate r = some (delta, rest)) (h : Spec.DeltaMeans base.data delta out)
    (hcap : out.length < 2 ^ 63) : applyDeltaAt X base r = .ok (metaOf X (base.t, out), rest) := by
  unfold applyDeltaAt
  rw [hi]
  simp only [applyDelta_of_means X base hs h hcap, new_metaOf X (base.t, out) hb, Res.bind_ok, Res.pure_eq]

theorem readBytes_hash (h : Hash) (r : Bytes) : readBytes 20 (h.1 ++ r) = .ok (h.1, r) := by
  have hl := h.2
  simp only [readBytes, List.length_append, hl, Nat.le_add_right, if_true]
  rw [List.take_left' hl, List.drop_left' hl]

theorem fromRow_hash (h : Hash) : Hash.fromRow h.1 = .ok h := by
  simp [Hash.fromRow, h.2]

/-- Decoding one entry when its base (if any) is already in the cache. -/
theorem nextObject_entry {X : Ext} {St : ObjectSource} {known : Hash → Option Spec.Obj} (hst : Supplies St known)
    {file : Bytes} {off : Nat} {earlier : List (Nat × Spec.Obj)} {e : Spec.Entry} {o : Spec.Obj} {s' : Bytes}
    (hcode : Spec.EntryCode X.inflate (file.drop off) e s') (hden : Spec.Denotes (idOf X) known earlier off e o)
    (hcol : Spec.NoCollision (idOf X) earlier) (hoffs : earlier.Pairwise (fun a b => a.1 < b.1))
    (hbase : ∀ p ∈ earlier, p.2.1.isBase = true) (hcap : o.2.length < 2 ^ 63) (hlt : off < 2 ^ 64) (fuel : Nat) :
    nextObject X St file (fuel + 1) off (cacheOf X earlier) =
      .ok ((metaOf X o, cacheOf X (earlier ++ [(off, o)])), file.length - s'.length) ∧ o.1.isBase = true := by
  rw [cacheOf_snoc]
  cases hden with
  | whole k t d hk =>
    obtain ⟨h1, h2, h3, h4, _⟩ := kindOf_ofNumber hk
    cases hcode with
    | whole r _ _ _ hh _ _ hi =>
      refine ⟨?_, h4⟩
      have hsz := entryHeader_size_lt hh
      have hcap' : ¬ 2 ^ 63 ≤ d.length := by omega
      rw [nextObject, readTypeAndSize_spec hh]
      simp only [Res.unwrap_ok, Res.bind_ok, h1, h2, and_self, if_true, baseObjectAt, hcap', if_false, hi, ne_eq,
        not_true_eq_false, h3, new_metaOf X (t, d) h4, Res.pure_eq]
  | ofs dist baseOff delta base out t hoff hmem hm =>
    have hb : t.isBase = true := hbase _ hmem
    cases hcode with
    | ofs r r' _ _ _ hh ho hi =>
      refine ⟨?_, hb⟩
      have hge : ¬ off < dist := by omega
      have heq : off - dist = baseOff := by omega
      have hlook := (cacheOf_offsetObject (X := X) hcol hoffs baseOff (metaOf X (t, base))).2 ⟨_, hmem, rfl, rfl⟩
      rw [nextObject, readTypeAndSize_spec hh]
      simp only [Res.unwrap_ok, Res.bind_ok, show ¬ (1 ≤ 6 ∧ 6 ≤ 4) by omega, if_false, if_true,
        C03_offset_reader_spec _ _ _ ho (by omega), hge, heq, hlook,
        applyDeltaAt_means (X := X) (base := metaOf X (t, base)) rfl hb hi hm hcap, Res.pure_eq]
      rfl
  | refIn h baseOff delta base out t hmem hid hm =>
    have hb : t.isBase = true := hbase _ hmem
    cases hcode with
    | ref r _ _ _ hh hi =>
      refine ⟨?_, hb⟩
      have hlook := (cacheOf_hashObject (X := X) hcol h (metaOf X (t, base))).2 ⟨_, hmem, hid, rfl⟩
      rw [nextObject, readTypeAndSize_spec hh]
      simp only [Res.unwrap_ok, Res.bind_ok, show ¬ (1 ≤ 7 ∧ 7 ≤ 4) by omega, if_false, if_true,
        show ¬ (7 = 6) by omega, readBytes_hash, fromRow_hash, hashBase, hlook,
        applyDeltaAt_means (X := X) (base := metaOf X (t, base)) rfl hb hi hm hcap, Res.pure_eq]
      rfl
  | refOut h delta base out t hn hk hm =>
    obtain ⟨hb, m, hm1, hm2, hm3, hm4⟩ := hst _ _ _ hk
    cases hcode with
    | ref r _ _ _ hh hi =>
      refine ⟨?_, hb⟩
      have hlook := cacheOf_hashObject_none (X := X) h hn
      subst hm2 hm3
      rw [nextObject, readTypeAndSize_spec hh]
      simp only [Res.unwrap_ok, Res.bind_ok, show ¬ (1 ≤ 7 ∧ 7 ≤ 4) by omega, if_false, if_true,
        show ¬ (7 = 6) by omega, readBytes_hash, fromRow_hash, hashBase, hlook, hm1, Res.unwrapOpt_some,
        applyDeltaAt_means (X := X) (base := m) hm4 hb hi hm hcap, Res.pure_eq]

/-! ## Whole packs -/

theorem drop_of_split {a b file : Bytes} {off : Nat} (h : file = a ++ b) (ho : off = a.length) : file.drop off = b := by
  subst h ho; simp

/-- Decoding a sequence of entries puts exactly the objects they denote into the cache. -/
theorem decodeLoop_entries {X : Ext} {St : ObjectSource} {known : Hash → Option Spec.Obj} (hst : Supplies St known)
    {file : Bytes} (fuel : Nat) {off : Nat} {s : Bytes} {es : List (Nat × Spec.Entry)} {rest : Bytes}
    (hent : Spec.Entries X.inflate off s es rest) : ∀ {earlier os : List (Nat × Spec.Obj)} {pre : Bytes},
    file = pre ++ s → off = pre.length → Spec.Resolves (idOf X) known earlier es os →
    Spec.NoCollision (idOf X) (earlier ++ os) → (∀ p ∈ earlier, p.2.1.isBase = true) →
    earlier.Pairwise (fun a b => a.1 < b.1) → (∀ p ∈ earlier, p.1 < off) →
    (∀ p ∈ os, p.2.2.length < 2 ^ 63) → (∀ p ∈ es, p.1 < 2 ^ 32) →
    decodeLoop X St file (fuel + 1) es.length off (cacheOf X earlier) =
      .ok (cacheOf X (earlier ++ os), file.length - rest.length) := by
  induction hent with
  | nil off s =>
    intro earlier os pre hf ho hr _ _ _ _ _ _
    cases hr
    subst hf ho
    simp [decodeLoop]
  | cons off s s' rest e es hc hes ih =>
    intro earlier os pre hf ho hr hcol hbase hpw hlt hcap hoffs
    cases hr with
    | cons _ _ _ _ o os hd hrest =>
      have hoff32 := hoffs _ List.mem_cons_self
      simp only at hoff32
      have hdrop : file.drop off = s := drop_of_split hf ho
      have hcol1 : Spec.NoCollision (idOf X) earlier := fun a ha b hb =>
        hcol a (List.mem_append_left _ ha) b (List.mem_append_left _ hb)
      obtain ⟨hstep, hob⟩ := nextObject_entry hst (by rw [hdrop]; exact hc) hd hcol1 hpw hbase
        (hcap _ List.mem_cons_self) (by omega) fuel
      obtain ⟨z, hz, hs, _⟩ := entryCode_prefix hc
      have hzpos : 0 < z.length := List.length_pos_iff.2 hz
      have hpos : file.length - s'.length = off + (s.length - s'.length) := by
        subst hf ho hs
        simp only [List.length_append]
        omega
      simp only [List.length_cons, decodeLoop, hstep, Res.bind_ok, show ¬ 2 ^ 32 ≤ off by omega, if_false, hpos]
      have := @ih (earlier ++ [(off, o)]) os (pre ++ z) (by rw [hf, hs, List.append_assoc])
        (by rw [hs, ho]; simp only [List.length_append]; omega) hrest
        (by rw [List.append_assoc]; exact hcol)
        (by
          intro p hp
          rcases List.mem_append.1 hp with hp | hp
          · exact hbase p hp
          · rw [List.mem_singleton.1 hp]; exact hob)
        (by
          rw [List.pairwise_append]
          refine ⟨hpw, by simp, ?_⟩
          intro a ha b hb
          rw [List.mem_singleton.1 hb]
          exact hlt a ha)
        (by
          intro p hp
          rw [hs]
          simp only [List.length_append]
          rcases List.mem_append.1 hp with hp | hp
          · have := hlt p hp; omega
          · rw [List.mem_singleton.1 hp]; simp only; omega)
        (fun p hp => hcap p (List.mem_cons_of_mem _ hp)) (fun p hp => hoffs p (List.mem_cons_of_mem _ hp))
      rw [this, List.append_assoc]
      rfl

theorem convertToVec_base {X : Ext} {m : MetaData} (h : m.t.isBase = true) :
    MetaData.convertToVec X m = MetaData.entryHeader m.t m.size ++ X.deflate m.data := by
  unfold MetaData.convertToVec
  cases ht : m.t <;> rw [ht] at h <;> first | exact absurd h (by decide) | simp

theorem number_range {t : ObjectType} (h : t.isBase = true) : 1 ≤ t.number ∧ t.number ≤ 4 := by
  cases t <;> first | decide | exact absurd h (by decide)

theorem entryCode_base {X : Ext} {m : MetaData} (hb : m.t.isBase = true) (hs : m.size = m.data.length)
    (hl : m.data.length < 2 ^ 61) (rest : Bytes) :
    Spec.EntryCode X.inflate (MetaData.convertToVec X m ++ rest) (.whole m.t.number m.data) rest := by
  rw [convertToVec_base hb, List.append_assoc, hs]
  exact .whole _ _ _ _ _ (entryHeader_written m.t _ hl _) (number_range hb).1 (number_range hb).2
    (X.inflate_deflate _ _)

end Gust

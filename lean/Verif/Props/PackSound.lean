import Verif.Spec.PackRead
import Verif.Lemmas.Halt
import Verif.Props.Pack
import Verif.Lemmas.Decoded

/-! # Only packs are accepted (C135) -/

namespace Gust

/-- What the storage answers is what is known. -/
def Spec.Only (St : ObjectSource) (known : Hash → Option Spec.Obj) : Prop :=
  ∀ h m, St (Hash.toPlainStr h) = some m → m.size = m.data.length ∧ known h = some (m.t, m.data)

/-- Ids identify what stands anywhere in the file. -/
def Spec.Distinct (X : Ext) (known : Hash → Option Spec.Obj) (file : Bytes) : Prop :=
  ∀ off off' o o' r r', Spec.Stands X.inflate (idOf X) known file off o r → Spec.Stands X.inflate (idOf X) known file off' o' r' → idOf X o = idOf X o' → o = o'

section
variable {X : Ext} {St : ObjectSource} {known : Hash → Option Spec.Obj} {file : Bytes}

/-- Everything in the cache stands in the file. -/
structure CacheFrom (X : Ext) (known : Hash → Option Spec.Obj) (file : Bytes) (c : PackCache) : Prop where
  offs : ∀ off h, c.offsetHash off = some h → ∃ o r, Spec.Stands X.inflate (idOf X) known file off o r ∧ idOf X o = h
  objs : ∀ h m, c.hashObject h = some m → ∃ off o r, Spec.Stands X.inflate (idOf X) known file off o r ∧ m = metaOf X o ∧ idOf X o = h

theorem CacheFrom.update {c : PackCache} (hc : CacheFrom X known file c) {off : Nat} {o : Spec.Obj} {r : Bytes} (h : Spec.Stands X.inflate (idOf X) known file off o r) :
    CacheFrom X known file (c.update (metaOf X o) off) := by
  constructor
  · intro off' i hi
    simp only [PackCache.update] at hi
    split at hi
    · rename_i e; cases e; exact ⟨o, r, h, Option.some.inj hi⟩
    · exact hc.offs _ _ hi
  · intro i m hi
    simp only [PackCache.hashObject, PackCache.update, HashMap.get_insert] at hi
    split at hi
    · rename_i e; exact ⟨off, o, r, h, (Option.some.inj hi).symm, by first | exact e | exact e.symm⟩
    · exact hc.objs _ _ hi

theorem CacheFrom.offsetObject {c : PackCache} (hc : CacheFrom X known file c) (hd : Spec.Distinct X known file) {off : Nat} {m : MetaData} (h : c.offsetObject off = some m) :
    ∃ o r, Spec.Stands X.inflate (idOf X) known file off o r ∧ m = metaOf X o := by
  unfold PackCache.offsetObject at h
  split at h
  · rename_i i hi
    obtain ⟨o, r, h1, e1⟩ := hc.offs _ _ hi
    obtain ⟨off', o', r', h2, e2, e3⟩ := hc.objs i m h
    have := hd _ _ _ _ _ _ h1 h2 (e1.trans e3.symm)
    exact ⟨o, r, h1, by rw [this]; exact e2⟩
  · cases h

theorem entryHead_of_read {s rest : Bytes} {k n : Nat} (h : readTypeAndSize s = .ok ((k, n), rest)) : Spec.EntryHead s k n rest := by
  rw [readTypeAndSize, readSizeEncoding_exact] at h
  cases hf : Spec.sizeField64 s with
  | none => rw [hf] at h; cases h
  | some p =>
    rw [hf] at h
    obtain ⟨v, r⟩ := p
    have hv : v < 2 ^ 64 := by
      unfold Spec.sizeField64 at hf
      split at hf
      · split at hf
        · cases hf; exact Nat.mod_lt _ (by omega)
        · cases hf
      · cases hf
    simp only [Res.bind_ok, Res.pure_eq, keepBits_eq, Nat.shiftRight_eq_div_pow, Nat.shiftLeft_eq, Res.ok.injEq, Prod.mk.injEq] at h
    obtain ⟨⟨rfl, rfl⟩, rfl⟩ := h
    refine ⟨v, hf, by omega, ?_⟩
    have e2 : v / 2 ^ 7 * 2 ^ 4 % U64 = (v / 128) <<< 4 := by
      rw [Nat.shiftLeft_eq]
      apply Nat.mod_eq_of_lt; unfold U64; omega
    rw [e2, or_shift _ _ _ (Nat.mod_lt _ (by omega))]
    omega

theorem baseObject_sound {off k size : Nat} {r rest : Bytes} {m : MetaData} (hk : 1 ≤ k ∧ k ≤ 4) (he : Spec.EntryHead (file.drop off) k size r)
    (h : baseObjectAt X k size r = .ok (m, rest)) : ∃ o, Spec.Stands X.inflate (idOf X) known file off o rest ∧ m = metaOf X o := by
  unfold baseObjectAt at h
  split at h
  · cases h
  · split at h
    · cases h
    · rename_i d rest' hi
      split at h
      · cases h
      · rename_i hl
        simp only [Res.bind_eq_ok, Res.pure_eq, Res.ok.injEq, Prod.mk.injEq] at h
        obtain ⟨t, ht, m', hm, rfl, rfl⟩ := h
        have hkind : Spec.kindOf k = some t := by
          obtain rfl | rfl | rfl | rfl : k = 1 ∨ k = 2 ∨ k = 3 ∨ k = 4 := by omega
          all_goals cases ht; rfl
        have hb := (new_ok hm).1
        rw [new_metaOf X (t, d) hb] at hm
        refine ⟨(t, d), .whole off k r d rest' t ?_ hkind hi, (Res.ok.inj hm).symm⟩
        rw [show d.length = size by omega]
        exact he

theorem delta_sound {base m : MetaData} {r rest : Bytes} (hs : base.size = base.data.length) (h : applyDeltaAt X base r = .ok (m, rest)) :
    ∃ delta out, X.inflate r = some (delta, rest) ∧ Spec.DeltaMeans base.data delta out ∧ m = metaOf X (base.t, out) := by
  unfold applyDeltaAt at h
  split at h
  · cases h
  · rename_i delta rest' hi
    simp only [Res.bind_eq_ok, Res.pure_eq, Res.ok.injEq, Prod.mk.injEq] at h
    obtain ⟨m', h1, rfl, rfl⟩ := h
    obtain ⟨out, h2, _, h3⟩ := (C13_apply_delta_iff X base hs delta m').1 h1
    have hb := (new_ok h3).1
    rw [new_metaOf X (base.t, out) hb] at h3
    exact ⟨delta, out, hi, h2, (Res.ok.inj h3).symm⟩

theorem update_hashObject (c : PackCache) (m : MetaData) (off : Nat) : (c.update m off).hashObject m.id = some m := by
  simp [PackCache.hashObject, PackCache.update, HashMap.get_insert]

theorem CacheFrom.update_keeps {c : PackCache} (hc : CacheFrom X known file c) (hd : Spec.Distinct X known file) {off : Nat} {o : Spec.Obj} {r : Bytes}
    (h : Spec.Stands X.inflate (idOf X) known file off o r) (i : Hash) (x : MetaData) (hx : c.hashObject i = some x) : (c.update (metaOf X o) off).hashObject i = some x := by
  obtain ⟨off', o', r', h', rfl, e⟩ := hc.objs i x hx
  simp only [PackCache.hashObject, PackCache.update, HashMap.get_insert] at hx ⊢
  split
  · rename_i e'
    have : idOf X o = idOf X o' := by rw [e]; first | exact e' | exact e'.symm
    rw [hd _ _ _ _ _ _ h h' this]
  · exact hx

theorem nextObject_sound (hst : Spec.Only St known) (hd : Spec.Distinct X known file) : ∀ (fuel off : Nat) (c : PackCache), CacheFrom X known file c →
    ∀ m c' pos, nextObject X St file fuel off c = .ok ((m, c'), pos) →
      ∃ o rest, Spec.Stands X.inflate (idOf X) known file off o rest ∧ m = metaOf X o ∧ pos = file.length - rest.length ∧ CacheFrom X known file c' ∧
        c'.hashObject m.id = some m ∧ ∀ i x, c.hashObject i = some x → c'.hashObject i = some x := by
  intro fuel
  induction fuel with
  | zero => intro off c _ m c' pos h; cases h
  | succ fuel ih =>
    intro off c hc m c' pos h
    rw [nextObject] at h
    simp only [Res.bind_eq_ok, Res.unwrap_eq_ok] at h
    obtain ⟨⟨⟨k, size⟩, rest⟩, hts, h⟩ := h
    have he := entryHead_of_read hts
    simp only at h
    split at h
    · rename_i hk
      simp only [Res.bind_eq_ok, Res.pure_eq, Res.ok.injEq, Prod.mk.injEq] at h
      obtain ⟨⟨m', r⟩, h1, ⟨rfl, rfl⟩, rfl⟩ := h
      obtain ⟨o, ho, rfl⟩ := baseObject_sound hk he h1
      exact ⟨o, r, ho, rfl, rfl, hc.update ho, update_hashObject _ _ _, hc.update_keeps hd ho⟩
    · split at h
      · rename_i hk
        subst hk
        simp only [Res.bind_eq_ok, Res.unwrap_eq_ok] at h
        obtain ⟨⟨d, r⟩, hoff, h⟩ := h
        obtain ⟨w, hw, rfl⟩ := readOffsetEncoding_mod hoff
        simp only at h
        split at h
        · cases h
        · rename_i hle
          simp only [Res.bind_eq_ok] at h
          obtain ⟨⟨base, c1⟩, h1, ⟨m', r'⟩, h2, h⟩ := h
          simp only [Res.pure_eq, Res.ok.injEq, Prod.mk.injEq] at h
          obtain ⟨⟨rfl, rfl⟩, rfl⟩ := h
          have hb : ∃ ob rb, Spec.Stands X.inflate (idOf X) known file (off - w % 2 ^ 64) ob rb ∧ base = metaOf X ob ∧ CacheFrom X known file c1 ∧
              ∀ i x, c.hashObject i = some x → c1.hashObject i = some x := by
            split at h1
            · rename_i mb hmb
              simp only [Res.ok.injEq, Prod.mk.injEq] at h1
              obtain ⟨rfl, rfl⟩ := h1
              obtain ⟨ob, rb, g1, g2⟩ := hc.offsetObject hd hmb
              exact ⟨ob, rb, g1, g2, hc, fun _ _ h => h⟩
            · simp only [Res.bind_eq_ok] at h1
              obtain ⟨⟨⟨b, c2⟩, p2⟩, h3, h1⟩ := h1
              simp only [Res.pure_eq, Res.ok.injEq, Prod.mk.injEq] at h1
              obtain ⟨rfl, rfl⟩ := h1
              obtain ⟨ob, rb, g1, g2, _, g3, _, g4⟩ := ih _ _ hc _ _ _ h3
              exact ⟨ob, rb, g1, g2, g3, g4⟩
          obtain ⟨⟨t, db⟩, rb, g1, rfl, g3, g4⟩ := hb
          obtain ⟨delta, out, e1, e2, rfl⟩ := delta_sound rfl h2
          have hs : Spec.Stands X.inflate (idOf X) known file off (t, out) r' := .ofs off size w rest r delta r' rb db out t he hw (by omega) g1 e1 e2
          exact ⟨_, r', hs, rfl, rfl, g3.update hs, update_hashObject _ _ _, fun i x hx => g3.update_keeps hd hs i x (g4 i x hx)⟩
      · split at h
        · rename_i hk
          subst hk
          simp only [Res.bind_eq_ok, Res.unwrap_eq_ok, Res.pure_eq, Res.ok.injEq, Prod.mk.injEq] at h
          obtain ⟨⟨row, r⟩, hrow, hh, hfrom, base, hbase, ⟨m', r'⟩, h2, ⟨rfl, rfl⟩, rfl⟩ := h
          have hrest : rest = hh.1 ++ r := by
            unfold readBytes at hrow
            split at hrow
            · simp only [Res.ok.injEq, Prod.mk.injEq] at hrow
              unfold Hash.fromRow at hfrom
              split at hfrom
              · cases hfrom; rw [← hrow.2]; simp only; rw [← hrow.1, List.take_append_drop]
              · cases hfrom
            · cases hrow
          rw [hrest] at he
          unfold hashBase at hbase
          split at hbase
          · rename_i mb hmb
            cases hbase
            obtain ⟨off', ⟨t, db⟩, rb, g1, rfl, g2⟩ := hc.objs _ _ hmb
            obtain ⟨delta, out, e1, e2, rfl⟩ := delta_sound rfl h2
            have hs : Spec.Stands X.inflate (idOf X) known file off (t, out) r' := .refIn off off' size hh r delta r' rb db out t he g1 g2 e1 e2
            exact ⟨_, r', hs, rfl, rfl, hc.update hs, update_hashObject _ _ _, hc.update_keeps hd hs⟩
          · cases hSt : St (Hash.toPlainStr hh) with
            | none => rw [hSt] at hbase; cases hbase
            | some mb =>
              rw [hSt] at hbase
              cases hbase
              obtain ⟨hz, hkn⟩ := hst _ _ hSt
              obtain ⟨delta, out, e1, e2, rfl⟩ := delta_sound hz h2
              have hs : Spec.Stands X.inflate (idOf X) known file off (base.t, out) r' := .refOut off size hh r delta r' base.data out base.t he hkn e1 e2
              exact ⟨_, r', hs, rfl, rfl, hc.update hs, update_hashObject _ _ _, hc.update_keeps hd hs⟩
        · cases h

theorem stands_suffix {off : Nat} {o : Spec.Obj} {rest : Bytes} (h : Spec.Stands X.inflate (idOf X) known file off o rest) : ∃ z, z ≠ [] ∧ file.drop off = z ++ rest := by
  have key : ∀ {k size : Nat} {a r r' d : Bytes}, Spec.EntryHead (file.drop off) k size (a ++ r') → X.inflate r' = some (d, r) → ∃ z, z ≠ [] ∧ file.drop off = z ++ r := by
    intro k size a r r' d he hi
    obtain ⟨v, hv, _⟩ := he
    have hp : ∃ p, file.drop off = p ++ (a ++ r') := by
      unfold Spec.sizeField64 at hv
      split at hv
      · rename_i v' rest' hf
        split at hv
        · cases hv; obtain ⟨p, _, hp, _⟩ := sizeField_prefix hf; exact ⟨p, hp⟩
        · cases hv
      · cases hv
    obtain ⟨p, hp⟩ := hp
    obtain ⟨z, hz, rfl, _⟩ := X.inflate_prefix _ _ _ hi
    exact ⟨p ++ a ++ z, by simp [hz], by rw [hp]; simp⟩
  cases h with
  | whole => exact key (a := []) ‹Spec.EntryHead _ _ _ _› ‹X.inflate _ = some _›
  | ofs =>
    obtain ⟨q, _, e, _⟩ := offsetField_prefix ‹Spec.offsetField _ = some _›
    subst e
    exact key ‹Spec.EntryHead _ _ _ _› ‹X.inflate _ = some _›
  | refIn => exact key ‹Spec.EntryHead _ _ _ _› ‹X.inflate _ = some _›
  | refOut => exact key ‹Spec.EntryHead _ _ _ _› ‹X.inflate _ = some _›

theorem decodeLoop_sound (hst : Spec.Only St known) (hd : Spec.Distinct X known file) {fuel : Nat} : ∀ (n pos : Nat) (c : PackCache), CacheFrom X known file c →
    ∀ c' pos', decodeLoop X St file fuel n pos c = .ok (c', pos') →
      ∃ os, os.length = n ∧ Spec.Row X.inflate (idOf X) known file pos os pos' ∧ CacheFrom X known file c' ∧ (∀ p ∈ os, c'.hashObject (idOf X p.2) = some (metaOf X p.2)) ∧
        ∀ i x, c.hashObject i = some x → c'.hashObject i = some x := by
  intro n
  induction n with
  | zero =>
    intro pos c hc c' pos' h
    cases h
    exact ⟨[], rfl, .nil _, hc, by simp, fun _ _ h => h⟩
  | succ n ih =>
    intro pos c hc c' pos' h
    simp only [decodeLoop, Res.bind_eq_ok] at h
    obtain ⟨⟨⟨m, c1⟩, p1⟩, h1, h⟩ := h
    simp only at h
    split at h
    · cases h
    · obtain ⟨o, rest, g1, rfl, rfl, g2, g3, g4⟩ := nextObject_sound hst hd _ _ _ hc _ _ _ h1
      obtain ⟨os, e1, e2, e3, e4, e5⟩ := ih _ _ g2 _ _ h
      obtain ⟨z, hz, hzr⟩ := stands_suffix g1
      have hl := congrArg List.length hzr
      have hz' : 0 < z.length := List.length_pos_of_ne_nil hz
      simp only [List.length_drop, List.length_append] at hl
      refine ⟨(pos, o) :: os, by simp [e1], .cons pos pos' o rest os g1 ?_ (by omega) e2, e3, ?_, fun i x hx => e5 i x (g4 i x hx)⟩
      · have : file.drop (file.length - rest.length) = (file.drop pos).drop z.length := by rw [List.drop_drop]; congr 1; omega
        rw [this, hzr, List.drop_left]
      · intro p hp
        rcases List.mem_cons.1 hp with rfl | hp
        · exact e5 _ _ g3
        · exact e4 p hp

/-- **C135, partial**: whatever bytes the server takes for a pack begin with the header of a pack, and behind it stand, one behind the other, as many entries as the header announces, and then the 20
bytes which are reported as checksum. Every one of these objects is taken, with the content that stands there, and nothing is taken that does not stand somewhere in the file. Missing: deltas
may have another size than they announce, bases of deltas may lie inside other entries, and more bytes may follow. -/
theorem C135_read_partial (hst : Spec.Only St known) (hd : Spec.Distinct X known file) (fuel : Nat) (pack : Pack) (h : decodePack X St fuel file = .ok pack) :
    ∃ os stop, Spec.PackHeader (file.take 12) os.length ∧ Spec.Row X.inflate (idOf X) known file 12 os stop ∧ pack.numberOfObjects = os.length ∧
      pack.signature.1 = (file.drop stop).take 20 ∧ (∀ p ∈ os, pack.result.hashObject (idOf X p.2) = some (metaOf X p.2)) ∧
      ∀ i m, pack.result.hashObject i = some m → ∃ off o r, Spec.Stands X.inflate (idOf X) known file off o r ∧ m = metaOf X o ∧ idOf X o = i := by
  simp only [decodePack, Res.bind_eq_ok, Res.unwrap_eq_ok, Res.pure_eq, Res.ok.injEq] at h
  obtain ⟨⟨n, r⟩, h0, ⟨c, p⟩, h1, ⟨id, r'⟩, h2, sig, h3, rfl⟩ := h
  have hc0 : CacheFrom X known file PackCache.empty := ⟨(by intro off h e; cases e), (by intro h m e; cases e)⟩
  obtain ⟨os, e1, e2, e3, e4, _⟩ := decodeLoop_sound hst hd _ _ _ hc0 _ _ h1
  obtain ⟨hh, rfl, hhd⟩ := (C29_header_iff _ _ _).1 h0
  have hl : hh.length = 12 := by
    have := congrArg List.length hhd.2
    simpa [Spec.be32] using this
  refine ⟨os, p, ?_, e2, e1.symm, ?_, e4, e3.objs⟩
  · rw [← hl, List.take_left, e1]; exact hhd
  · unfold readBytes at h2
    split at h2
    · simp only [Res.ok.injEq, Prod.mk.injEq] at h2
      unfold Hash.fromRow at h3
      split at h3
      · cases h3; exact h2.1.symm
      · cases h3
    · cases h2

end

/-! ## What is accepted although it is not a pack -/

/-- A pack with a blob, and a delta of four bytes whose header announces five. -/
def wrongSizePack : Bytes :=
  ascii "PACK" ++ [0, 0, 0, 2, 0, 0, 0, 2] ++ [0x31, 1, 0x61, 0] ++ [0x65, 4] ++ demoDeflate [1, 1, 1, 0x62] ++ List.replicate 20 0

/-- A pack with a blob, and a delta whose base is inside the compressed data of the blob. -/
def insidePack : Bytes :=
  ascii "PACK" ++ [0, 0, 0, 2, 0, 0, 0, 2] ++ [0x31, 0x30, 0, 0] ++ [0x64, 3] ++ demoDeflate [0, 1, 1, 0x62] ++ List.replicate 20 0

/-- What a decoded pack contains. -/
def packContents (r : Res Pack) : Option (Nat × List Bytes) :=
  match r with
  | .ok p => some (p.numberOfObjects, p.result.byHash.map (fun q => q.2.data))
  | _ => none

theorem wrongSize_read : packContents (decodePack demoExt (fun _ => none) 3 wrongSizePack) = some (2, [ascii "a", ascii "b"]) := by decide +kernel

theorem inside_read : packContents (decodePack demoExt (fun _ => none) 3 insidePack) = some (2, [[0], [], ascii "b"]) := by decide +kernel

theorem of_contents {r : Res Pack} {n : Nat} {l : List Bytes} (h : packContents r = some (n, l)) : ∃ p, r = .ok p ∧ p.numberOfObjects = n ∧ p.result.byHash.length = l.length := by
  cases r with
  | ok p => simp only [packContents, Option.some.injEq, Prod.mk.injEq] at h; exact ⟨p, rfl, h.1, by rw [← h.2]; simp⟩
  | _ => cases h

/-- **C135 is false** for sizes: a delta that is not as long as its header says is applied all the same. -/
theorem C135_size_false : ¬ ∀ (X : Ext) (St : ObjectSource) (fuel : Nat) (file : Bytes) (pack : Pack), decodePack X St fuel file = .ok pack →
    ∀ k p kind size r z d rest, k < pack.numberOfObjects → Spec.EntrySeq X.inflate file 12 k p → Spec.EntryHead (file.drop p) kind size r →
      Spec.entryBody (file.drop p) = some z → X.inflate z = some (d, rest) → d.length = size := by
  intro hall
  obtain ⟨p, hp, hn, _⟩ := of_contents wrongSize_read
  have := hall demoExt (fun _ => none) 3 wrongSizePack p hp 1 16 6 5 (wrongSizePack.drop 17) (wrongSizePack.drop 18) [1, 1, 1, 0x62] (List.replicate 20 0) (by rw [hn]; decide)
    (.succ 12 0 16 (wrongSizePack.drop 13) (ascii "a") (wrongSizePack.drop 16) (by decide) (by decide) (.zero 16)) ⟨0x65, by decide, by decide, by decide⟩ (by decide) (by decide)
  exact absurd this (by decide)

/-- **C135 is false** for the objects: more objects are taken than the pack announces. The base of a delta may be anything inside the file that looks like an entry, for instance
in the content of a file; it is then taken as an object, too. -/
theorem C135_more_false : ¬ ∀ (X : Ext) (St : ObjectSource) (fuel : Nat) (file : Bytes) (pack : Pack), decodePack X St fuel file = .ok pack →
    pack.result.byHash.length ≤ pack.numberOfObjects := by
  intro hall
  obtain ⟨p, hp, hn, hl⟩ := of_contents inside_read
  have := hall _ _ _ _ _ hp
  rw [hn, hl] at this
  exact absurd this (by decide)

/-- **C135 is false** for the end: whatever follows the checksum of a pack, it is accepted as if nothing followed. -/
theorem C135_junk_false {X : Ext} {St : ObjectSource} {known : Hash → Option Spec.Obj} (hst : Supplies St known) {file : Bytes} {es : List (Nat × Spec.Entry)} {trailer : Hash}
    {os : List (Nat × Spec.Obj)} (hp : Spec.PackFile X.inflate file es trailer) (hr : Spec.Resolves (idOf X) known [] es os) (hcol : Spec.NoCollision (idOf X) os)
    (hcap : ∀ p ∈ os, p.2.2.length < 2 ^ 63) (h32 : ∀ p ∈ es, p.1 < 2 ^ 32) (fuel : Nat) (junk : Bytes) :
    decodePack X St (fuel + 1) (file ++ junk) = decodePack X St (fuel + 1) file ∧ ∃ pack, decodePack X St (fuel + 1) file = .ok pack := by
  obtain ⟨h, s, rfl, hh, hent⟩ := hp
  obtain ⟨z, rfl, hz⟩ := entries_prefix hent
  have h1 := decode_tail hst hh (hz trailer.1) hr hcol hcap h32 fuel
  have h2 := decode_tail hst hh (hz (trailer.1 ++ junk)) hr hcol hcap h32 fuel
  rw [dif_pos (by rw [trailer.2])] at h1
  rw [dif_pos (by rw [List.length_append, trailer.2]; omega)] at h2
  have e : (trailer.1 ++ junk).take 20 = trailer.1.take 20 := by
    rw [List.take_append_of_le_length (by rw [trailer.2])]
  refine ⟨?_, _, h1⟩
  rw [List.append_assoc, List.append_assoc, h2, h1]
  congr 2
  exact Subtype.ext e

/-! ## An example -/

/-- The type number at an offset. -/
def kindAt (file : Bytes) (off : Nat) : Nat := ((Spec.sizeField64 (file.drop off)).map (fun p => p.1 / 16 % 8)).getD 0

/-- The object stored whole at an offset. -/
def wholeAt (X : Ext) (file : Bytes) (off : Nat) : Option Spec.Obj :=
  match Spec.sizeField64 (file.drop off) with
  | some (v, r) =>
    match Spec.kindOf (v / 16 % 8), X.inflate r with
    | some t, some (d, _) => if v % 16 + 16 * (v / 128) = d.length then some (t, d) else none
    | _, _ => none
  | none => none

theorem stands_whole {X : Ext} {known : Hash → Option Spec.Obj} {file : Bytes} (h6 : ∀ off < file.length, kindAt file off ≠ 6 ∧ kindAt file off ≠ 7) {off : Nat} {o : Spec.Obj}
    {rest : Bytes} (h : Spec.Stands X.inflate (idOf X) known file off o rest) : off < file.length ∧ wholeAt X file off = some o := by
  have hl : ∀ {k n : Nat} {r : Bytes}, Spec.EntryHead (file.drop off) k n r → off < file.length ∧ kindAt file off = k := by
    intro k n r ⟨v, hv, hk, _⟩
    refine ⟨?_, by rw [kindAt, hv]; exact hk⟩
    by_contra hc
    rw [List.drop_eq_nil_of_le (by omega)] at hv
    cases hv
  cases h with
  | whole k r d t he hk hi =>
    refine ⟨(hl ‹_›).1, ?_⟩
    obtain ⟨v, hv, hk', hs⟩ := ‹Spec.EntryHead _ _ _ _›
    unfold wholeAt
    rw [hv]
    simp only [hk', ‹Spec.kindOf _ = _›, ‹X.inflate _ = _›, hs, if_true]
  | ofs => have := hl ‹Spec.EntryHead _ _ _ _›; exact absurd this.2 (h6 _ this.1).1
  | refIn => have := hl ‹Spec.EntryHead _ _ _ _›; exact absurd this.2 (h6 _ this.1).2
  | refOut => have := hl ‹Spec.EntryHead _ _ _ _›; exact absurd this.2 (h6 _ this.1).2

/-- A pack with the files `A` and `2`. -/
def plainPack : Bytes := ascii "PACK" ++ [0, 0, 0, 2, 0, 0, 0, 2] ++ [0x31] ++ demoDeflate (ascii "A") ++ [0x31] ++ demoDeflate (ascii "2") ++ List.replicate 20 0

theorem plain_distinct : Spec.Distinct demoExt (fun _ => none) plainPack := by
  intro off off' o o' r r' h h' e
  obtain ⟨l1, w1⟩ := stands_whole (by decide +kernel) h
  obtain ⟨l2, w2⟩ := stands_whole (by decide +kernel) h'
  have key : ∀ a < plainPack.length, ∀ b < plainPack.length, wholeAt demoExt plainPack a = wholeAt demoExt plainPack b ∨
      (wholeAt demoExt plainPack a).map (fun o => (idOf demoExt o).1) ≠ (wholeAt demoExt plainPack b).map (fun o => (idOf demoExt o).1) := by decide +kernel
  have := (key off l1 off' l2).resolve_right (fun hn => hn (by rw [w1, w2]; simp [e]))
  rw [w1, w2] at this
  exact Option.some.inj this

/-- Both files are read, and nothing else that is not in the file. -/
example : ∃ pack os stop, decodePack demoExt (fun _ => none) 1 plainPack = .ok pack ∧ Spec.Row demoExt.inflate (idOf demoExt) (fun _ => none) plainPack 12 os stop ∧ os.length = 2 ∧
    ∀ p ∈ os, pack.result.hashObject (idOf demoExt p.2) = some (metaOf demoExt p.2) := by
  obtain ⟨p, hp, hn, _⟩ := of_contents (show packContents (decodePack demoExt (fun _ => none) 1 plainPack) = some (2, [ascii "2", ascii "A"]) by decide +kernel)
  obtain ⟨os, stop, _, h2, h3, _, h5, _⟩ := C135_read_partial (St := fun _ => none) (known := fun _ => none) (by intro h m e; cases e) plain_distinct 1 p hp
  exact ⟨p, os, stop, hp, h2, by rw [← h3, hn], h5⟩

/-- Any bytes behind a pack with a delta. -/
example (junk : Bytes) : ∃ pack, decodePack demoExt (fun _ => none) 1 (foreignPack ++ junk) = .ok pack := by
  obtain ⟨e, pack, h⟩ := C135_junk_false (X := demoExt) (St := fun _ => none) (known := fun _ => none) (fun _ _ _ e => by cases e) foreignPack_file foreignPack_resolves
    foreignPack_ids (by decide) (by decide) 0 junk
  exact ⟨pack, e.trans h⟩

end Gust

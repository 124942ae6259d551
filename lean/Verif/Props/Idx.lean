import Verif.Lemmas.Idx
import Verif.Props.Pack

/-! # C34, C35: the pack index -/

namespace Gust

/-- Decoding a pack, whatever the file, leaves every object with an offset below 2^32. -/
theorem decoded_offsets {X : Ext} {St : ObjectSource} {file : Bytes} {fuel : Nat} {pack : Pack}
    (h : decodePack X St fuel file = .ok pack) :
    HashMap.Sorted pack.result.byHash ∧ ∀ k m, pack.result.hashObject k = some m →
      m.id = k ∧ MetaData.new X m.t m.data = .ok m ∧ ∃ o, pack.result.byOffset k = some o ∧ o < 2 ^ 32 := by
  obtain ⟨hist, e, hh⟩ := decodePack_hist h
  rw [e]
  refine ⟨PackCache.sorted_run hist, ?_⟩
  intro k m hm
  rw [PackCache.hashObject_run] at hm
  rw [PackCache.byOffset_run]
  cases e' : Spec.lastWith (fun p => decide (p.1.id = k)) hist with
  | none => rw [e'] at hm; cases hm
  | some a =>
    rw [e'] at hm
    obtain ⟨h1, h2⟩ := PackCache.lastWith_some e'
    simp only [Option.map_some, Option.some.injEq] at hm
    subst hm
    have := hh a h1
    exact ⟨of_decide_eq_true h2, this.2, a.2, rfl, by omega⟩

/-- The index generated from a decoded pack, and what decoding it gives. -/
theorem index_roundtrip {X : Ext} {St : ObjectSource} {file : Bytes} {fuel : Nat} {pack : Pack}
    (h : decodePack X St fuel file = .ok pack) (hlen : pack.result.byHash.length < 2 ^ 32) (crc : Bytes → Nat) :
    ∃ ix d, Idx.encode X crc pack = .ok ix ∧ Idx.decode Idx.default ix.fileData = .ok d ∧ d.version = 2 ∧
      (∃ body, ix.fileData = body ++ d.idxSignature.1 ∧ d.idxSignature = X.sha1 body) ∧
      d.idxItems = pack.result.byHash.map (fun p =>
        { id := p.1, crc32 := Idx.hexEncode (u32Vec (crc (MetaData.convertToVec X p.2))),
          offset := (pack.result.byOffset p.1).getD 0 }) ∧
      d.packSignature = pack.signature ∧ d.numberOfObjects = pack.result.byHash.length ∧
      d.mapOfPrefix = Idx.prefixMap (pack.result.byHash.map Prod.fst) (fun _ => none) 256 ∧
      d.itemHash = Idx.fillItemHash d.idxItems 0 (fun _ => none) ∧
      ∃ rest, ix.fileData = [255, 116, 79, 99, 0, 0, 0, 2] ++ (((List.range' 0 256).map (fun j =>
        (pack.result.byHash.map Prod.fst).countP (fun h => decide (Idx.first h < j + 1)))).map u32Vec).flatten ++ rest := by
  obtain ⟨hs, ho⟩ := decoded_offsets h
  have hkeys : ∀ k ∈ pack.result.byHash.map Prod.fst, ∃ o, pack.result.byOffset k = some o ∧ o < 2 ^ 32 := by
    intro k hk
    obtain ⟨p, hp, rfl⟩ := List.mem_map.1 hk
    exact (ho p.1 p.2 ((HashMap.mem_iff_get hs p.1 p.2).1 hp)).2.2
  have hrows := Idx.offsetRows_ok (at' := pack.result.byOffset) (pack.result.byHash.map Prod.fst)
    (fun k hk => by obtain ⟨o, h1, _⟩ := hkeys k hk; exact ⟨o, h1⟩)
  rw [List.map_map] at hrows
  obtain ⟨ix, henc, hdata⟩ : ∃ ix, Idx.encode X crc pack = .ok ix ∧ ∃ body, ix.fileData = body ++ (X.sha1 body).1 ∧
      body = [255, 116, 79, 99] ++ [0, 0, 0, 2] ++
        ((Idx.fanSums (Idx.countFirst (pack.result.byHash.map Prod.fst) (fun _ => 0)) 256 0 0).map u32Vec).flatten ++
        ((pack.result.byHash.map Prod.fst).map Subtype.val).flatten ++
        (pack.result.byHash.map (fun p => u32Vec (crc (MetaData.convertToVec X p.2)))).flatten ++
        (pack.result.byHash.map ((fun h => u32Vec ((pack.result.byOffset h).getD 0 % 2 ^ 32)) ∘ Prod.fst)).flatten ++
        pack.signature.1 := by
    rw [Idx.encode]
    simp only [hrows, Res.bind_ok]
    exact ⟨_, rfl, _, rfl, rfl⟩
  obtain ⟨body, hdata, hbody⟩ := hdata
  obtain ⟨d, h1, h2, h3, h4, h5, h6, h7, h8⟩ := Idx.decode_layout (pack.result.byHash.map Prod.fst)
    (pack.result.byHash.map (fun p => u32Vec (crc (MetaData.convertToVec X p.2))))
    (pack.result.byHash.map ((fun h => u32Vec ((pack.result.byOffset h).getD 0 % 2 ^ 32)) ∘ Prod.fst))
    pack.signature (X.sha1 body) (by simpa using hlen) (by simp) (by simp)
    (by intro x hx; obtain ⟨p, _, rfl⟩ := List.mem_map.1 hx; rfl)
    (by intro x hx; obtain ⟨p, _, rfl⟩ := List.mem_map.1 hx; rfl) Idx.default
  rw [← hbody, ← hdata] at h1
  refine ⟨ix, d, henc, h1, h2, ⟨body, by rw [h5, hdata], h5⟩, ?_, h4, ?_, h6, h8,
    ((pack.result.byHash.map Prod.fst).map Subtype.val).flatten ++
        ((pack.result.byHash.map (fun p => u32Vec (crc (MetaData.convertToVec X p.2)))).flatten ++
        ((pack.result.byHash.map ((fun h => u32Vec ((pack.result.byOffset h).getD 0 % 2 ^ 32)) ∘ Prod.fst)).flatten ++
        (pack.signature.1 ++ (X.sha1 body).1))), ?_⟩
  · rw [h3, Idx.mkItems_map]
    simp only [Idx.default, List.nil_append]
    apply List.map_congr_left
    intro p hp
    obtain ⟨o, e1, e2⟩ := hkeys p.1 (List.mem_map_of_mem hp)
    simp only [Function.comp, e1, Option.getD_some]
    rw [Idx.beNat_u32Vec _ (Nat.mod_lt _ (by positivity)), Nat.mod_eq_of_lt e2]
  · rw [h7]
    simp only [List.length_map, Idx.default]
    split <;> omega
  · have hf := Idx.fanSums_eq (pack.result.byHash.map Prod.fst) 256 0
    rw [Idx.countP_lt_zero] at hf
    rw [hdata, hbody, hf]
    simp only [List.append_assoc, List.cons_append, List.nil_append]

/-- **C34** For every pack the decoder accepts (any bytes), the generated index decodes, and looking up an id in it gives
exactly the offset recorded for the object of that id in the pack; an id of no object yields no item (the lookup panics);
the items are in strictly increasing order of ids, one for each object. -/
theorem C34_index_lookup {X : Ext} {St : ObjectSource} {file : Bytes} {fuel : Nat} {pack : Pack}
    (h : decodePack X St fuel file = .ok pack) (hlen : pack.result.byHash.length < 2 ^ 32) (crc : Bytes → Nat) :
    ∃ ix d, Idx.encode X crc pack = .ok ix ∧ Idx.decode Idx.default ix.fileData = .ok d ∧
      (∀ k off, (∃ item, d.getOffset k = .ok item ∧ item.id = k ∧ item.offset = off) ↔
        (∃ m, pack.result.hashObject k = some m) ∧ pack.result.byOffset k = some off) ∧
      (∀ k, pack.result.hashObject k = none → d.getOffset k = .panic) ∧
      d.idxItems.Pairwise (fun a b => bytesLt a.id.1 b.id.1 = true) ∧
      (∀ k, (∃ item ∈ d.idxItems, item.id = k) ↔ ∃ m, pack.result.hashObject k = some m) ∧
      d.numberOfObjects = d.idxItems.length ∧ d.packSignature = pack.signature := by
  obtain ⟨hs, ho⟩ := decoded_offsets h
  obtain ⟨ix, d, h1, h2, _, _, h3, h4, h5, _, h6, _⟩ := index_roundtrip h hlen crc
  have hids : d.idxItems.map IdxItem.id = pack.result.byHash.map Prod.fst := by
    rw [h3, List.map_map]; rfl
  have hnd : (d.idxItems.map IdxItem.id).Nodup := by rw [hids]; exact HashMap.sorted_nodup hs
  have hmem : ∀ k, (∃ item ∈ d.idxItems, item.id = k) ↔ ∃ m, pack.result.hashObject k = some m := by
    intro k
    constructor
    · rintro ⟨item, hi, rfl⟩
      rw [h3] at hi
      obtain ⟨p, hp, rfl⟩ := List.mem_map.1 hi
      exact ⟨p.2, (HashMap.mem_iff_get hs _ _).1 hp⟩
    · rintro ⟨m, hm⟩
      have := (HashMap.mem_iff_get hs k m).2 hm
      exact ⟨_, by rw [h3]; exact List.mem_map_of_mem this, rfl⟩
  refine ⟨ix, d, h1, h2, ?_, ?_, ?_, hmem, by rw [h5, h3, List.length_map], h4⟩
  · intro k off
    constructor
    · rintro ⟨item, e1, e2, e3⟩
      rw [Idx.getOffset_iff hnd h6] at e1
      have e4 := e1.1
      refine ⟨(hmem k).1 ⟨item, e1⟩, ?_⟩
      rw [h3] at e4
      obtain ⟨p, hp, rfl⟩ := List.mem_map.1 e4
      simp only at e2 e3
      obtain ⟨_, _, o, e5, _⟩ := ho p.1 p.2 ((HashMap.mem_iff_get hs _ _).1 hp)
      rw [e5, Option.getD_some] at e3
      rw [← e2, e5, e3]
    · rintro ⟨⟨m, hm⟩, e⟩
      have := (HashMap.mem_iff_get hs k m).2 hm
      refine ⟨_, (Idx.getOffset_iff hnd h6 k _).2 ⟨by rw [h3]; exact List.mem_map_of_mem this, rfl⟩, rfl, ?_⟩
      simp only [e, Option.getD_some]
  · intro k hk
    apply Idx.getOffset_panic h6
    intro it hit e
    obtain ⟨m, hm⟩ := (hmem k).1 ⟨it, hit, e⟩
    rw [hk] at hm; cases hm
  · rw [← List.pairwise_map (f := IdxItem.id) (R := fun a b => bytesLt a.1 b.1 = true), hids, List.pairwise_map]
    exact hs

/-- **C34** In terms of the file: for a well-formed pack, looking up the id of any of its objects gives an offset at which
this very object stands in the pack. -/
theorem C34_index_points_at_object {X : Ext} {St : ObjectSource} {known : Hash → Option Spec.Obj} (hst : Supplies St known)
    {file : Bytes} {es : List (Nat × Spec.Entry)} {trailer : Hash} {os : List (Nat × Spec.Obj)}
    (hp : Spec.PackFile X.inflate file es trailer) (hr : Spec.Resolves (idOf X) known [] es os)
    (hcol : Spec.NoCollision (idOf X) os) (hcap : ∀ p ∈ os, p.2.2.length < 2 ^ 63) (h32 : ∀ p ∈ es, p.1 < 2 ^ 32)
    (fuel : Nat) (crc : Bytes → Nat) :
    ∃ pack ix d, decodePack X St (fuel + 1) file = .ok pack ∧ Idx.encode X crc pack = .ok ix ∧
      Idx.decode Idx.default ix.fileData = .ok d ∧ d.packSignature = trailer ∧
      (∀ off o, (off, o) ∈ os → ∃ item, d.getOffset (idOf X o) = .ok item ∧ (item.offset, o) ∈ os) ∧
      (∀ k, (∀ p ∈ os, idOf X p.2 ≠ k) → d.getOffset k = .panic) := by
  obtain ⟨pack, h1, h2⟩ := C64_decode_wellformed hst hp hr hcol hcap h32 fuel
  obtain ⟨hs, _⟩ := decoded_offsets h1
  have hidm : ∀ p ∈ os, ∀ m, MetaData.new X p.2.1 p.2.2 = .ok m → m.id = idOf X p.2 := by
    intro p hp m hm
    have hm' := hm
    simp only [MetaData.new, Res.bind_eq_ok, Res.pure_eq, Res.ok.injEq] at hm'
    obtain ⟨i, _, e⟩ := hm'
    have e1 : m.t = p.2.1 := by rw [← e]
    have e2 : m.data = p.2.2 := by rw [← e]
    have := (metaOf_of_new (X := X) (m := m) (by rw [e1, e2]; exact hm)).2
    rw [← this, e1, e2]
    rfl
  have hlen : pack.result.byHash.length < 2 ^ 32 := by
    -- each id of the pack is the id of one of its objects
    have hsub : (pack.result.byHash.map Prod.fst) ⊆ os.map (fun p => idOf X p.2) := by
      intro k hk
      obtain ⟨q, hq, rfl⟩ := List.mem_map.1 hk
      obtain ⟨p, hp', e1, e2⟩ := (h2.byId q.1 q.2).1 ((h2.listed q.1 q.2).1 hq)
      exact List.mem_map.2 ⟨p, hp', by rw [← e2]; exact (hidm p hp' _ e1).symm⟩
    have := (HashMap.sorted_nodup hs).length_le_of_subset hsub
    simp only [List.length_map] at this
    obtain ⟨_, _, _, ⟨hn, _⟩, _⟩ := hp
    have hl := h2.count
    obtain ⟨_, he⟩ := resolves_base (X := X) (fun h t b e => (hst h t b e).1) hr (by simp)
    have := congrArg List.length he
    simp only [List.length_map] at this
    omega
  obtain ⟨ix, d, g1, g2, g3, g4, _, _, _, g5⟩ := C34_index_lookup h1 hlen crc
  refine ⟨pack, ix, d, h1, g1, g2, by rw [g5, h2.signature], ?_, ?_⟩
  · intro off o ho
    obtain ⟨o', e⟩ := h2.hasOffset _ ho
    obtain ⟨m, hm⟩ := h2.objects _ ho
    have hob : pack.result.hashObject (idOf X o) = some m := (h2.byId _ _).2 ⟨_, ho, hm, hidm _ ho _ hm⟩
    obtain ⟨item, e1, _, e3⟩ := (g3 (idOf X o) o').2 ⟨⟨m, hob⟩, e⟩
    refine ⟨item, e1, ?_⟩
    obtain ⟨p, hp', e4, e5⟩ := h2.offsetOf _ _ e
    have := hcol p hp' _ ho e5
    rw [e3, ← e4]
    simp only at this
    rw [← this]
    exact hp'
  · intro k hk
    apply g4
    cases e : pack.result.hashObject k with
    | none => rfl
    | some m =>
      obtain ⟨p, hp', e1, e2⟩ := (h2.byId k m).1 e
      exact absurd ((hidm p hp' _ e1).symm.trans e2) (hk p hp')

/-- The object stored as a delta at offset 24 of `foreignPack` is found there through the index. -/
example : ∃ pack ix d item, decodePack demoExt (fun _ => none) 1 foreignPack = .ok pack ∧
    Idx.encode demoExt (fun b => b.length) pack = .ok ix ∧ Idx.decode Idx.default ix.fileData = .ok d ∧
    d.getOffset (idOf demoExt (.blob, ascii "ellp!")) = .ok item ∧ item.offset = 24 := by
  obtain ⟨pack, ix, d, h1, h2, h3, _, h4, _⟩ := C34_index_points_at_object (X := demoExt) (St := fun _ => none)
    (known := fun _ => none) (fun _ _ _ e => by cases e) foreignPack_file foreignPack_resolves foreignPack_ids
    (by decide) (by decide) 0 (fun b => b.length)
  obtain ⟨item, h5, h6⟩ := h4 24 (.blob, ascii "ellp!") (by simp)
  refine ⟨pack, ix, d, item, h1, h2, h3, h5, ?_⟩
  simp only [List.mem_cons, Prod.mk.injEq, List.not_mem_nil, or_false] at h6
  rcases h6 with ⟨_, _, h6⟩ | ⟨h6, _⟩
  · exact absurd h6 (by decide)
  · exact h6

/-! ## C35: the fan-out table -/

namespace Spec

/-- How many of these ids have a first byte with a property. -/
def countFirst (ids : List Hash) (p : Nat → Bool) : Nat := (ids.filter (fun h => p ((h.1.headD 0).toNat))).length

end Spec

theorem countFirst_countP (ids : List Hash) (p : Nat → Bool) :
    Spec.countFirst ids p = ids.countP (fun h => p (Idx.first h)) := by
  rw [Spec.countFirst, List.countP_eq_length_filter]; rfl

theorem flatten_slice (w : Nat) : ∀ (l : List Bytes) (pre post : Bytes) (j : Nat) (x : Bytes), (∀ y ∈ l, y.length = w) →
    l[j]? = some x → slice (pre ++ (l.flatten ++ post)) (pre.length + w * j) (pre.length + w * j + w) = .ok x := by
  intro l
  induction l with
  | nil => intro pre post j x _ h; simp at h
  | cons y l ih =>
    intro pre post j x hw h
    have hy := hw y (by simp)
    cases j with
    | zero =>
      simp only [List.getElem?_cons_zero, Option.some.injEq] at h
      subst h
      simp only [List.flatten_cons, List.append_assoc, Nat.mul_zero, Nat.add_zero]
      exact Idx.slice_mid pre y _ _ _ rfl (by rw [hy])
    | succ j =>
      have := ih (pre ++ y) post j x (fun z hz => hw z (List.mem_cons_of_mem _ hz)) (by simpa using h)
      simp only [List.append_assoc, List.length_append, hy] at this
      simp only [List.flatten_cons, List.append_assoc]
      rw [show pre.length + w * (j + 1) = pre.length + w + w * j by ring]
      exact this

theorem u32Vec_be32 (n : Nat) : (u32Vec n).map UInt8.toNat = Spec.be32 n := by
  simp only [u32Vec, and_ff, Nat.shiftRight_eq_div_pow, List.map_cons, List.map_nil, u8_toNat, Spec.be32, Nat.mod_mod]

/-- **C35** In the index file generated for any decodable pack whose object ids are `ids` (each once): the four bytes at
position `8 + 4 b` are, most significant first, the number of ids whose first byte is at most `b`. Hence the table never
decreases and ends with the number of ids. -/
theorem C35_fanout_table {X : Ext} {St : ObjectSource} {file : Bytes} {fuel : Nat} {pack : Pack}
    (h : decodePack X St fuel file = .ok pack) (hlen : pack.result.byHash.length < 2 ^ 32) (crc : Bytes → Nat)
    (ids : List Hash) (hn : ids.Nodup) (hids : ∀ k, k ∈ ids ↔ ∃ m, pack.result.hashObject k = some m) :
    ∃ ix, Idx.encode X crc pack = .ok ix ∧
      (∀ b < 256, ∃ bs, slice ix.fileData (8 + 4 * b) (8 + 4 * b + 4) = .ok bs ∧
        bs.map UInt8.toNat = Spec.be32 (Spec.countFirst ids (fun c => c ≤ b)) ∧
        beNat bs = Spec.countFirst ids (fun c => c ≤ b)) ∧
      (∀ a b, a ≤ b → Spec.countFirst ids (fun c => c ≤ a) ≤ Spec.countFirst ids (fun c => c ≤ b)) ∧
      Spec.countFirst ids (fun c => c ≤ 255) = ids.length := by
  obtain ⟨hs, _⟩ := decoded_offsets h
  obtain ⟨ix, d, h1, _, _, _, _, _, _, _, _, rest, h2⟩ := index_roundtrip h hlen crc
  have hperm : ids.Perm (pack.result.byHash.map Prod.fst) := by
    rw [List.perm_ext_iff_of_nodup hn (HashMap.sorted_nodup hs)]
    intro k
    rw [hids, List.mem_map]
    constructor
    · rintro ⟨m, hm⟩; exact ⟨(k, m), (HashMap.mem_iff_get hs k m).2 hm, rfl⟩
    · rintro ⟨p, hp, rfl⟩; exact ⟨p.2, (HashMap.mem_iff_get hs _ _).1 hp⟩
  refine ⟨ix, h1, ?_, ?_, ?_⟩
  · intro b hb
    have hcount : Spec.countFirst ids (fun c => c ≤ b) =
        (pack.result.byHash.map Prod.fst).countP (fun h => decide (Idx.first h < b + 1)) := by
      rw [countFirst_countP, hperm.countP_eq]
      congr 1
      funext k
      simp only [decide_eq_decide]
      omega
    refine ⟨u32Vec (Spec.countFirst ids (fun c => c ≤ b)), ?_, u32Vec_be32 _, ?_⟩
    · rw [h2, List.append_assoc]
      refine flatten_slice 4 _ [255, 116, 79, 99, 0, 0, 0, 2] rest b _ ?_ ?_
      · intro y hy; obtain ⟨n, _, rfl⟩ := List.mem_map.1 hy; rfl
      · rw [List.getElem?_map, List.getElem?_map, List.getElem?_range' hb]
        simp only [Option.map_some, Nat.one_mul, Nat.zero_add, hcount]
    · refine Idx.beNat_u32Vec _ ?_
      rw [hcount]
      refine Nat.lt_of_le_of_lt List.countP_le_length ?_
      simpa using hlen
  · intro a b hab
    rw [countFirst_countP, countFirst_countP]
    refine List.countP_mono_left ?_
    intro x _ hx
    simp only [decide_eq_true_eq] at hx ⊢
    omega
  · rw [countFirst_countP, List.countP_eq_length]
    intro k _
    have := (k.1.headD 0).toNat_lt
    refine decide_eq_true ?_
    have e : Idx.first k = (k.1.headD 0).toNat := rfl
    rw [e]
    omega

/-- Both ids of `foreignPack` start with the last byte hashed by the demo digest, `o` and `!`. -/
example : ∃ pack ix, decodePack demoExt (fun _ => none) 1 foreignPack = .ok pack ∧
    Idx.encode demoExt (fun b => b.length) pack = .ok ix ∧
    slice ix.fileData (8 + 4 * 32) (8 + 4 * 32 + 4) = .ok [0, 0, 0, 0] ∧
    slice ix.fileData (8 + 4 * 33) (8 + 4 * 33 + 4) = .ok [0, 0, 0, 1] ∧
    slice ix.fileData (8 + 4 * 111) (8 + 4 * 111 + 4) = .ok [0, 0, 0, 2] := by
  obtain ⟨pack, h1, h2⟩ := C64_decode_wellformed (X := demoExt) (St := fun _ => none) (known := fun _ => none)
    (fun _ _ _ e => by cases e) foreignPack_file foreignPack_resolves foreignPack_ids (by decide) (by decide) 0
  have hids : ∀ k, k ∈ [idOf demoExt (.blob, ascii "hello"), idOf demoExt (.blob, ascii "ellp!")] ↔
      ∃ m, pack.result.hashObject k = some m := by
    intro k
    constructor
    · intro hk
      rcases List.mem_cons.1 hk with rfl | hk
      · exact ⟨_, (h2.byId _ _).2 ⟨_, List.mem_cons_self, new_metaOf demoExt (.blob, ascii "hello") rfl, rfl⟩⟩
      · rw [List.mem_singleton] at hk
        subst hk
        exact ⟨_, (h2.byId _ _).2 ⟨_, List.mem_cons_of_mem _ List.mem_cons_self,
          new_metaOf demoExt (.blob, ascii "ellp!") rfl, rfl⟩⟩
    · rintro ⟨m, hm⟩
      obtain ⟨p, hp, e1, e2⟩ := (h2.byId k m).1 hm
      rcases List.mem_cons.1 hp with rfl | hp
      · rw [new_metaOf demoExt (.blob, ascii "hello") rfl] at e1
        obtain rfl := Res.ok.inj e1
        rw [← e2]; exact List.mem_cons_self
      · rw [List.mem_singleton] at hp
        subst hp
        rw [new_metaOf demoExt (.blob, ascii "ellp!") rfl] at e1
        obtain rfl := Res.ok.inj e1
        rw [← e2]; exact List.mem_cons_of_mem _ List.mem_cons_self
  have hnd : [idOf demoExt (.blob, ascii "hello"), idOf demoExt (.blob, ascii "ellp!")].Nodup := by decide +kernel
  have hlen : pack.result.byHash.length < 2 ^ 32 := by
    have hsub : pack.result.byHash.map Prod.fst ⊆ [idOf demoExt (.blob, ascii "hello"), idOf demoExt (.blob, ascii "ellp!")] := by
      intro k hk
      obtain ⟨q, hq, rfl⟩ := List.mem_map.1 hk
      exact (hids _).2 ⟨q.2, (h2.listed _ _).1 hq⟩
    have := (HashMap.sorted_nodup (decoded_offsets h1).1).length_le_of_subset hsub
    simp only [List.length_map, List.length_cons, List.length_nil] at this
    omega
  obtain ⟨ix, h3, h4, _⟩ := C35_fanout_table h1 hlen (fun b => b.length) _ hnd hids
  have key : ∀ b < 256, ∀ v : Bytes, v.length = 4 →
      v.map UInt8.toNat = Spec.be32 (Spec.countFirst [idOf demoExt (.blob, ascii "hello"),
        idOf demoExt (.blob, ascii "ellp!")] (fun c => c ≤ b)) → slice ix.fileData (8 + 4 * b) (8 + 4 * b + 4) = .ok v := by
    intro b hb v _ hv
    obtain ⟨bs, e1, e2, _⟩ := h4 b hb
    rw [e1]
    rw [← hv] at e2
    rw [List.map_injective_iff.2 (fun _ _ => UInt8.toNat_inj.1) e2]
  exact ⟨pack, ix, h1, h3, key 32 (by decide) _ rfl (by decide +kernel), key 33 (by decide) _ rfl (by decide +kernel),
    key 111 (by decide) _ rfl (by decide +kernel)⟩

/-- **C35** Read back, the table gives for each two-digit prefix the number of ids starting with it (nothing if there is
none). -/
theorem C35_prefix_counts {X : Ext} {St : ObjectSource} {file : Bytes} {fuel : Nat} {pack : Pack}
    (h : decodePack X St fuel file = .ok pack) (hlen : pack.result.byHash.length < 2 ^ 32) (crc : Bytes → Nat)
    (ids : List Hash) (hn : ids.Nodup) (hids : ∀ k, k ∈ ids ↔ ∃ m, pack.result.hashObject k = some m) :
    ∃ ix d, Idx.encode X crc pack = .ok ix ∧ Idx.decode Idx.default ix.fileData = .ok d ∧
      d.numberOfObjects = ids.length ∧
      ∀ b : UInt8, d.mapOfPrefix (Hash.hexByte b) =
        if Spec.countFirst ids (fun c => c = b.toNat) = 0 then none
        else some (Spec.countFirst ids (fun c => c = b.toNat)) := by
  obtain ⟨hs, _⟩ := decoded_offsets h
  obtain ⟨ix, d, h1, h2, _, _, _, _, h3, h4, _⟩ := index_roundtrip h hlen crc
  have hperm : ids.Perm (pack.result.byHash.map Prod.fst) := by
    rw [List.perm_ext_iff_of_nodup hn (HashMap.sorted_nodup hs)]
    intro k
    rw [hids, List.mem_map]
    constructor
    · rintro ⟨m, hm⟩; exact ⟨(k, m), (HashMap.mem_iff_get hs k m).2 hm, rfl⟩
    · rintro ⟨p, hp, rfl⟩; exact ⟨p.2, (HashMap.mem_iff_get hs _ _).1 hp⟩
  refine ⟨ix, d, h1, h2, by rw [h3, hperm.length_eq, List.length_map], ?_⟩
  intro b
  have hb := b.toNat_lt
  have e : Hash.hexByte b = Idx.sha1Prefix b.toNat := (Idx.sha1Prefix_eq b.toNat hb).symm
  rw [h4, e, Idx.prefixMap_get _ b.toNat hb 256 (Nat.le_refl _), countFirst_countP, hperm.countP_eq]
  by_cases hc : (pack.result.byHash.map Prod.fst).countP (fun h => decide (Idx.first h = b.toNat)) = 0
  · rw [if_neg (fun h => h.2 hc), if_pos hc]
  · rw [if_pos ⟨hb, hc⟩, if_neg hc]

end Gust

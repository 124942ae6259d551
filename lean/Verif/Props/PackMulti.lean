import Verif.Lemmas.PackMulti
import Verif.Props.ObjMap

/-! # C38, C39: decoding with an index, decoding several packs -/

namespace Gust

/-! ## C38 -/

/-- Decoding any list of offsets of objects, in any order. -/
theorem decodeByIdxLoop_random {X : Ext} {St : ObjectSource} {file : Bytes} {os : List (Nat × Spec.Obj)} {fuel : Nat}
    (hstep : ∀ (off : Nat) (ob : Spec.Obj), (off, ob) ∈ os → ∀ H : List (Nat × Spec.Obj), (∀ p ∈ H, p ∈ os) →
      ∃ H' pos, (∀ p ∈ H', p ∈ os) ∧ (∀ p ∈ H, p ∈ H') ∧ (off, ob) ∈ H' ∧
        nextObject X St file fuel off (cacheOf X H) = .ok ((metaOf X ob, cacheOf X H'), pos)) :
    ∀ (items : List IdxItem), (∀ it ∈ items, ∃ ob, (it.offset, ob) ∈ os) → ∀ H : List (Nat × Spec.Obj), (∀ p ∈ H, p ∈ os) →
      ∃ H', (∀ p ∈ H', p ∈ os) ∧ (∀ p ∈ H, p ∈ H') ∧ (∀ it ∈ items, ∃ ob, (it.offset, ob) ∈ H') ∧
        decodeByIdxLoop X St fuel file items (cacheOf X H) = .ok (cacheOf X H')
  | [], _, H, hH => ⟨H, hH, fun _ h => h, by simp, rfl⟩
  | it :: items, hit, H, hH => by
    obtain ⟨ob, hob⟩ := hit it List.mem_cons_self
    obtain ⟨H1, pos, a1, a2, a3, a4⟩ := hstep it.offset ob hob H hH
    obtain ⟨H2, b1, b2, b3, b4⟩ := decodeByIdxLoop_random hstep items (fun i hi => hit i (List.mem_cons_of_mem _ hi)) H1 a1
    refine ⟨H2, b1, fun p hp => b2 p (a2 p hp), List.forall_mem_cons.2 ⟨⟨ob, b2 _ a3⟩, b3⟩, ?_⟩
    rw [decodeByIdxLoop, a4]
    exact b4

/-- **C38** For a pack without deltas against ids, going through the objects in the order of the index (that is, of ids)
decodes every object of the pack, as decoding front to back does, and the count and signature returned are those of the index.
Missing from the full claim: the pack returned does not contain the objects (`C38_by_index_false`), and for packs with deltas
against ids the base may come later in the index (`C38_ref_delta_false`). -/
theorem C38_by_index_partial {X : Ext} {St St' : ObjectSource} {known : Hash → Option Spec.Obj} (hst : Supplies St known)
    {file : Bytes} {es : List (Nat × Spec.Entry)} {trailer : Hash} {os : List (Nat × Spec.Obj)}
    (hp : Spec.PackFile X.inflate file es trailer) (hr : Spec.Resolves (idOf X) known [] es os)
    (hnr : ∀ p ∈ es, p.2.noRef)
    (hcol : Spec.NoCollision (idOf X) os) (hcap : ∀ p ∈ os, p.2.2.length < 2 ^ 63) (h32 : ∀ p ∈ es, p.1 < 2 ^ 32)
    (crc : Bytes → Nat) (fuel fuel' : Nat) (hf : es.length < fuel') :
    ∃ pack ix d c, decodePack X St (fuel + 1) file = .ok pack ∧ Idx.encode X crc pack = .ok ix ∧
      Idx.decode Idx.default ix.fileData = .ok d ∧
      decodeByIdxLoop X St' fuel' file d.idxItems PackCache.empty = .ok c ∧
      (∀ h, c.hashObject h = pack.result.hashObject h) ∧ c.Keyed ∧
      (∃ r, DecodeByIdx X St' fuel' d file r) ∧
      ∀ r, DecodeByIdx X St' fuel' d file r →
        (r = .panic ∧ ∃ m, pack.result.hashObject m.id = some m ∧ decodeObject m = .panic) ∨
        (∃ P, r = .ok P ∧ P.signature = pack.signature ∧ P.numberOfObjects = pack.result.byHash.length ∧
          ∀ m, pack.result.hashObject m.id = some m → decodeObject m ≠ .panic) := by
  obtain ⟨pack, h1, h2⟩ := C64_decode_wellformed hst hp hr hcol hcap h32 fuel
  obtain ⟨hd, s, rfl, hh, hent⟩ := hp
  have hhl : hd.length = 12 := by
    have := congrArg List.length hh.2
    simpa [Spec.be32] using this
  obtain ⟨hbase, hoffs⟩ := resolves_base (fun h t b e => (hst h t b e).1) hr (by simp)
  have hpw : os.Pairwise (fun a b => a.1 < b.1) := by
    have := (entries_offsets hent).1
    rw [← List.pairwise_map (f := Prod.fst) (R := (· < ·)), ← hoffs] at this
    exact List.pairwise_map.1 this
  have hlen : os.length = es.length := by
    have := congrArg List.length hoffs
    simpa using this
  obtain ⟨hs, ho⟩ := decoded_offsets h1
  -- no more distinct objects than entries
  have hle : pack.result.byHash.length ≤ os.length := by
    have hnd := HashMap.sorted_nodup hs
    have hsub : pack.result.byHash.map Prod.fst ⊆ os.map (fun p => idOf X p.2) := by
      intro k hk
      obtain ⟨⟨k', m⟩, hq, rfl⟩ := List.mem_map.1 hk
      obtain ⟨p, hp', e1, e2⟩ := (h2.byId k' m).1 ((HashMap.mem_iff_get hs _ _).1 hq)
      have := (new_iff_metaOf (hbase p hp') m).1 e1
      exact List.mem_map.2 ⟨p, hp', by rw [← e2, ← this]; rfl⟩
    have := (List.subperm_of_subset hnd hsub).length_le
    simpa using this
  have hl32 : pack.result.byHash.length < 2 ^ 32 := by
    have := hh.1
    omega
  obtain ⟨ix, d, g1, g2, _, _, g3, g4, g5, _⟩ := index_roundtrip h1 hl32 crc
  have hstep := nextObject_random (St := St') (known := known) (file := hd ++ s) (es := es) (os := os)
    (fun i o e he => by
      simpa using entry_at (known := known) hent (earlier := []) (os := os) (pre := hd) rfl hhl.symm hr i o e he)
    hlen hoffs hpw hbase hcol hcap h32 hnr fuel'
  have hitem : ∀ it ∈ d.idxItems, ∃ ob, (it.offset, ob) ∈ os ∧ idOf X ob = it.id := by
    intro it hi
    rw [g3] at hi
    obtain ⟨q, hq, rfl⟩ := List.mem_map.1 hi
    obtain ⟨o, e1, _⟩ := (ho q.1 q.2 ((HashMap.mem_iff_get hs _ _).1 hq)).2.2
    obtain ⟨p, hp', e2, e3⟩ := h2.offsetOf _ _ e1
    refine ⟨p.2, ?_, e3⟩
    simp only [e1, Option.getD_some, ← e2]
    exact hp'
  obtain ⟨H, a1, _, a3, a4⟩ := decodeByIdxLoop_random (X := X) (St := St') (file := hd ++ s) (os := os) (fuel := fuel')
    (fun off ob hmem H hH => by
      obtain ⟨i, hi⟩ := List.mem_iff_getElem?.1 hmem
      refine hstep i off ob hi ?_ H hH
      have : i < os.length := by
        by_contra hn
        rw [List.getElem?_eq_none (by omega)] at hi
        cases hi
      omega) d.idxItems (fun it hi => by obtain ⟨ob, h, _⟩ := hitem it hi; exact ⟨ob, h⟩) [] (by simp)
  have a4' : decodeByIdxLoop X St' fuel' (hd ++ s) d.idxItems PackCache.empty = .ok (cacheOf X H) := a4
  have hsame : ∀ h, (cacheOf X H).hashObject h = pack.result.hashObject h := by
    have key : ∀ h m, (cacheOf X H).hashObject h = some m ↔ pack.result.hashObject h = some m := by
      intro h m
      rw [cacheOf_hashObject (noCollision_subset hcol a1)]
      constructor
      · rintro ⟨p, hp', e1, e2⟩
        exact (h2.byId h m).2 ⟨p, a1 p hp', (new_iff_metaOf (hbase p (a1 p hp')) m).2 e2, by rw [← e2]; exact e1⟩
      · intro hm
        have hmem := (HashMap.mem_iff_get hs h m).2 hm
        obtain ⟨it, hit, hid⟩ : ∃ it ∈ d.idxItems, it.id = h := ⟨_, by rw [g3]; exact List.mem_map_of_mem hmem, rfl⟩
        obtain ⟨ob, hob, hobid⟩ := hitem it hit
        obtain ⟨ob', hob'⟩ := a3 it hit
        have e0 := offsets_inj hpw _ (a1 _ hob') _ hob rfl
        simp only [Prod.mk.injEq, true_and] at e0
        subst e0
        obtain ⟨p, hp', e1, e2⟩ := (h2.byId h m).1 hm
        have e3 := (new_iff_metaOf (hbase p hp') m).1 e1
        have e4 : idOf X p.2 = h := by rw [← e2, ← e3]; rfl
        have e5 := hcol p hp' _ hob (by rw [e4, hobid, hid])
        exact ⟨_, hob', by rw [hobid, hid], by rw [← e5]; exact e3⟩
    intro h
    cases e : pack.result.hashObject h with
    | some m => exact (key h m).2 e
    | none =>
      cases e' : (cacheOf X H).hashObject h with
      | none => rfl
      | some m => rw [(key h m).1 e'] at e; cases e
  have hkey : (cacheOf X H).Keyed := PackCache.keyed_run _
  have hhead : checkHeader (hd ++ s) = .ok (es.length, s) := (C29_header_iff _ _ _).2 ⟨hd, rfl, hh⟩
  have hn : d.numberOfObjects < 2 ^ 32 := by rw [g5]; exact hl32
  refine ⟨pack, ix, d, cacheOf X H, h1, g1, g2, a4', hsame, hkey, ?_, ?_⟩
  · obtain ⟨r, hu⟩ := update_exists ObjDecodedMap.default (cacheOf X H)
    rcases update_outcomes hu with rfl | ⟨D, rfl⟩
    · exact ⟨_, .update _ _ hhead hn a4' hu⟩
    · exact ⟨_, .ok _ _ _ hhead hn a4' hu⟩
  · intro r hdec
    have hfail := (C36_fails_iff (self := ObjDecodedMap.default) hkey).2
    simp only [hsame] at hfail
    cases hdec with
    | headerErr e h => rw [hhead] at h; cases h
    | headerPanic h => rw [hhead] at h; cases h
    | tooMany _ _ h => omega
    | objects _ _ _ h => rw [a4'] at h; cases h
    | spin _ _ _ h => rw [a4'] at h; cases h
    | update _ c _ _ h hu =>
      rw [a4'] at h
      obtain rfl := Res.ok.inj h
      exact .inl ⟨rfl, (hfail _ hu).1 rfl⟩
    | ok _ c D _ _ h hu =>
      rw [a4'] at h
      obtain rfl := Res.ok.inj h
      refine .inr ⟨_, rfl, g4, g5, ?_⟩
      intro m hm hpan
      have := (hfail _ hu).2 ⟨m, hm, hpan⟩
      cases this

/-- **C38 is false**: whatever the pack and the index, the pack returned contains no object. -/
theorem C38_result_always_empty {X : Ext} {St : ObjectSource} {fuel : Nat} {idx : Idx} {file : Bytes} {P : Pack}
    (h : DecodeByIdx X St fuel idx file (.ok P)) (k : Hash) : P.result.hashObject k = none := by
  cases h
  rfl

/-- **C38 is false**: a pack with two blobs; decoding it gives both, decoding it with its index succeeds and gives none. -/
theorem C38_by_index_false : ∃ (X : Ext) (St : ObjectSource) (file : Bytes) (pack : Pack) (ix d : Idx) (m : MetaData),
    decodePack X St 1 file = .ok pack ∧ Idx.encode X (fun _ => 0) pack = .ok ix ∧
    Idx.decode Idx.default ix.fileData = .ok d ∧ pack.result.hashObject m.id = some m ∧
    (∃ P, DecodeByIdx X St 3 d file (.ok P)) ∧
    ∀ P, DecodeByIdx X St 3 d file (.ok P) → P.result.hashObject m.id = none := by
  obtain ⟨pack', h1', h2'⟩ := C64_decode_wellformed (X := demoExt) (St := fun _ => none) (known := fun _ => none)
    (fun _ _ _ e => by cases e) foreignPack_file foreignPack_resolves foreignPack_ids (by decide) (by decide) 0
  obtain ⟨pack, ix, d, c, h1, h2, h3, h4, _, _, ⟨r, h5⟩, h6⟩ := C38_by_index_partial (X := demoExt) (St := fun _ => none)
    (St' := fun _ => none) (known := fun _ => none) (fun _ _ _ e => by cases e) foreignPack_file foreignPack_resolves
    (by
      intro p hp
      simp only [List.mem_cons, List.not_mem_nil, or_false] at hp
      rcases hp with rfl | rfl <;> trivial) foreignPack_ids (by decide) (by decide) (fun _ => 0) 0 3 (by decide)
  rw [h1] at h1'
  obtain rfl := Res.ok.inj h1'
  refine ⟨demoExt, fun _ => none, foreignPack, pack, ix, d, metaOf demoExt (.blob, ascii "hello"), h1, h2, h3, ?_, ?_,
    fun P h => C38_result_always_empty h _⟩
  · exact (h2'.byId _ _).2 ⟨_, List.mem_cons_self, new_metaOf demoExt (.blob, ascii "hello") rfl, rfl⟩
  · rcases h6 r h5 with ⟨rfl, m, hm, hpan⟩ | ⟨P, rfl, _⟩
    · exfalso
      obtain ⟨p, hp, e1, _⟩ := (h2'.byId _ _).1 hm
      simp only [List.mem_cons, List.not_mem_nil, or_false] at hp
      rcases hp with rfl | rfl
      · have := (new_iff_metaOf (X := demoExt) (o := (.blob, ascii "hello")) rfl m).1 e1
        rw [← this] at hpan
        cases hpan
      · have := (new_iff_metaOf (X := demoExt) (o := (.blob, ascii "ellp!")) rfl m).1 e1
        rw [← this] at hpan
        cases hpan
    · exact ⟨P, h5⟩

/-- "hello", and then "ellp!" as a delta against the id of "hello". -/
def idDeltaPack : Bytes :=
  [80, 65, 67, 75, 0, 0, 0, 2, 0, 0, 0, 2] ++
    ([0x35] ++ demoDeflate (ascii "hello") ++
      ([0x78] ++ (idOf demoExt (.blob, ascii "hello")).1 ++ demoDeflate [5, 5, 0x91, 1, 3, 2, 112, 33] ++ List.replicate 20 7))

/-- **C38 is false** for packs with deltas against ids: "hello" and, after it, "ellp!" as a delta against the id of "hello". Decoding it gives both; its index
can be written and read; but decoding it with the index panics, since the ids are in another order than the objects, so that the delta comes before its base. -/
theorem C38_ref_delta_false : ∃ (pack : Pack) (ix d : Idx), decodePack demoExt (fun _ => none) 1 idDeltaPack = .ok pack ∧
    pack.result.hashObject (idOf demoExt (.blob, ascii "hello")) = some (metaOf demoExt (.blob, ascii "hello")) ∧
    pack.result.hashObject (idOf demoExt (.blob, ascii "ellp!")) = some (metaOf demoExt (.blob, ascii "ellp!")) ∧
    Idx.encode demoExt (fun _ => 0) pack = .ok ix ∧ Idx.decode Idx.default ix.fileData = .ok d ∧
    ∀ fuel r, DecodeByIdx demoExt (fun _ => none) (fuel + 1) d idDeltaPack r → r = .panic := by
  obtain ⟨pack, h1, h2, h3, ix, h4, d, h5, h6⟩ : ∃ pack, decodePack demoExt (fun _ => none) 1 idDeltaPack = .ok pack ∧
      pack.result.hashObject (idOf demoExt (.blob, ascii "hello")) = some (metaOf demoExt (.blob, ascii "hello")) ∧
      pack.result.hashObject (idOf demoExt (.blob, ascii "ellp!")) = some (metaOf demoExt (.blob, ascii "ellp!")) ∧
      ∃ ix, Idx.encode demoExt (fun _ => 0) pack = .ok ix ∧ ∃ d, Idx.decode Idx.default ix.fileData = .ok d ∧ d.idxItems.head?.map IdxItem.offset = some 24 := by
    have : (match decodePack demoExt (fun _ => none) 1 idDeltaPack with
      | .ok pack => decide (pack.result.hashObject (idOf demoExt (.blob, ascii "hello")) = some (metaOf demoExt (.blob, ascii "hello"))) &&
          (decide (pack.result.hashObject (idOf demoExt (.blob, ascii "ellp!")) = some (metaOf demoExt (.blob, ascii "ellp!"))) &&
          match Idx.encode demoExt (fun _ => 0) pack with
          | .ok ix => match Idx.decode Idx.default ix.fileData with
            | .ok d => decide (d.idxItems.head?.map IdxItem.offset = some 24)
            | _ => false
          | _ => false)
      | _ => false) = true := by decide +kernel
    split at this
    · rename_i pack e
      simp only [Bool.and_eq_true, decide_eq_true_eq] at this
      obtain ⟨a, b, this⟩ := this
      refine ⟨pack, e, a, b, ?_⟩
      split at this
      · rename_i ix e2
        split at this
        · rename_i d e3
          exact ⟨ix, e2, d, e3, of_decide_eq_true this⟩
        · cases this
      · cases this
    · cases this
  refine ⟨pack, ix, d, h1, h2, h3, h4, h5, fun fuel r hr => ?_⟩
  have hl : decodeByIdxLoop demoExt (fun _ => none) (fuel + 1) idDeltaPack d.idxItems PackCache.empty = .panic := by
    cases hi : d.idxItems with
    | nil => rw [hi] at h6; cases h6
    | cons it items =>
      rw [hi] at h6
      have h6 : it.offset = 24 := by simpa using h6
      rw [decodeByIdxLoop, h6]
      have : nextObject demoExt (fun _ => none) idDeltaPack (fuel + 1) 24 PackCache.empty = .panic := by
        have e1 : (readTypeAndSize (idDeltaPack.drop 24)).unwrap =
            .ok ((7, 8), (idOf demoExt (.blob, ascii "hello")).1 ++ demoDeflate [5, 5, 0x91, 1, 3, 2, 112, 33] ++ List.replicate 20 7) := by decide +kernel
        have e2 : (readBytes 20 ((idOf demoExt (.blob, ascii "hello")).1 ++ demoDeflate [5, 5, 0x91, 1, 3, 2, 112, 33] ++ List.replicate 20 7)).unwrap =
            .ok ((idOf demoExt (.blob, ascii "hello")).1, demoDeflate [5, 5, 0x91, 1, 3, 2, 112, 33] ++ List.replicate 20 7) := by decide +kernel
        have e3 : Hash.fromRow (idOf demoExt (.blob, ascii "hello")).1 = .ok (idOf demoExt (.blob, ascii "hello")) := by decide +kernel
        rw [nextObject, e1, Res.bind_ok]
        simp only [show ¬ (1 ≤ 7 ∧ 7 ≤ 4) by decide, show ¬ (7 = 6) by decide, if_false, if_true, e2, Res.bind_ok, e3]
        rfl
      rw [this]
      rfl
  have hc : checkHeader idDeltaPack = .ok (2, idDeltaPack.drop 12) := by decide +kernel
  cases hr with
  | headerErr e h => rw [hc] at h; cases h
  | headerPanic h => rfl
  | tooMany _ _ h => rfl
  | objects _ _ _ h => rfl
  | spin _ _ _ h => rw [hl] at h; cases h
  | update _ c _ _ h hu => rfl
  | ok _ c D _ _ h hu => rw [hl] at h; cases h
/-! ## C39 -/

theorem multiLoop_packs {X : Ext} {St : ObjectSource} {known : Hash → Option Spec.Obj} (hst : Supplies St known) (fuel : Nat)
    {prior : List (Nat × Spec.Obj)} {files : List Bytes} {os : List (Nat × Spec.Obj)}
    (h : Spec.Packs X.inflate (idOf X) known prior files os) : ∀ total : Nat, (∀ p ∈ prior, p.2.1.isBase = true) →
    Spec.NoCollision (idOf X) (prior ++ os) → (∀ p ∈ os, p.2.2.length < 2 ^ 63) →
    multiLoop X St (fuel + 1) (files.map (fun f => (Pack.default, f))) total (cacheOf X prior) =
      .ok (total, cacheOf X (prior ++ os)) ∧ ∀ p ∈ os, p.2.1.isBase = true := by
  induction h with
  | nil prior => intro total _ _ _; simp [multiLoop]
  | cons prior file files es trailer os rest hp hr h32 _ ih =>
    intro total hb hcol hcap
    obtain ⟨hd, s, rfl, hh, hent⟩ := hp
    have hhl : hd.length = 12 := by
      have := congrArg List.length hh.2
      simpa [Spec.be32] using this
    have hloop := decodeWithCacheLoop_entries hst (file := hd ++ s) fuel hb hent (earlier := []) (os := os) (pre := hd) rfl
      hhl.symm hr (by
        rw [List.append_nil]
        refine noCollision_subset hcol ?_
        intro p hp
        rcases List.mem_append.1 hp with hp | hp
        · exact List.mem_append_left _ hp
        · exact List.mem_append_right _ (List.mem_append_left _ hp)) (by simp) (by simp) (by simp)
      (fun p hp => hcap p (List.mem_append_left _ hp)) h32
    rw [List.append_nil] at hloop
    obtain ⟨z, rfl, _⟩ := entries_prefix hent
    have hdrop : (hd ++ (z ++ trailer.1)).drop ((hd ++ (z ++ trailer.1)).length - trailer.1.length) = trailer.1 := by
      rw [← List.append_assoc]
      exact drop_of_split rfl (by simp only [List.length_append]; omega)
    have hrb : readBytes 20 trailer.1 = .ok (trailer.1, []) := by
      have := readBytes_hash trailer []
      rwa [List.append_nil] at this
    have hdec : decodeWithCache X St (fuel + 1) (hd ++ (z ++ trailer.1)) (cacheOf X prior) =
        .ok ({ numberOfObjects := es.length, signature := trailer, result := PackCache.empty }, cacheOf X (prior ++ os)) := by
      rw [decodeWithCache, (C29_header_iff _ _ _).2 ⟨hd, rfl, hh⟩]
      simp only [Res.unwrap_ok, Res.bind_ok, hloop.1, hdrop, hrb, fromRow_hash, Res.pure_eq]
    obtain ⟨g1, g2⟩ := ih total (by
      intro p hp
      rcases List.mem_append.1 hp with hp | hp
      · exact hb p hp
      · exact hloop.2 p hp) (by rw [List.append_assoc]; exact hcol) (fun p hp => hcap p (List.mem_append_right _ hp))
    refine ⟨?_, ?_⟩
    · rw [List.map_cons, multiLoop, hdec]
      simp only [Res.bind_ok]
      have e0 : total + Pack.default.numberOfObjects = total := rfl
      rw [e0, g1, List.append_assoc]
    · intro p hp
      rcases List.mem_append.1 hp with hp | hp
      · exact hloop.2 p hp
      · exact g2 p hp

/-- **C39** Decoding any number of well-formed packs together makes exactly the objects of all packs available by id, although
offsets of different packs coincide, and although later packs may have deltas against objects of earlier ones. Missing from the
full claim: the number of objects reported, which is 0 (`C39_count_false`). -/
theorem C39_objects_available_partial {X : Ext} {St : ObjectSource} {known : Hash → Option Spec.Obj} (hst : Supplies St known)
    {files : List Bytes} {os : List (Nat × Spec.Obj)} (h : Spec.Packs X.inflate (idOf X) known [] files os)
    (hcol : Spec.NoCollision (idOf X) os) (hcap : ∀ p ∈ os, p.2.2.length < 2 ^ 63) (fuel : Nat) :
    ∃ P, multiDecode X St (fuel + 1) files = .ok P ∧ P.numberOfObjects = 0 ∧
      (∀ p ∈ os, ∃ m, MetaData.new X p.2.1 p.2.2 = .ok m) ∧
      ∀ k m, P.result.hashObject k = some m ↔ ∃ p ∈ os, MetaData.new X p.2.1 p.2.2 = .ok m ∧ m.id = k := by
  obtain ⟨h1, h2⟩ := multiLoop_packs hst fuel h 0 (by simp) (by simpa using hcol) hcap
  rw [List.nil_append] at h1
  have e0 : cacheOf X [] = PackCache.empty := rfl
  rw [e0] at h1
  rw [multiDecode, h1]
  refine ⟨_, rfl, rfl, fun p hp => ⟨_, new_metaOf X p.2 (h2 p hp)⟩, ?_⟩
  intro k m
  simp only
  rw [cacheOf_hashObject hcol]
  constructor
  · rintro ⟨p, hp, e1, e2⟩
    exact ⟨p, hp, (new_iff_metaOf (h2 p hp) m).2 e2, by rw [← e2]; exact e1⟩
  · rintro ⟨p, hp, e1, e2⟩
    have := (new_iff_metaOf (h2 p hp) m).1 e1
    exact ⟨p, hp, by rw [← e2, ← this]; rfl, this⟩

theorem multiLoop_total {X : Ext} {St : ObjectSource} {fuel : Nat} : ∀ (files : List Bytes) (total t : Nat) (c c' : PackCache),
    multiLoop X St fuel (files.map (fun f => (Pack.default, f))) total c = .ok (t, c') → t = total
  | [], total, t, c, c', h => by
    simp only [List.map_nil, multiLoop, Res.ok.injEq, Prod.mk.injEq] at h
    exact h.1.symm
  | f :: files, total, t, c, c', h => by
    simp only [List.map_cons, multiLoop, Res.bind_eq_ok] at h
    obtain ⟨⟨P, c1⟩, _, h⟩ := h
    exact multiLoop_total files _ _ _ _ h

/-- A second pack: the tag "hi" at the offset where `foreignPack` has "hello", and "hi!" as a delta against it. -/
def secondPack : Bytes :=
  [80, 65, 67, 75, 0, 0, 0, 2, 0, 0, 0, 2] ++
    ([0x42] ++ demoDeflate (ascii "hi") ++
      ([0x66, 6] ++ demoDeflate [2, 3, 0x90, 2, 1, 33] ++ List.replicate 20 9))

theorem secondPack_file : Spec.PackFile demoExt.inflate secondPack
    [(12, .whole 4 (ascii "hi")), (18, .ofs 6 [2, 3, 0x90, 2, 1, 33])] ⟨List.replicate 20 9, rfl⟩ := by
  refine ⟨[80, 65, 67, 75, 0, 0, 0, 2, 0, 0, 0, 2], _, rfl, ⟨by decide, by decide⟩, ?_⟩
  refine .cons _ _ ([0x66, 6] ++ demoDeflate [2, 3, 0x90, 2, 1, 33] ++ List.replicate 20 9) _ _ _
    (.whole _ (demoDeflate (ascii "hi") ++ ([0x66, 6] ++ demoDeflate [2, 3, 0x90, 2, 1, 33] ++
      List.replicate 20 9)) _ _ _ ⟨0x42, by decide, by decide, by decide, by decide, by decide⟩ (by decide) (by decide)
      (demoInflate_deflate _ _)) ?_
  refine .cons _ _ (List.replicate 20 9) _ _ _
    (.ofs _ ([6] ++ demoDeflate [2, 3, 0x90, 2, 1, 33] ++ List.replicate 20 9)
      (demoDeflate [2, 3, 0x90, 2, 1, 33] ++ List.replicate 20 9) _ _ _
      ⟨0x66, by decide, by decide, by decide, by decide, by decide⟩ (by decide) (demoInflate_deflate _ _)) ?_
  exact .nil _ _

theorem secondDelta_means : Spec.DeltaMeans (ascii "hi") [2, 3, 0x90, 2, 1, 33] (ascii "hi!") := by
  refine ⟨[3, 0x90, 2, 1, 33], [0x90, 2, 1, 33], [.copy 0 2, .lit [33]], by decide, by decide, ?_, by decide⟩
  have h1 : Spec.DeltaCode [1, 33] [.lit [33]] :=
    Spec.DeltaCode.lit 1 [33] [] [] (by decide) (by decide) (by decide) .done
  exact Spec.DeltaCode.copy 0x90 [2, 1, 33] [1, 33] [0, 0, 0, 0] [2, 0, 0] _ (by decide) (by decide) rfl rfl h1

theorem secondPack_resolves (prior : List (Nat × Spec.Obj)) :
    Spec.Resolves (idOf demoExt) (Spec.knownAfter (idOf demoExt) prior (fun _ => none)) []
      [(12, .whole 4 (ascii "hi")), (18, .ofs 6 [2, 3, 0x90, 2, 1, 33])] [(12, (.tag, ascii "hi")), (18, (.tag, ascii "hi!"))] :=
  .cons _ _ _ _ _ _ (.whole _ _ _ rfl) (.cons _ _ _ _ _ _
    (.ofs 6 12 _ (ascii "hi") _ .tag rfl List.mem_cons_self secondDelta_means) (.nil _))

theorem twoPacks : Spec.Packs demoExt.inflate (idOf demoExt) (fun _ => none) [] [foreignPack, secondPack]
    ([(12, (.blob, ascii "hello")), (24, (.blob, ascii "ellp!"))] ++
      ([(12, (.tag, ascii "hi")), (18, (.tag, ascii "hi!"))] ++ [])) := by
  refine .cons _ _ _ _ _ _ _ foreignPack_file ?_ (by decide) (.cons _ _ _ _ _ _ _ secondPack_file ?_ (by decide) (.nil _))
  · exact foreignPack_resolves
  · exact secondPack_resolves _

theorem twoPacks_ids : Spec.NoCollision (idOf demoExt) ([(12, (.blob, ascii "hello")), (24, (.blob, ascii "ellp!"))] ++
    ([(12, (.tag, ascii "hi")), (18, (.tag, ascii "hi!"))] ++ [])) :=
  noCollision_of_nodup (by decide +kernel)

/-- Objects of both packs are found, also the one whose base shares its offset with an object of the other pack. -/
example : ∃ P, multiDecode demoExt (fun _ => none) 1 [foreignPack, secondPack] = .ok P ∧
    P.result.hashObject (idOf demoExt (.blob, ascii "hello")) = some (metaOf demoExt (.blob, ascii "hello")) ∧
    P.result.hashObject (idOf demoExt (.tag, ascii "hi!")) = some (metaOf demoExt (.tag, ascii "hi!")) := by
  obtain ⟨P, h1, _, _, h2⟩ := C39_objects_available_partial (St := fun _ => none) (fun _ _ _ e => by cases e) twoPacks
    twoPacks_ids (by decide) 0
  exact ⟨P, h1, (h2 _ _).2 ⟨(12, (.blob, ascii "hello")), by simp, new_metaOf demoExt (.blob, ascii "hello") rfl, rfl⟩,
    (h2 _ _).2 ⟨(18, (.tag, ascii "hi!")), by simp, new_metaOf demoExt (.tag, ascii "hi!") rfl, rfl⟩⟩

/-- **C39 is false** for the count: it is 0 for every list of packs. -/
theorem C39_count_always_zero {X : Ext} {St : ObjectSource} {fuel : Nat} {files : List Bytes} {P : Pack}
    (h : multiDecode X St fuel files = .ok P) : P.numberOfObjects = 0 := by
  simp only [multiDecode, Res.bind_eq_ok, Res.pure_eq, Res.ok.injEq] at h
  obtain ⟨⟨t, c⟩, h1, rfl⟩ := h
  exact multiLoop_total _ _ _ _ _ h1

/-- **C39 is false** for the count: two packs of two objects each are decoded, and the number reported is not four. -/
theorem C39_count_false : ∃ (X : Ext) (St : ObjectSource) (a b : Bytes) (pa pb P : Pack), decodePack X St 1 a = .ok pa ∧
    decodePack X St 1 b = .ok pb ∧ multiDecode X St 1 [a, b] = .ok P ∧ pa.numberOfObjects = 2 ∧ pb.numberOfObjects = 2 ∧
    P.numberOfObjects ≠ pa.numberOfObjects + pb.numberOfObjects := by
  obtain ⟨pa, h1, h2⟩ := C64_decode_wellformed (X := demoExt) (St := fun _ => none) (known := fun _ => none)
    (fun _ _ _ e => by cases e) foreignPack_file foreignPack_resolves foreignPack_ids (by decide) (by decide) 0
  obtain ⟨pb, h3, h4⟩ := C64_decode_wellformed (X := demoExt) (St := fun _ => none) (known := fun _ => none)
    (fun _ _ _ e => by cases e) secondPack_file (secondPack_resolves []) (noCollision_of_nodup (by decide +kernel)) (by decide) (by decide) 0
  obtain ⟨P, h5, h6, _⟩ := C39_objects_available_partial (St := fun _ => none) (fun _ _ _ e => by cases e) twoPacks
    twoPacks_ids (by decide) 0
  refine ⟨demoExt, fun _ => none, foreignPack, secondPack, pa, pb, P, h1, h3, h5, h2.count, h4.count, ?_⟩
  rw [h6, h2.count, h4.count]
  decide

end Gust

import Verif.Lemmas.PackDelta
import Verif.Props.Pack

/-! # C28: packs with deltas -/

namespace Gust

/-- **C28** Encoding objects with sliding-window delta compression and decoding the pack gives exactly the same objects,
whatever the similarity rates (hence whichever base is picked), whatever the (correct) edit scripts, for delta chains of any
length. Premise `hdev`: the encoder built with overflow checks succeeds; then every build writes the same file. Missing from
the full claim: packs for which it does not succeed (`C28_delta_pack_false`), and objects of 16 MiB or more (C12). -/
theorem C28_delta_pack_partial (X : Ext) (St : ObjectSource) (D : Differ) (hD : D.Valid) (ms : List MetaData)
    (hobj : ∀ m ∈ ms, MetaData.new X m.t m.data = .ok m) (hcol : ∀ a ∈ ms, ∀ b ∈ ms, a.id = b.id → a = b)
    (hsize : ∀ m ∈ ms, m.data.length < 2 ^ 24) {n : Nat} {sig : Hash} {file : Bytes}
    (hdev : encodeDelta X .dev D ms = .ok ((n, sig), file)) (hoff : file.length ≤ 2 ^ 32) (fuel : Nat) :
    (∀ p, encodeDelta X p D ms = .ok ((n, sig), file)) ∧ n = ms.length ∧
      (∃ body, file = body ++ sig.1 ∧ sig = X.sha1 body) ∧
      ∃ pack os, decodePack X St (fuel + 1) file = .ok pack ∧ os.map Prod.snd = ms.map (fun m => (m.t, m.data)) ∧
        DecodedTo X pack os sig ∧ pack.numberOfObjects = ms.length ∧
        ∀ h m, pack.result.hashObject h = some m ↔ m ∈ ms ∧ m.id = h := by
  rw [encodeDelta] at hdev
  simp only [Res.bind_eq_ok, signPack, Res.pure_eq, Res.ok.injEq, Prod.mk.injEq] at hdev
  obtain ⟨hd, h1, body, h2, ⟨hn, rfl⟩, hfile⟩ := hdev
  have hlen : 1 ≤ ms.length ∧ ms.length < 2 ^ 32 := by
    rw [encodeHeader] at h1
    split at h1
    · cases h1
    · omega
  obtain ⟨hd', h1', h3, h4, _⟩ := (C29_header_roundtrip ms.length).1 hlen
  rw [h1] at h1'
  obtain rfl := Res.ok.inj h1'
  obtain ⟨g1, s, es, os, g2, g3, g4, g5⟩ := encodeDeltaLoop_entries hD ms [] hd body (by intro q hq; cases hq)
    (fun m hm => ⟨hobj m hm, hsize m hm⟩) h2
  rw [h4] at g3
  have hmem : ∀ p ∈ os, ∃ m ∈ ms, p.2 = (m.t, m.data) := by
    intro p hp
    have : p.2 ∈ ms.map (fun m => (m.t, m.data)) := by rw [← g5]; exact List.mem_map_of_mem hp
    obtain ⟨m, hm, e⟩ := List.mem_map.1 this
    exact ⟨m, hm, e.symm⟩
  have hmem' : ∀ m ∈ ms, ∃ p ∈ os, p.2 = (m.t, m.data) := by
    intro m hm
    have : (m.t, m.data) ∈ os.map Prod.snd := by rw [g5]; exact List.mem_map_of_mem (f := fun m => (m.t, m.data)) hm
    obtain ⟨p, hp, e⟩ := List.mem_map.1 this
    exact ⟨p, hp, e⟩
  have hcol' : Spec.NoCollision (idOf X) os := by
    intro a ha b hb e
    obtain ⟨m, hm, ea⟩ := hmem a ha
    obtain ⟨m', hm', eb⟩ := hmem b hb
    rw [ea, eb] at e ⊢
    have e1 := (metaOf_of_new (hobj m hm)).2
    have e2 := (metaOf_of_new (hobj m' hm')).2
    have : m = m' := hcol m hm m' hm' (by rw [← e1, ← e2]; exact e)
    rw [this]
  have hcount : es.length = ms.length := by
    obtain ⟨_, ho⟩ := resolves_base (X := X) (known := fun _ => none) (fun h t b e => by cases e) g4 (by intro p hp; cases hp)
    have e1 := congrArg List.length ho
    have e2 := congrArg List.length g5
    simp only [List.length_map] at e1 e2
    omega
  have hpf : Spec.PackFile X.inflate file es (X.sha1 body) :=
    ⟨hd, s ++ (X.sha1 body).1, by rw [← hfile, g2, List.append_assoc], by rw [hcount]; exact h3, g3 _⟩
  obtain ⟨pack, h5, h6⟩ := C64_decode_wellformed (X := X) (St := St) (known := fun _ => none) (fun h t b e => by cases e)
    hpf g4 hcol'
    (by
      intro p hp
      obtain ⟨m, hm, e⟩ := hmem p hp
      have := hsize m hm
      rw [e]
      simp only
      omega)
    (by
      intro p hp
      have h7 := ((entries_offsets (g3 (X.sha1 body).1)).2 p hp).2
      have h8 : file.length = 12 + s.length + 20 := by
        rw [← hfile, List.length_append, (X.sha1 body).2, g2, List.length_append, h4]
      simp only [List.length_append, (X.sha1 body).2] at h7
      omega) fuel
  refine ⟨?_, hn.symm, ⟨body, hfile.symm, rfl⟩, pack, os, h5, g5, h6, ?_, ?_⟩
  · intro p
    rw [encodeDelta, h1]
    simp only [Res.bind_ok, g1 p, signPack, Res.pure_eq, hfile, hn]
  · rw [h6.count]
    have := congrArg List.length g5
    simpa using this
  · intro h m
    rw [h6.byId]
    constructor
    · rintro ⟨p, hp, e1, e2⟩
      obtain ⟨m', hm', e⟩ := hmem p hp
      rw [e, hobj m' hm'] at e1
      obtain rfl := Res.ok.inj e1
      exact ⟨hm', e2⟩
    · rintro ⟨hm, e⟩
      obtain ⟨p, hp, e'⟩ := hmem' m hm
      exact ⟨p, hp, by rw [e']; exact hobj m hm, e⟩

/-- **C28** for small packs the premise always holds: without overflow checks the encoder succeeds on every list of objects,
and if the resulting pack (without its checksum) has at most 16384 bytes, the build with overflow checks writes the same. -/
theorem C28_small_delta_pack_partial (X : Ext) (D : Differ) (hD : D.Valid) (ms : List MetaData) (h0 : ms ≠ [])
    (hn : ms.length < 2 ^ 32) (hobj : ∀ m ∈ ms, MetaData.new X m.t m.data = .ok m)
    (hsize : ∀ m ∈ ms, m.data.length < 2 ^ 24) :
    ∃ body, encodeDelta X .release D ms = .ok ((ms.length, X.sha1 body), body ++ (X.sha1 body).1) ∧
      (body.length ≤ 16384 → encodeDelta X .dev D ms = .ok ((ms.length, X.sha1 body), body ++ (X.sha1 body).1)) := by
  obtain ⟨hd, h1, _⟩ := (C29_header_roundtrip ms.length).1 ⟨List.length_pos_iff.2 h0, hn⟩
  obtain ⟨out, h2, _, h3⟩ := encodeDeltaLoop_total hD ms [] hd (by intro q hq; cases hq)
    (fun m hm => ⟨hobj m hm, hsize m hm⟩)
  refine ⟨out, by rw [encodeDelta, h1]; simp only [Res.bind_ok, h2]; rfl, ?_⟩
  intro hl
  rw [encodeDelta, h1]
  simp only [Res.bind_ok, h3 hl]
  rfl

/-! ## The counterexample -/

/-- The cheapest correct diff: insert everything; everything is similar to everything. -/
def demoDiffer : Differ where
  events _ new := if new = [] then [] else [.insert 0 0 new.length]
  rate _ _ := 1

theorem demoDiffer_valid : demoDiffer.Valid := by
  intro old new
  by_cases h : new = []
  · subst h
    simp [demoDiffer, Spec.ValidScript]
  · have : 0 < new.length := List.length_pos_iff.2 h
    simp [demoDiffer, h, Spec.ValidScript, this]

/-- Two similar small objects: the second is written as a delta. -/
def similarMs : List MetaData := [metaOf demoExt (.blob, ascii "hello"), metaOf demoExt (.blob, ascii "hallo")]

theorem similarMs_obj : ∀ m ∈ similarMs, MetaData.new demoExt m.t m.data = .ok m := by
  intro m hm
  simp only [similarMs, List.mem_cons, List.not_mem_nil, or_false] at hm
  rcases hm with rfl | rfl
  · exact new_metaOf demoExt (.blob, ascii "hello") rfl
  · exact new_metaOf demoExt (.blob, ascii "hallo") rfl

theorem similarMs_ids : ∀ a ∈ similarMs, ∀ b ∈ similarMs, a.id = b.id → a = b := by
  have h : (similarMs.map MetaData.id).Nodup := by decide +kernel
  intro a ha b hb e
  exact List.inj_on_of_nodup_map h ha hb e

example : chooseBase demoDiffer (metaOf demoExt (.blob, ascii "hallo")) [metaOf demoExt (.blob, ascii "hello")] 1 (none, 0) =
    some 1 := by
  simp only [chooseBase, demoDiffer, metaOf]
  norm_num

/-- Both premises hold of two similar blobs, the second one stored as a delta, and both come back. -/
example : ∃ out file pack, (∀ p, encodeDelta demoExt p demoDiffer similarMs = .ok (out, file)) ∧
    decodePack demoExt (fun _ => none) 1 file = .ok pack ∧ pack.numberOfObjects = 2 ∧
    ∀ m ∈ similarMs, pack.result.hashObject m.id = some m := by
  have h : (match encodeDelta demoExt .dev demoDiffer similarMs with
    | .ok (_, f) => decide (f.length ≤ 100) | _ => false) = true := by decide +kernel
  cases e : encodeDelta demoExt .dev demoDiffer similarMs with
  | ok r =>
    obtain ⟨⟨n, sig⟩, file⟩ := r
    rw [e] at h
    have hl : file.length ≤ 100 := of_decide_eq_true h
    obtain ⟨h1, _, _, pack, os, h2, _, _, h3, h4⟩ := C28_delta_pack_partial demoExt (fun _ => none) demoDiffer
      demoDiffer_valid similarMs similarMs_obj similarMs_ids
      (by
        intro m hm
        simp only [similarMs, List.mem_cons, List.not_mem_nil, or_false] at hm
        rcases hm with rfl | rfl <;> decide +kernel) e (by omega) 0
    exact ⟨_, _, pack, h1, h2, h3, fun m hm => (h4 _ _).2 ⟨hm, rfl⟩⟩
  | err _ => rw [e] at h; cases h
  | panic => rw [e] at h; cases h
  | spin => rw [e] at h; cases h

/-- A blob of 8190 zeros, whose entry in the demo compression has exactly 16384 bytes. -/
def longObj : Spec.Obj := (.blob, List.replicate 8190 0)

theorem demoDeflate_length (d : Bytes) : (demoDeflate d).length = 2 * d.length + 1 := by
  induction d with
  | nil => rfl
  | cons b d ih => simp only [demoDeflate, List.length_cons, ih]; omega

theorem longObj_entry : (MetaData.convertToVec demoExt (metaOf demoExt longObj)).length = 16384 := by
  rw [convertToVec_base rfl]
  have h1 : (MetaData.entryHeader (metaOf demoExt longObj).t (metaOf demoExt longObj).size).length = 3 := by
    have hs : (metaOf demoExt longObj).size = 8190 := by simp only [metaOf, longObj, List.length_replicate]
    have ht : (metaOf demoExt longObj).t = .blob := rfl
    rw [hs, ht, entryHeader_eq]
    have e : 8190 >>> 4 = 511 := rfl
    rw [e, writeSizeEncoding, dif_pos (by decide), writeSizeEncoding, dif_neg (by decide)]
    rfl
  have h2 : (demoExt.deflate (metaOf demoExt longObj).data).length = 16381 := by
    have : (metaOf demoExt longObj).data.length = 8190 := by simp only [metaOf, longObj, List.length_replicate]
    have e := demoDeflate_length (metaOf demoExt longObj).data
    rw [this] at e
    exact e
  simp only [List.length_append, h1, h2]

/-- A second blob. -/
def shortObj : Spec.Obj := (.blob, [1])

/-- The encoder takes the first object as the base of the second one. -/
theorem longShort_step (p : Profile) :
    encodeDeltaStep demoExt p demoDiffer [(metaOf demoExt longObj, 12)] (12 + 16384) (metaOf demoExt shortObj) =
      (writeOffsetEncoding p 16384).bind (fun head => .ok ((metaOf demoExt shortObj).changeToDelta .offsetDelta
        (writeSizeEncoding 8190 ++ writeSizeEncoding 1 ++ [1, 1]) head)) := by
  have hc : chooseBase demoDiffer (metaOf demoExt shortObj) [metaOf demoExt longObj] 1 (none, 0) = some 1 := by
    have ht : (metaOf demoExt shortObj).t = (metaOf demoExt longObj).t := rfl
    simp only [chooseBase, demoDiffer, ht]
    norm_num
  have hs : (metaOf demoExt longObj).size = 8190 := by simp only [metaOf, longObj, List.length_replicate]
  have hd : getDeltaMetadata (metaOf demoExt longObj) (metaOf demoExt shortObj)
      (diffRun (demoDiffer.events (metaOf demoExt longObj).data (metaOf demoExt shortObj).data)) =
      .ok (writeSizeEncoding 8190 ++ writeSizeEncoding 1 ++ [1, 1]) := by
    have he : demoDiffer.events (metaOf demoExt longObj).data (metaOf demoExt shortObj).data = [.insert 0 0 1] := by
      simp [demoDiffer, metaOf, shortObj]
    rw [getDeltaMetadata, he, hs]
    rfl
  simp only [encodeDeltaStep, List.map_cons, List.map_nil, hc, Nat.sub_self, List.getElem?_cons_zero, hd, Res.bind_ok,
    Nat.add_sub_cancel_left]
  rfl

theorem header2 : encodeHeader 2 = .ok [80, 65, 67, 75, 0, 0, 0, 2, 0, 0, 0, 2] := by decide

theorem longShort_loop (p : Profile) :
    encodeDeltaLoop demoExt p demoDiffer [metaOf demoExt longObj, metaOf demoExt shortObj] []
        [80, 65, 67, 75, 0, 0, 0, 2, 0, 0, 0, 2] =
      (writeOffsetEncoding p 16384).bind (fun head => .ok ([80, 65, 67, 75, 0, 0, 0, 2, 0, 0, 0, 2] ++
        MetaData.convertToVec demoExt (metaOf demoExt longObj) ++
        MetaData.convertToVec demoExt ((metaOf demoExt shortObj).changeToDelta .offsetDelta
          (writeSizeEncoding 8190 ++ writeSizeEncoding 1 ++ [1, 1]) head))) := by
  have h1 : encodeDeltaStep demoExt p demoDiffer [] 12 (metaOf demoExt longObj) = .ok (metaOf demoExt longObj) := rfl
  have h2 : ([80, 65, 67, 75, 0, 0, 0, 2, 0, 0, 0, 2] ++ MetaData.convertToVec demoExt (metaOf demoExt longObj)).length =
      12 + 16384 := by
    rw [List.length_append, longObj_entry]; rfl
  have h3 : ([80, 65, 67, 75, 0, 0, 0, 2, 0, 0, 0, 2] : Bytes).length = 12 := rfl
  rw [encodeDeltaLoop, h3, h1]
  simp only [Res.bind_ok]
  rw [encodeDeltaLoop, h2, longShort_step]
  cases writeOffsetEncoding p 16384 <;> rfl

theorem excess_128 : excess (16384 / 128) = 128 := by
  rw [show 16384 / 128 = 128 from rfl, excess, excess, excess]
  decide

/-- **C28 is false** in both build profiles. Objects: 8190 zeros and one byte; the second is written as a delta at distance
16384. With overflow checks the encoder panics; without, it writes distance 32768, and decoding fails. -/
theorem C28_delta_pack_false (p : Profile) :
    ¬ ∀ (X : Ext) (St : ObjectSource) (D : Differ) (ms : List MetaData) (fuel : Nat), D.Valid → ms ≠ [] →
      (∀ m ∈ ms, MetaData.new X m.t m.data = .ok m) → (∀ m ∈ ms, m.data.length < 2 ^ 24) →
      ∃ out file pack, encodeDelta X p D ms = .ok (out, file) ∧ decodePack X St (fuel + 1) file = .ok pack := by
  intro hall
  obtain ⟨out, file, pack, h1, h2⟩ := hall demoExt (fun _ => none) demoDiffer
    [metaOf demoExt longObj, metaOf demoExt shortObj] 0 demoDiffer_valid (by simp)
    (by
      intro m hm
      simp only [List.mem_cons, List.not_mem_nil, or_false] at hm
      rcases hm with rfl | rfl
      · exact new_metaOf demoExt longObj rfl
      · exact new_metaOf demoExt shortObj rfl)
    (by
      intro m hm
      simp only [List.mem_cons, List.not_mem_nil, or_false] at hm
      rcases hm with rfl | rfl
      · simp only [metaOf, longObj, List.length_replicate]; omega
      · simp [metaOf, shortObj])
  rw [encodeDelta] at h1
  simp only [List.length_cons, List.length_nil, Nat.zero_add, Nat.reduceAdd, header2, Res.bind_ok, longShort_loop] at h1
  cases p with
  | dev =>
    have : writeOffsetEncoding .dev 16384 = .panic := by
      have := writeOffsetLoop_dev_panic (16384 / 128) (by rw [excess_128]; omega)
      rw [writeOffsetEncoding, show 16384 >>> 7 = 16384 / 128 from rfl, this]
      rfl
    rw [this] at h1
    cases h1
  | release =>
    obtain ⟨head, w1, w2⟩ := writeOffset_release 16384 (by omega)
    rw [excess_128] at w2
    rw [w1] at h1
    simp only [Res.bind, Res.bind_ok, signPack, Res.pure_eq, Res.ok.injEq, Prod.mk.injEq] at h1
    obtain ⟨_, hf⟩ := h1
    -- names for the parts of the file
    have e := longObj_entry
    generalize hA : MetaData.convertToVec demoExt (metaOf demoExt longObj) = A at *
    obtain ⟨delta, hdelta⟩ : ∃ d, d = writeSizeEncoding 8190 ++ writeSizeEncoding 1 ++ [1, 1] := ⟨_, rfl⟩
    rw [← hdelta] at hf
    have hdl : delta.length < 2 ^ 61 := by
      have e1 := writeSizeEncoding_length 8190 2 (by omega) (by omega)
      have e2 := writeSizeEncoding_length 1 1 (by omega) (by omega)
      rw [hdelta]
      simp only [List.length_append, List.length_cons, List.length_nil]
      omega
    obtain ⟨sig, hsig⟩ : ∃ s, s = (demoExt.sha1 ([80, 65, 67, 75, 0, 0, 0, 2, 0, 0, 0, 2] ++ A ++
      MetaData.convertToVec demoExt ((metaOf demoExt shortObj).changeToDelta .offsetDelta delta head))).1 := ⟨_, rfl⟩
    rw [← hsig] at hf
    have hB : MetaData.convertToVec demoExt ((metaOf demoExt shortObj).changeToDelta .offsetDelta delta head) =
        MetaData.entryHeader .offsetDelta delta.length ++ (head ++ demoExt.deflate delta) := by
      simp [MetaData.convertToVec, MetaData.changeToDelta]
    rw [hB] at hf
    obtain ⟨rest, hrest⟩ : ∃ r, r = MetaData.entryHeader .offsetDelta delta.length ++ (head ++ (demoExt.deflate delta ++ sig)) :=
      ⟨_, rfl⟩
    have hfile : file = [80, 65, 67, 75, 0, 0, 0, 2, 0, 0, 0, 2] ++ (A ++ rest) := by
      rw [← hf, hrest]
      simp only [List.append_assoc]
    have hcode : Spec.EntryCode demoExt.inflate (file.drop 12) (.whole 3 longObj.2) rest := by
      have hdr : file.drop 12 = A ++ rest := drop_of_split hfile rfl
      rw [hdr, ← hA]
      exact entryCode_base (m := metaOf demoExt longObj) rfl rfl
        (by simp only [metaOf, longObj, List.length_replicate]; omega) rest
    obtain ⟨hn1, _⟩ := nextObject_entry (X := demoExt) (St := fun _ => none) (known := fun _ => none)
      (fun _ _ _ e => by cases e) (earlier := []) (o := longObj) hcode (.whole 3 .blob _ rfl)
      (by intro a ha; cases ha) (by simp) (by simp)
      (by simp only [longObj, List.length_replicate]; omega) (by omega) 0
    have hpos : file.length - rest.length = 16396 := by
      rw [hfile]
      simp only [List.length_append, List.length_cons, List.length_nil, e]
      omega
    rw [hpos] at hn1
    have hdr2 : file.drop 16396 = rest :=
      drop_of_split (a := [80, 65, 67, 75, 0, 0, 0, 2, 0, 0, 0, 2] ++ A) (by rw [hfile, List.append_assoc])
        (by simp only [List.length_append, List.length_cons, List.length_nil, e])
    have hn2 : ∀ c, nextObject demoExt (fun _ => none) file 1 16396 c = .err .objectInfo := by
      intro c
      rw [nextObject, hdr2, hrest, readTypeAndSize_spec (entryHeader_written .offsetDelta delta.length hdl _)]
      simp only [Res.unwrap_ok, Res.bind_ok, ObjectType.number, show ¬ (1 ≤ 6 ∧ 6 ≤ 4) by omega, if_false, if_true, w2]
      rfl
    have hhead : checkHeader file = .ok (2, A ++ rest) := by
      rw [hfile]
      exact (C29_header_iff _ _ _).2 ⟨_, rfl, by omega, by decide⟩
    rw [decodePack, hhead] at h2
    have hempty : cacheOf demoExt [] = PackCache.empty := rfl
    rw [hempty] at hn1
    simp only [Res.bind_ok, decodeLoop, hn1, hn2, show ¬ 2 ^ 32 ≤ 12 by omega, if_false, Res.bind_err] at h2
    cases h2

end Gust

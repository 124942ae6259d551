import Verif.Props.Pack

/-! # C33: adding loose objects to a pack -/

namespace Gust

theorem resolves_append {idf : Spec.Obj → Hash} {known : Hash → Option Spec.Obj} {earlier : List (Nat × Spec.Obj)}
    {es : List (Nat × Spec.Entry)} {os : List (Nat × Spec.Obj)} (h : Spec.Resolves idf known earlier es os)
    {es' : List (Nat × Spec.Entry)} {os' : List (Nat × Spec.Obj)} :
    Spec.Resolves idf known (earlier ++ os) es' os' → Spec.Resolves idf known earlier (es ++ es') (os ++ os') := by
  induction h with
  | nil => intro h; simpa using h
  | cons earlier off e es o os hd _ ih =>
    intro h
    refine .cons _ _ _ _ _ _ hd (ih ?_)
    rwa [List.append_assoc]

/-- The old pack taken apart. -/
theorem decodeRawData_packFile {X : Ext} {file : Bytes} {es : List (Nat × Spec.Entry)} {trailer : Hash}
    (hp : Spec.PackFile X.inflate file es trailer) :
    ∃ z, decodeRawData file = .ok ((es.length, trailer), z) ∧ file.length = 32 + z.length ∧
      ∀ rest, Spec.Entries X.inflate 12 (z ++ rest) es rest := by
  obtain ⟨h, s, rfl, hh, hent⟩ := hp
  obtain ⟨z, rfl, hz⟩ := entries_prefix hent
  have ht := trailer.2
  have hl : h.length = 12 := by
    have := congrArg List.length hh.2
    simpa [Spec.be32] using this
  refine ⟨z, ?_, by simp only [List.length_append]; omega, hz⟩
  rw [decodeRawData, (C29_header_iff _ _ _).2 ⟨h, rfl, hh⟩]
  have e1 : (z ++ trailer.1).length - 20 = z.length := by simp only [List.length_append]; omega
  have e2 : ¬ (z ++ trailer.1).length < 20 := by simp only [List.length_append]; omega
  simp only [Res.unwrap_ok, Res.bind_ok, e1, e2, if_false, List.drop_left, List.take_left, fromRow_hash, Res.pure_eq]

theorem getPackRawData_encoded (hd z : Bytes) (trailer : Hash) (h : hd.length = 12) :
    getPackRawData (hd ++ z ++ trailer.1) = .ok z := by
  have ht := trailer.2
  have e1 : (hd ++ z ++ trailer.1).length - 20 = (hd ++ z).length := by simp only [List.length_append]; omega
  rw [getPackRawData, if_neg (by simp only [List.length_append]; omega), e1, slice,
    if_pos (by simp only [List.length_append]; omega), List.take_left, ← h, List.drop_left]

/-- Loose object files are read back in order. -/
theorem readLoose_written {X : Ext} {fs : MetaData.FS} {root : Bytes} {ms : List MetaData}
    (hobj : ∀ m ∈ ms, MetaData.new X m.t m.data = .ok m) (hsize : ∀ m ∈ ms, m.data.length < 2 ^ 61)
    (hfs : ∀ m ∈ ms, fs (root ++ [0x2f] ++ Hash.toFolder m.id ++ [0x2f] ++ Hash.toFilename m.id) =
      some (X.deflate m.looseBytes)) :
    readLoose X fs root (ms.map (fun m => Hash.toPlainStr m.id)) = .ok ms := by
  induction ms with
  | nil => rfl
  | cons m ms ih =>
    have ho := hobj m (by simp)
    have hread : MetaData.readObjectFromFile X fs
        (root ++ [0x2f] ++ Hash.toFolder m.id ++ [0x2f] ++ Hash.toFilename m.id) = .ok m := by
      have hi := X.inflate_deflate m.looseBytes []
      rw [List.append_nil] at hi
      rw [MetaData.readObjectFromFile, hfs m (by simp)]
      simp only [Res.unwrapOpt_some, Res.bind_ok, hi]
      rw [MetaData.looseBytes, parseLoose_looseBytes X m.t m.data (new_ok ho).1
        (by have := hsize m (by simp); unfold U64; omega)]
      exact ho
    have hih := ih (fun m hm => hobj m (by simp [hm])) (fun m hm => hsize m (by simp [hm]))
      (fun m hm => hfs m (by simp [hm]))
    simp only [List.map_cons, readLoose, Hash.fromStr, Hash.fromBytes_toPlainStr, Res.okOr_some, Res.unwrap_ok, Res.bind_ok,
      hread, hih, Res.pure_eq]

/-- Adding objects read from a loose directory to a pack: the result decodes to the old objects and the added ones. -/
theorem packObjectDir_decodes {X : Ext} {St : ObjectSource} {known : Hash → Option Spec.Obj} (hst : Supplies St known)
    {old : Bytes} {es : List (Nat × Spec.Entry)} {trailer : Hash} {os : List (Nat × Spec.Obj)}
    (hp : Spec.PackFile X.inflate old es trailer) (hr : Spec.Resolves (idOf X) known [] es os)
    (hcap : ∀ p ∈ os, p.2.2.length < 2 ^ 63)
    {fs : MetaData.FS} {root : Bytes} {names : List Bytes} {ms : List MetaData} (hread : readLoose X fs root names = .ok ms) (h0 : ms ≠ [])
    (hobj : ∀ m ∈ ms, MetaData.new X m.t m.data = .ok m) (hsize : ∀ m ∈ ms, m.data.length < 2 ^ 61)
    (hcol : Spec.NoCollision (idOf X) (os ++ objectsAt X (old.length - 20) ms))
    (hn : es.length + ms.length < 2 ^ 32) (hoff : old.length + (encodeEntries X ms).length ≤ 2 ^ 32) (fuel : Nat) :
    ∃ body pack, packObjectDir X fs root old names = .ok ((es.length + ms.length, X.sha1 body), body ++ (X.sha1 body).1) ∧
      decodePack X St (fuel + 1) (body ++ (X.sha1 body).1) = .ok pack ∧
      DecodedTo X pack (os ++ objectsAt X (old.length - 20) ms) (X.sha1 body) := by
  obtain ⟨z, hraw, hlen, hz⟩ := decodeRawData_packFile hp
  have hpos : 1 ≤ ms.length := List.length_pos_iff.2 h0
  obtain ⟨hd, h1, h2, h3, _⟩ := (C29_header_roundtrip (es.length + ms.length)).1 ⟨by omega, hn⟩
  obtain ⟨hl, hl1, _, hl3, _⟩ := (C29_header_roundtrip ms.length).1 ⟨hpos, by omega⟩
  have hmeta : ∀ m ∈ ms, m.t.isBase = true ∧ m.size = m.data.length ∧ m.data.length < 2 ^ 61 := by
    intro m hm
    obtain ⟨hb, _, _, hs, _⟩ := new_ok (hobj m hm)
    exact ⟨hb, hs, hsize m hm⟩
  have e12 : old.length - 20 = 12 + z.length := by omega
  rw [e12] at hcol ⊢
  have hloose : packLoose X fs root names =
      .ok ((ms.length, X.sha1 (hl ++ encodeEntries X ms)), hl ++ encodeEntries X ms ++ (X.sha1 (hl ++ encodeEntries X ms)).1) := by
    rw [packLoose, hread]
    simp only [Res.bind_ok, encodePack, hl1, signPack, Res.pure_eq]
  let body := hd ++ z ++ encodeEntries X ms
  have hout : packObjectDir X fs root old names =
      .ok ((es.length + ms.length, X.sha1 body), body ++ (X.sha1 body).1) := by
    rw [packObjectDir, hraw]
    simp only [Res.bind_ok, hloose, h1, getPackRawData_encoded hl (encodeEntries X ms) _ hl3, Res.pure_eq, body]
  have hent : Spec.Entries X.inflate 12 (z ++ (encodeEntries X ms ++ (X.sha1 body).1))
      (es ++ entriesAt X (12 + z.length) ms) (X.sha1 body).1 := by
    apply entries_append (hz _)
    have := entries_written (X := X) hmeta (X.sha1 body).1 (12 + z.length)
    have e : (z ++ (encodeEntries X ms ++ (X.sha1 body).1)).length - (encodeEntries X ms ++ (X.sha1 body).1).length =
        z.length := by simp only [List.length_append]; omega
    rw [e]
    exact this
  have hel : (es ++ entriesAt X (12 + z.length) ms).length = es.length + ms.length := by
    have := congrArg List.length (entriesAt_fst X ms (12 + z.length))
    simp only [List.length_map, objectsAt_length] at this
    rw [List.length_append, this]
  have hres : Spec.Resolves (idOf X) known [] (es ++ entriesAt X (12 + z.length) ms)
      (os ++ objectsAt X (12 + z.length) ms) :=
    resolves_append hr (resolves_written (fun m hm => (hmeta m hm).1) _ _)
  obtain ⟨pack, h5, h6⟩ := C64_decode_wellformed (St := St) (file := body ++ (X.sha1 body).1) hst
    ⟨hd, z ++ (encodeEntries X ms ++ (X.sha1 body).1), by simp [body], by rw [hel]; exact h2, hent⟩ hres hcol
    (by
      intro p hp
      rcases List.mem_append.1 hp with hp | hp
      · exact hcap p hp
      · obtain ⟨a, m, b, e, rfl⟩ := mem_objectsAt.1 hp
        have := hsize m (by rw [e]; simp)
        simp only
        omega)
    (by
      intro p hp
      have := ((entries_offsets hent).2 p hp).2
      have ht := (X.sha1 body).2
      simp only [List.length_append, ht] at this
      omega) fuel
  exact ⟨body, pack, hout, h5, h6⟩

/-- **C33** Combining an existing pack (any well-formed one: whole objects and deltas of both kinds) with a non-empty list
of loose objects gives a pack that decodes to exactly the old objects at their old offsets followed by the loose objects,
with the summed count and a correct checksum. Missing from the full claim: an empty list of loose objects, for which the
code panics (`C33_empty_false`). -/
theorem C33_add_loose_partial {X : Ext} {St : ObjectSource} {known : Hash → Option Spec.Obj} (hst : Supplies St known)
    {old : Bytes} {es : List (Nat × Spec.Entry)} {trailer : Hash} {os : List (Nat × Spec.Obj)}
    (hp : Spec.PackFile X.inflate old es trailer) (hr : Spec.Resolves (idOf X) known [] es os)
    (hcap : ∀ p ∈ os, p.2.2.length < 2 ^ 63)
    (fs : MetaData.FS) (root : Bytes) (ms : List MetaData) (h0 : ms ≠ [])
    (hobj : ∀ m ∈ ms, MetaData.new X m.t m.data = .ok m) (hsize : ∀ m ∈ ms, m.data.length < 2 ^ 61)
    (hfs : ∀ m ∈ ms, fs (root ++ [0x2f] ++ Hash.toFolder m.id ++ [0x2f] ++ Hash.toFilename m.id) =
      some (X.deflate m.looseBytes))
    (hcol : Spec.NoCollision (idOf X) (os ++ objectsAt X (old.length - 20) ms))
    (hn : es.length + ms.length < 2 ^ 32) (hoff : old.length + (encodeEntries X ms).length ≤ 2 ^ 32) (fuel : Nat) :
    ∃ body pack, packObjectDir X fs root old (ms.map (fun m => Hash.toPlainStr m.id)) =
        .ok ((es.length + ms.length, X.sha1 body), body ++ (X.sha1 body).1) ∧
      decodePack X St (fuel + 1) (body ++ (X.sha1 body).1) = .ok pack ∧
      DecodedTo X pack (os ++ objectsAt X (old.length - 20) ms) (X.sha1 body) :=
  packObjectDir_decodes hst hp hr hcap (readLoose_written hobj hsize hfs) h0 hobj hsize hcol hn hoff fuel

/-- **C33** is false for an empty list of loose objects: instead of giving the old pack back, the code panics, whatever the
old pack (packing zero objects is refused by an assertion). -/
theorem C33_empty_false (X : Ext) (fs : MetaData.FS) (root old : Bytes) (n : Nat) (sig : Hash) (raw : Bytes)
    (h : decodeRawData old = .ok ((n, sig), raw)) : packObjectDir X fs root old [] = .panic := by
  rw [packObjectDir, h]
  rfl

/-- Example: one loose object added to the pack written by another program. -/
example : ∃ out pack, packObjectDir demoExt (fun _ => some (demoDeflate (metaOf demoExt (.tag, ascii "hi")).looseBytes)) []
      foreignPack [Hash.toPlainStr (idOf demoExt (.tag, ascii "hi"))] = .ok ((3, pack.signature), out) ∧
    decodePack demoExt (fun _ => none) 1 out = .ok pack ∧
    pack.result.offsetObject 24 = some (metaOf demoExt (.blob, ascii "ellp!")) ∧
    pack.result.offsetObject 43 = some (metaOf demoExt (.tag, ascii "hi")) := by
  have hcol : Spec.NoCollision (idOf demoExt) ([(12, (.blob, ascii "hello")), (24, (.blob, ascii "ellp!"))] ++
      objectsAt demoExt (foreignPack.length - 20) [metaOf demoExt (.tag, ascii "hi")]) := by
    exact noCollision_of_nodup (by decide +kernel)
  have hlen : foreignPack.length - 20 = 43 := by decide +kernel
  obtain ⟨body, pack, h1, h2, h3⟩ := C33_add_loose_partial (X := demoExt) (St := fun _ => none) (known := fun _ => none)
    (fun _ _ _ e => by cases e) foreignPack_file foreignPack_resolves (by decide)
    (fun _ => some (demoDeflate (metaOf demoExt (.tag, ascii "hi")).looseBytes)) [] [metaOf demoExt (.tag, ascii "hi")]
    (by simp) (by intro m hm; rw [List.mem_singleton.1 hm]; exact new_metaOf demoExt (.tag, ascii "hi") rfl) (by decide)
    (by intro m hm; rw [List.mem_singleton.1 hm]; rfl) hcol (by decide) (by decide +kernel) 0
  rw [hlen] at h3
  refine ⟨_, pack, by rw [h3.signature]; exact h1, h2, (h3.atOffset _ _).2 ⟨_, List.mem_cons_of_mem _ List.mem_cons_self, rfl,
    new_metaOf demoExt (.blob, ascii "ellp!") rfl⟩, (h3.atOffset _ _).2 ⟨(43, (.tag, ascii "hi")), ?_, rfl,
    new_metaOf demoExt (.tag, ascii "hi") rfl⟩⟩
  exact List.mem_append_right _ (List.mem_cons_self)

end Gust

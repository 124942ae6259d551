import Verif.Props.Varint
import Verif.Props.Object
import Verif.Props.Codec
import Verif.Props.HostKey
import Verif.Props.LooseRead
import Verif.Props.Delta
import Verif.Props.Several
import Verif.Props.Pack
import Verif.Props.PackDelta
import Verif.Props.Idx
import Verif.Props.ObjMap

/-!
Applications of theorems about the object formats and the protocol to concrete values: the hypotheses are met by non-trivial values.
-/

namespace Gust

/-- C03: 16600 is written and read back in front of other bytes, 128 is read as a larger number in release builds. -/
example : (∃ bs, writeOffsetEncoding .dev 16600 = .ok bs ∧ readOffsetEncoding (bs ++ [1, 2]) = .ok (16600, [1, 2])) ∧
    ∃ bs v, writeOffsetEncoding .release 16384 = .ok bs ∧ readOffsetEncoding bs = .ok (v, []) ∧ 16384 < v := by
  refine ⟨C03_offset_roundtrip_partial .dev 16600 (by omega) ?_ [1, 2], C03_offset_release_overshoots 16384 (by omega) ?_⟩
  · rw [noZeroGroup_iff, excess, excess, excess]
    decide
  · rw [noZeroGroup_iff, excess, excess, excess]
    decide

/-- C05: what is hashed for the two-byte blob `hi` is hashed for no other object. -/
example (t : ObjectType) (data : Bytes) (h : Hash.preimage t data = .ok (ascii "blob 2" ++ [0] ++ ascii "hi")) : t = .blob ∧ data = ascii "hi" := by
  have h0 : Hash.preimage .blob (ascii "hi") = .ok (ascii "blob 2" ++ [0] ++ ascii "hi") := by decide +kernel
  obtain ⟨h1, h2⟩ := C05_preimage_injective t .blob data (ascii "hi") _ h h0
  exact ⟨h1, h2⟩

/-- C05: equal ids of the blob `hi` and another object mean that the other object is the same or the digest collides. -/
example (t : ObjectType) (data : Bytes) (m : MetaData) (h : MetaData.new demoExt t data = .ok m) (hid : m.id = (metaOf demoExt (.blob, ascii "hi")).id) :=
  C05_same_id_or_collision demoExt t .blob data (ascii "hi") m _ h (new_metaOf demoExt (.blob, ascii "hi") rfl) hid

/-- C06: a loose object in a directory with other files. -/
example (fs : MetaData.FS) := C06_loose_roundtrip demoExt .tree [32, 0, 49] (ascii "/objects") fs _ (new_base demoExt .tree [32, 0, 49] rfl) (by decide)

/-- C09. -/
example (s : AuthorSign) (h : Spec.SignOk s) (e : s.encode = (exampleSign (ascii "author")).encode) : s = exampleSign (ascii "author") :=
  C09_sign_injective s _ h (exampleSign_ok _ (by decide) (by decide) (by decide) author_text) e

/-- C112: the id of the commit that is read is the one asked for. -/
example : (metaOf demoExt (.commit, ascii "c")).id = (metaOf demoExt (.commit, ascii "c")).id ∧
    MetaData.new demoExt .commit (ascii "c") = .ok (metaOf demoExt (.commit, ascii "c")) := by
  have h := C112_identity demoExt false (Spec.objectFiles demoExt twoLoose) _ _ (C112_commit_partial demoExt twoLoose twoLoose_set (metaOf demoExt (.commit, ascii "c"))
    (by simp [twoLoose]) rfl)
  exact ⟨h.1, h.2.1⟩

/-- C13: the delta of the example makes only one object, from bytes of the base and the delta. -/
example (out : Bytes) (h : Spec.DeltaMeans exampleBase.data [5, 5, 0x91, 1, 3, 2, 112, 33] out) (hl : out.length < 2 ^ 63) :
    out = ascii "ellp!" ∧ ∀ b ∈ out, b ∈ exampleBase.data ∨ b ∈ [5, 5, 0x91, 1, 3, 2, 112, 33] := by
  have e := C13_output_unique exampleBase (by decide) rfl _ _ _ h exampleDelta_means hl (by decide)
  subst e
  exact ⟨rfl, C13_no_foreign_bytes demoExt exampleBase (by decide) _ _ ((C13_apply_delta_iff demoExt exampleBase (by decide) _ _).2
    ⟨_, exampleDelta_means, by decide, new_base demoExt .blob _ rfl⟩)⟩

/-- C14. -/
example := C14_generated_delta_wellformed exampleBase exampleNew (by decide) (by decide) (by decide) (by decide) exampleScript exampleScript_valid

/-- C21: the order and repetition of the capabilities do not matter. -/
example (c : Capability) : c ∈ parseCapabilities (ascii "ofs-delta side-band-64k") ↔ c ∈ parseCapabilities (ascii "side-band-64k ofs-delta side-band-64k") := by
  refine C21_order_independent _ _ [ascii "ofs-delta", ascii "side-band-64k"] [ascii "side-band-64k", ascii "ofs-delta", ascii "side-band-64k"] ?_ ?_ ?_ c
  · unfold Spec.SpaceSeparated; decide +kernel
  · unfold Spec.SpaceSeparated; decide +kernel
  · intro w; simp; tauto

/-- C24. -/
example := C24_single_command_partial exCreate exCreate_ok (ascii "report-status") (by decide) (by decide) (ascii "PACK...") (by decide)

/-- C25: a pack of an unknown version. -/
example : httpReceivePack (mysqlPush polyExt demoSql 5) { caps := [], commands := [], path := ascii "/r", db := Db.empty }
    (Spec.pushBody exCreate [] (ascii "report-status") (ascii "PACK" ++ [0, 0, 0, 3, 0, 0, 0, 1])) = .panic :=
  C25_bad_pack_fails _ (ascii "/r") Db.empty exCreate exCreate_ok (ascii "report-status") (by decide) (by decide) _ (by decide) .packFile rfl

/-- C60. -/
example := C60_advertisement_ssh .uploadPack exId [(exId, ascii "refs/heads/master")] (by decide) (by decide) (by decide)

/-- C63. -/
example := C63_ssh_push_partial recordingEnv recordingState exCreate exCreate_ok (ascii "report-status") (by decide) (by decide) (ascii "PACK...")

/-- C24: two commands at once. -/
example : httpReceiveDb recordingEnv recordingState (Spec.pushBody appCmd [devCmd] (ascii "report-status") (ascii "PACK...")) = recordingState.db :=
  (C24_several_lost recordingEnv recordingState appCmd devCmd appCmd_ok devCmd_ok (ascii "report-status") (by decide) (by decide) [] (ascii "PACK...")).1

/-- C32. -/
example : ((PackCache.empty.update exampleBase 12).update exampleBase 40).offsetObject 12 = some exampleBase :=
  C32_colliding_ids exampleBase exampleBase rfl 12 40 (by decide)

/-- C28. -/
example := C28_small_delta_pack_partial demoExt demoDiffer demoDiffer_valid similarMs (by decide) (by decide) similarMs_obj (by decide +kernel)

theorem foreign_decodes : ∃ pack, decodePack demoExt (fun _ => none) 1 foreignPack = .ok pack ∧ DecodedTo demoExt pack
    [(12, (.blob, ascii "hello")), (24, (.blob, ascii "ellp!"))] ⟨List.replicate 20 7, by simp⟩ ∧
    (∀ k, k ∈ [idOf demoExt (.blob, ascii "hello"), idOf demoExt (.blob, ascii "ellp!")] ↔ ∃ m, pack.result.hashObject k = some m) ∧
    pack.result.byHash.length ≤ 2 := by
  obtain ⟨pack, h1, h2⟩ := C64_decode_wellformed (X := demoExt) (St := fun _ => none) (known := fun _ => none)
    (fun _ _ _ e => by cases e) foreignPack_file foreignPack_resolves foreignPack_ids (by decide) (by decide) 0
  have hids : ∀ k, k ∈ [idOf demoExt (.blob, ascii "hello"), idOf demoExt (.blob, ascii "ellp!")] ↔ ∃ m, pack.result.hashObject k = some m := by
    intro k
    constructor
    · intro hk
      rcases List.mem_cons.1 hk with rfl | hk
      · exact ⟨_, (h2.byId _ _).2 ⟨_, List.mem_cons_self, new_metaOf demoExt (.blob, ascii "hello") rfl, rfl⟩⟩
      · rw [List.mem_singleton] at hk
        subst hk
        exact ⟨_, (h2.byId _ _).2 ⟨_, List.mem_cons_of_mem _ List.mem_cons_self, new_metaOf demoExt (.blob, ascii "ellp!") rfl, rfl⟩⟩
    · rintro ⟨m, hm⟩
      obtain ⟨p, hp, e1, e2⟩ := (h2.byId k m).1 hm
      rcases List.mem_cons.1 hp with rfl | hp
      · rw [new_metaOf demoExt (.blob, ascii "hello") rfl] at e1
        obtain rfl := Res.ok.inj e1
        rw [← e2]; exact List.mem_cons_self
      · rw [List.mem_singleton] at hp
        subst hp
        rw [new_metaOf demoExt (.blob, ascii "ellp!") rfl] at e1
        obtain rfl := Res.ok.inj e1
        rw [← e2]; exact List.mem_cons_of_mem _ List.mem_cons_self
  refine ⟨pack, h1, h2, hids, ?_⟩
  have hsub : pack.result.byHash.map Prod.fst ⊆ [idOf demoExt (.blob, ascii "hello"), idOf demoExt (.blob, ascii "ellp!")] := by
    intro k hk
    obtain ⟨q, hq, rfl⟩ := List.mem_map.1 hk
    exact (hids _).2 ⟨q.2, (h2.listed _ _).1 hq⟩
  have := (HashMap.sorted_nodup (decoded_offsets h1).1).length_le_of_subset hsub
  simpa using this

/-- C34, C35: the index of the pack with a delta that another program wrote. -/
example : ∃ pack, decodePack demoExt (fun _ => none) 1 foreignPack = .ok pack ∧ ∃ ix d, Idx.encode demoExt (fun b => b.length) pack = .ok ix ∧
    Idx.decode Idx.default ix.fileData = .ok d ∧ d.numberOfObjects = 2 ∧ d.mapOfPrefix (Hash.hexByte 33) = some 1 ∧ d.mapOfPrefix (Hash.hexByte 34) = none ∧
    ∀ k, pack.result.hashObject k = none → d.getOffset k = .panic := by
  obtain ⟨pack, h1, h2, h3, h4⟩ := foreign_decodes
  obtain ⟨ix, d, e1, e2, e3, e4⟩ := C35_prefix_counts h1 (by omega) (fun b => b.length) _ (by decide +kernel) h3
  obtain ⟨ix', d', f1, f2, -, f3, -⟩ := C34_index_lookup h1 (by omega) (fun b => b.length)
  rw [e1] at f1
  cases f1
  rw [e2] at f2
  cases f2
  exact ⟨pack, h1, ix, d, e1, e2, e3, (e4 33).trans (by decide +kernel), (e4 34).trans (by decide +kernel), f3⟩

/-- C36: the tables do not depend on which object is looked at first. -/
example (r : Res ObjDecodedMap) (h : UpdateFromCache ObjDecodedMap.default mapCache r) : ∃ D D', r = .ok D ∧ UpdateFromCache ObjDecodedMap.default mapCache (.ok D') ∧ D.Same D' := by
  obtain ⟨D', hD⟩ := mapCache_updates
  rcases C36_schedule_independent h hD with ⟨-, e⟩ | ⟨D, D2, rfl, e, hs⟩
  · cases e
  · cases e
    exact ⟨D, D', rfl, hD, hs⟩

/-- C100: a server is started, stopped and started again. -/
example (X : KeyExt) (k k' : X.Key) : ∃ s s', keyRun X (KeySys.new _) [.begin 0 k, .create 0, .accept 0, .write 0] = some s ∧
    keyRun X s [.stop 0, .begin 1 k', .load 1, .accept 1] = some s' ∧ Spec.Presents s 0 k ∧ Spec.Presents s' 1 k ∧ ∀ i, s'.phase i ≠ .failed := by
  have h1 : ∃ s, keyRun X (KeySys.new _) [.begin 0 k, .create 0, .accept 0, .write 0] = some s ∧ Spec.Presents s 0 k ∧
      ∃ s', keyRun X s [.stop 0, .begin 1 k', .load 1, .accept 1] = some s' ∧ Spec.Presents s' 1 k := by
    refine ⟨_, by simp [keyRun, keyStep, KeySys.new, setAt, writeAt]; rfl, ⟨true, by simp [setAt]⟩,
      _, by simp [keyRun, keyStep, setAt, X.from_to]; rfl, ⟨true, by simp [setAt]⟩⟩
  obtain ⟨s, e1, p1, s', e2, p2⟩ := h1
  refine ⟨s, s', e1, e2, p1, p2, (C100_same_key_partial X _ _ s s' ?_ e1 e2).2⟩
  refine ⟨fun j ⟨x, hj⟩ => ?_, fun s1 h1 => ⟨trivial, fun s2 h2 => ⟨trivial, fun s3 h3 => ⟨trivial, fun s4 h4 => ⟨fun ⟨x, hj⟩ => ?_, fun s5 h5 =>
    ⟨fun j ⟨x, hj⟩ => ?_, fun s6 h6 => ⟨trivial, fun s7 h7 => ⟨trivial, fun _ _ => trivial⟩⟩⟩⟩⟩⟩⟩⟩
  · simp [KeySys.new] at hj
  · simp [keyStep, KeySys.new, writeAt] at h1 h2 h3 h4
    subst h1; simp [setAt] at h2
    subst h2; simp [setAt] at h3
    subst h3; simp [setAt] at h4
    subst h4; simp [setAt] at hj
  · simp [keyStep, KeySys.new, writeAt] at h1 h2 h3 h4
    subst h1; simp [setAt] at h2
    subst h2; simp [setAt] at h3
    subst h3; simp [setAt] at h4
    subst h4; simp [keyStep] at h5
    subst h5
    by_cases e : j = 0 <;> simp [setAt, e] at hj

/-- C27: the pack with a delta, decoded and written again (without deltas), decodes to the same objects. -/
example : ∃ pack, decodePack demoExt (fun _ => none) 1 foreignPack = .ok pack ∧ ∃ sig file pack', encodeCache demoExt pack.result = .ok ((pack.result.byHash.length, sig), file) ∧
    decodePack demoExt (fun _ => none) 1 file = .ok pack' ∧ ∀ h, pack'.result.hashObject h = pack.result.hashObject h := by
  obtain ⟨pack, h1, h2, h3, h4⟩ := foreign_decodes
  have hlen : 12 + (encodeEntries demoExt (pack.result.byHash.map Prod.snd)).length ≤ 2 ^ 32 := by
    have hm : ∀ m ∈ pack.result.byHash.map Prod.snd, (MetaData.convertToVec demoExt m).length ≤ 100 := by
      intro m hm
      obtain ⟨q, hq, rfl⟩ := List.mem_map.1 hm
      obtain ⟨p, hp, e1, -⟩ := (h2.byId _ _).1 ((h2.listed q.1 q.2).1 hq)
      rcases List.mem_cons.1 hp with rfl | hp
      · rw [new_metaOf demoExt (.blob, ascii "hello") rfl] at e1
        rw [← Res.ok.inj e1]
        decide +kernel
      · rw [List.mem_singleton] at hp
        subst hp
        rw [new_metaOf demoExt (.blob, ascii "ellp!") rfl] at e1
        rw [← Res.ok.inj e1]
        decide +kernel
    have hl : (pack.result.byHash.map Prod.snd).length ≤ 2 := by simpa using h4
    have key : ∀ ms : List MetaData, (∀ m ∈ ms, (MetaData.convertToVec demoExt m).length ≤ 100) → (encodeEntries demoExt ms).length ≤ 100 * ms.length := by
      intro ms
      induction ms with
      | nil => intro _; simp [encodeEntries]
      | cons m ms ih =>
        intro h
        have h1 := ih fun x hx => h x (List.mem_cons_of_mem _ hx)
        have h2 := h m (by simp)
        unfold encodeEntries at h1 ⊢
        simp only [List.flatMap_cons, List.length_append, List.length_cons]
        omega
    have := key _ hm
    omega
  obtain ⟨sig, file, pack', e1, e2, -, e3⟩ := C27_reencode_decoded demoExt (fun _ => none) pack _ _ h2 (by decide) (by decide) (by omega) hlen 0
  exact ⟨pack, h1, sig, file, pack', e1, e2, e3⟩

/-- C20: the client has a commit that the server knows; it is acknowledged. -/
example : ∃ pack buf, gitUploadPack 3 ⟨fun _ => true, .ok (ascii "PACK"), fun _ _ => .ok (ascii "PACK")⟩ id
      (doneBody [.want exId (ascii " multi_ack_detailed side-band-64k\n"), .have_ exId (ascii "\n")] (ascii "\n") []) = .ok (pack, buf) ∧
    ∃ pkts, Spec.readPkts buf = some pkts ∧ ∀ i ∈ Spec.ackIds pkts, i = hardCodedAck ∨ i = exId := by
  have hok : ∀ l ∈ ([.want exId (ascii " multi_ack_detailed side-band-64k\n"), .have_ exId (ascii "\n")] : List Spec.ReqLine), l.Ok := by
    intro l hl
    simp only [List.mem_cons, List.not_mem_nil, or_false] at hl
    rcases hl with rfl | rfl
    · exact exWant_ok
    · exact exHave_ok
  have h : ∃ pack buf, gitUploadPack 3 ⟨fun _ => true, .ok (ascii "PACK"), fun _ _ => .ok (ascii "PACK")⟩ id
      (doneBody [.want exId (ascii " multi_ack_detailed side-band-64k\n"), .have_ exId (ascii "\n")] (ascii "\n") []) = .ok (pack, buf) := by
    obtain ⟨s, h1, -⟩ := C19_fetch_negotiation _ hok (ascii "\n") [] (by decide)
    have e : ([.want exId (ascii " multi_ack_detailed side-band-64k\n"), .have_ exId (ascii "\n")] : List Spec.ReqLine).length + 1 = 3 := rfl
    rw [e] at h1
    rw [gitUploadPack_of_loop h1]
    unfold fetchAnswer
    split
    · exact ⟨_, _, rfl⟩
    · split
      · exact ⟨_, _, rfl⟩
      · exact ⟨_, _, rfl⟩
  obtain ⟨pack, buf, h⟩ := h
  obtain ⟨pkts, e1, -, e2⟩ := C20_acks_partial _ hok (ascii "\n") [] (by decide) _ id (fun _ _ => .rfl) pack buf h
  refine ⟨pack, buf, h, pkts, e1, fun i hi => ?_⟩
  rcases e2 i hi with e | ⟨e, -⟩ | ⟨e, -⟩
  · exact .inl e
  · exact .inr (by simpa [Spec.wantIds, Spec.haveIds] using e)
  · exact .inr (by simpa [Spec.wantIds, Spec.haveIds] using e)

end Gust

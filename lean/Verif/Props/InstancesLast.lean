import Verif.Props.InstancesMore
import Verif.Props.PackFormat
import Verif.Props.JsonReply
import Verif.Props.PackRobust
import Verif.Props.ObjMap
import Verif.Props.Order
import Verif.Props.Varint
import Verif.Props.Object
import Verif.Props.Codec

/-! # Further concrete instances -/

namespace Gust

/-- An id whose bytes are 0xab. -/
def abHash : Hash := ⟨List.replicate 20 0xab, by simp⟩

/-- C04: the text of the id, and its length. -/
example : Hash.fromBytes (ascii "abababababababababababababababababababab") = some abHash ∧ (Hash.toPlainStr abHash).length = 40 := by
  have h := C04_hash_roundtrip abHash
  rw [show Hash.toPlainStr abHash = ascii "abababababababababababababababababababab" by decide +kernel] at h ⊢
  exact ⟨h.1, h.2.1⟩

/-- C08: two entries are accepted; the same bytes without the last one are not the concatenation of any entries. -/
example : ¬ ∃ items, (∀ i ∈ items, Spec.TreeEntryOk i) ∧ (encodeTree appItems).dropLast = encodeTree items := by
  rw [← C08_tree_accepts_iff]
  rintro ⟨items, h⟩
  have : (match decodeTree (encodeTree appItems).dropLast with | .ok _ => true | _ => false) = false := by decide +kernel
  rw [h] at this
  cases this

/-- C09: the line of an author. -/
example : (AuthorSign.mk (ascii "author") (ascii "A U Thor") (ascii "a@b.c") 1700000000 (ascii "+0130")).encode = ascii "author A U Thor <a@b.c> 1700000000 +0130" := by
  rw [C09_sign_format]
  decide +kernel

/-- C31: a file that is no pack: decoding ends, with any stack. -/
example (X : Ext) (St : ObjectSource) : ∃ r, r.halts ∧ ∀ fuel, 3 < fuel → decodePack X St fuel [0x50, 0x41, 0x43] = r := by
  rcases C31_dichotomy X St [0x50, 0x41, 0x43] with h | h
  · exact h
  · have h1 : (match decodePack X St 1 [0x50, 0x41, 0x43] with | .spin => true | _ => false) = true := by rw [h 1]
    have h2 : (match decodePack X St 1 [0x50, 0x41, 0x43] with | .spin => true | _ => false) = false := rfl
    rw [h2] at h1
    cases h1

/-- C03: a distance of two bytes that survives and one that does not. -/
example (p : Profile) : (∃ bs, writeOffsetEncoding p 300 = .ok bs ∧ ∀ rest, readOffsetEncoding (bs ++ rest) = .ok (300, rest)) ∧
    ¬ ∃ bs, writeOffsetEncoding p 16384 = .ok bs ∧ ∀ rest, readOffsetEncoding (bs ++ rest) = .ok (16384, rest) := by
  rw [C03_offset_roundtrip_iff p 300 (by decide), C03_offset_roundtrip_iff p 16384 (by decide)]
  exact ⟨noZeroGroup_small (by decide), fun h => h 1 (by decide) (by decide) (by decide)⟩

/-- C05: the bytes that are hashed for the blob `one`. -/
example : ∃ dec, Spec.IsDecimal dec 3 ∧ Hash.preimage .blob (ascii "one") = .ok (ascii "blob " ++ dec ++ [0] ++ ascii "one") := by
  rcases C05_preimage_format .blob (ascii "one") with ⟨k, dec, h1, h2, h3⟩ | ⟨h, _⟩
  · have hk : k = 2 := Fin.ext (by have : (3 : Nat) = k.val + 1 := h2; omega)
    subst hk
    exact ⟨dec, h1, h3⟩
  · rcases h with h | h <;> cases h

/-- C06: the two blobs of the examples are stored under different paths. -/
example : MetaData.loosePath (ascii "objects") (idOf polyExt (.blob, ascii "one")) ≠ MetaData.loosePath (ascii "objects") (idOf polyExt (.blob, ascii "two")) := fun h =>
  absurd (C06_loose_path_injective _ _ _ h) (by decide +kernel)

/-- C132: a client that asked for a lock and reads the reply for lock 7 does not read it as one for lock 8. -/
example (v : Json) (s : Bytes) (hd : Spec.JsonDoc v s) (h : Spec.ShowsReply [] v (.lock (newLock trickyPath (ascii "7") (ascii "2023")))) :
    ¬ Spec.ShowsReply [] v (.lock (newLock trickyPath (ascii "8") (ascii "2023"))) := fun h' => by
  have := C132_faithful [] v s hd _ _ (by exact trivial) h h'
  revert this
  decide +kernel

/-- C36: three objects, two of them blobs. At the beginning nobody is done, so some thread can make a step. -/
example : ∃ s', PoolStep [(.blob, 1), (.tree, 2), (.blob, 3)] (PoolState.init Nat) s' :=
  (C36_always_completes [(.blob, 1), (.tree, 2), (.blob, 3)] 0 _ (.refl _)).2.1.resolve_left fun h => nomatch h 0 (by decide)

/-- C58: blobs with different contents that compare as equal are equal. -/
example (c c' : CommitObj) (g g' : TagObj) (b b' : BlobObj) (t t' : TreeObj) (h : c.cmp c' = .eq) (hb : b.eq b' = false) : c.eq c' = true ∧ b.cmp b' ≠ .eq :=
  ⟨(C58_agrees_partial t t' b b' c c' g g').1.1 h, fun e => by
    have := (C58_agrees_partial t t' b b' c c' g g').2.2.2 e
    rw [hb] at this
    cases this⟩

end Gust

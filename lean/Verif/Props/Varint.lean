import Verif.Lemmas.Varint

/-! # C01, C02, C03: variable-length integers -/

namespace Gust

/-- **C01.** Any 64-bit size written as a delta size field is read back, leaving exactly what followed. -/
theorem C01_size_field_roundtrip (n : Nat) (hn : n < 2 ^ 64) (rest : Bytes) :
    readSizeEncoding (writeSizeEncoding n ++ rest) = .ok (n, rest) :=
  readSizeEncoding_write n rest hn

example : writeSizeEncoding 300 = [0xac, 0x02] ∧
    readSizeEncoding (writeSizeEncoding 300 ++ [7, 7]) = .ok (300, [7, 7]) :=
  ⟨by simp [writeSizeEncoding, u8]; decide, C01_size_field_roundtrip 300 (by omega) [7, 7]⟩

/-- **C01** (interoperability). On every byte string whose documented meaning is a value below 2^64 in at most ten
bytes, the reader returns that value and the remaining bytes. -/
theorem C01_size_field_reader_spec (s : Bytes) (v : Nat) (rest : Bytes)
    (h : Spec.sizeField s = some (v, rest)) (hv : v < 2 ^ 64) (hlen : s.length - rest.length ≤ 10) :
    readSizeEncoding s = .ok (v, rest) := by
  have := readSizeLoop_spec s 0 0 v rest (by simp) h (by simpa [U64] using hv) (by omega)
  simpa [readSizeEncoding] using this

example : readSizeEncoding [0x80, 0x80, 0x01, 9] = .ok (16384, [9]) :=
  C01_size_field_reader_spec _ _ _ (by decide) (by omega) (by decide)

/-- **C01** (interoperability of the writer): the written bytes mean `n` in the documented format. -/
theorem C01_size_field_writer_spec (n : Nat) (rest : Bytes) :
    Spec.sizeField (writeSizeEncoding n ++ rest) = some (n, rest) := by
  induction n using Nat.strongRecOn with
  | _ n ih =>
    rw [writeSizeEncoding]
    by_cases h : n >>> 7 > 0
    · have e7 : n >>> 7 = n / 128 := by simp [Nat.shiftRight_eq_div_pow]
      have e1 : (u8 (n &&& 127) ||| 128).toNat = n % 128 + 128 := by
        rw [and_7f]; exact contByte_toNat _ (by omega)
      have hnl : ¬ (n % 128 + 128 < 128) := by omega
      have ih' := ih (n / 128) (by rw [e7] at h; omega)
      rw [dif_pos h, List.cons_append, Spec.sizeField, e1, if_neg hnl, e7, ih']
      simp only
      congr 2
      omega
    · have h' : n < 128 := by
        have : n / 128 = 0 := by simpa [Nat.shiftRight_eq_div_pow] using h
        omega
      have e1 : (u8 (n &&& 127)).toNat = n := by simp [and_7f]; omega
      simp [h, Spec.sizeField, e1, h']

/-- **C02.** The header written for an object of any type and size below 2^61 is read back as the same type number and
size, and reading stops exactly behind it; and the number denotes the same type. -/
theorem C02_entry_header_roundtrip (t : ObjectType) (size : Nat) (hs : size < 2 ^ 61) (rest : Bytes) :
    readTypeAndSize (MetaData.entryHeader t size ++ rest) = .ok ((t.number, size), rest) ∧
      ObjectType.ofNumber t.number = .ok t :=
  ⟨readTypeAndSize_entryHeader t size rest hs, by cases t <;> rfl⟩

example : readTypeAndSize (MetaData.entryHeader .tree 1000 ++ [1, 2, 3]) = .ok ((2, 1000), [1, 2, 3]) :=
  (C02_entry_header_roundtrip .tree 1000 (by omega) _).1

/-- **C02.** The header is a size field of the documented format whose value packs the three type bits above the four
low size bits, so any Git implementation reads the same type and size. -/
theorem C02_entry_header_spec (t : ObjectType) (size : Nat) (rest : Bytes) :
    ∃ v, Spec.sizeField (MetaData.entryHeader t size ++ rest) = some (v, rest) ∧
      v / 16 % 8 = t.number ∧ v % 16 + 16 * (v / 128) = size := by
  refine ⟨t.number * 16 + size % 16 + 128 * (size / 16), ?_, ?_, ?_⟩
  · rw [entryHeader_eq, List.cons_append, Spec.sizeField, and_f, headerByte_toNat t _ (by omega)]
    have e4 : size >>> 4 = size / 16 := by simp [Nat.shiftRight_eq_div_pow]
    have hnl : ¬ (128 + t.number * 16 + size % 16 < 128) := by omega
    simp only [hnl, if_false, e4, C01_size_field_writer_spec]
    refine congrArg (fun v => some (v, rest)) ?_
    omega
  · have ht : t.number < 8 := by cases t <;> simp [ObjectType.number]
    omega
  · have ht : t.number < 8 := by cases t <;> simp [ObjectType.number]
    omega

/-- **C03** (partial: distances without a zero 7-bit group above the lowest one). The distance written in the pack is
the distance read back. Missing: the other distances, for which the claim is false, see `C03_offset_roundtrip_false`. -/
theorem C03_offset_roundtrip_partial (p : Profile) (n : Nat) (hn : n < 2 ^ 64) (h : Spec.NoZeroGroup n)
    (rest : Bytes) :
    ∃ bs, writeOffsetEncoding p n = .ok bs ∧ readOffsetEncoding (bs ++ rest) = .ok (n, rest) :=
  writeOffset_ok p n rest hn h

example : Spec.NoZeroGroup 16600 := by
  rw [noZeroGroup_iff, excess, excess, excess]
  decide

/-- **C03** is false, in both build profiles: distance 16384 is not read back. -/
theorem C03_offset_roundtrip_false (p : Profile) :
    ¬ ∀ n, 1 ≤ n → n < 2 ^ 64 →
      ∃ bs, writeOffsetEncoding p n = .ok bs ∧ readOffsetEncoding bs = .ok (n, []) := by
  intro h
  obtain ⟨bs, h1, h2⟩ := h 16384 (by omega) (by omega)
  have hex : excess (16384 / 128) = 128 := by rw [excess, excess, excess]; decide
  cases p with
  | dev =>
    have := writeOffsetLoop_dev_panic 128 (by rw [show (128:Nat) = 16384 / 128 by rfl, hex]; omega)
    have e7 : 16384 >>> 7 = 128 := by decide
    simp [writeOffsetEncoding, e7, this] at h1
  | release =>
    obtain ⟨bs', h3, h4⟩ := writeOffset_release 16384 (by omega)
    rw [h1] at h3
    cases h3
    have := h4 []
    rw [List.append_nil, h2, hex] at this
    simp at this

/-- **C03**, exactly which distances survive: those without a zero group (for distances below 2^62, far beyond the
4 GiB a pack offset may have). For the others the dev build panics and the release build writes a distance that reads
back as a larger number. -/
theorem C03_offset_roundtrip_iff (p : Profile) (n : Nat) (hn : n < 2 ^ 62) :
    (∃ bs, writeOffsetEncoding p n = .ok bs ∧ ∀ rest, readOffsetEncoding (bs ++ rest) = .ok (n, rest))
      ↔ Spec.NoZeroGroup n := by
  constructor
  · rintro ⟨bs, h1, h2⟩
    rw [noZeroGroup_iff]
    cases p with
    | dev =>
      by_cases he : excess (n / 128) = 0
      · exact he
      · have := writeOffsetLoop_dev_panic (n / 128) he
        have e7 : n >>> 7 = n / 128 := by simp [Nat.shiftRight_eq_div_pow]
        simp [writeOffsetEncoding, e7, this] at h1
    | release =>
      obtain ⟨bs', h3, h4⟩ := writeOffset_release n hn
      rw [h1] at h3
      cases h3
      have := h4 []
      rw [h2 []] at this
      simp only [Res.ok.injEq, Prod.mk.injEq, and_true] at this
      omega
  · intro h
    obtain ⟨bs, h1, _⟩ := writeOffset_ok p n [] (by unfold U64; omega) h
    refine ⟨bs, h1, ?_⟩
    intro rest
    obtain ⟨bs', h1', h2'⟩ := writeOffset_ok p n rest (by unfold U64; omega) h
    rw [h1] at h1'
    cases h1'
    exact h2'

/-- **C03**, reader side: on every byte string whose documented meaning is an offset below 2^64 the reader returns it. -/
theorem C03_offset_reader_spec (s : Bytes) (v : Nat) (rest : Bytes)
    (h : Spec.offsetField s = some (v, rest)) (hv : v < 2 ^ 64) :
    readOffsetEncoding s = .ok (v, rest) :=
  readOffsetEncoding_spec s v rest h hv

example : readOffsetEncoding [0x80, 0x00, 5] = .ok (128, [5]) :=
  C03_offset_reader_spec _ _ _ (by decide) (by omega)

/-- **C03**, overshoot in the release build: for every distance with a zero group the reader gets a strictly larger one. -/
theorem C03_offset_release_overshoots (n : Nat) (hn : n < 2 ^ 62) (h : ¬ Spec.NoZeroGroup n) :
    ∃ bs v, writeOffsetEncoding .release n = .ok bs ∧ readOffsetEncoding bs = .ok (v, []) ∧ n < v := by
  obtain ⟨bs, h1, h2⟩ := writeOffset_release n hn
  rw [noZeroGroup_iff] at h
  refine ⟨bs, _, h1, by simpa using h2 [], by omega⟩

end Gust

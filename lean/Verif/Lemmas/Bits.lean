import Verif.Model.Utils

/-! # Bit-twiddling facts used by the codec proofs -/

namespace Gust

theorem and_7f (n : Nat) : n &&& 0x7f = n % 128 := Nat.and_two_pow_sub_one_eq_mod n 7
theorem and_ff (n : Nat) : n &&& 0xff = n % 256 := Nat.and_two_pow_sub_one_eq_mod n 8
theorem and_f (n : Nat) : n &&& 0xf = n % 16 := Nat.and_two_pow_sub_one_eq_mod n 4
theorem and_one (n : Nat) : n &&& 1 = n % 2 := Nat.and_two_pow_sub_one_eq_mod n 1

@[simp] theorem u8_toNat (n : Nat) : (u8 n).toNat = n % 256 := by
  simp [u8]

theorem keepBits_eq (v b : Nat) : keepBits v b = v % 2 ^ b := by
  simp [keepBits, Nat.shiftLeft_eq, Nat.and_two_pow_sub_one_eq_mod]

/-- adding a low part below a shifted high part is `or` -/
theorem or_shift (v x len : Nat) (h : v < 2 ^ len) : v ||| (x <<< len) = v + x * 2 ^ len := by
  rw [Nat.or_comm, ← Nat.shiftLeft_add_eq_or_of_lt h, Nat.shiftLeft_eq, Nat.add_comm]

theorem shift_or (v x len : Nat) (h : x < 2 ^ len) : (v <<< len) ||| x = v * 2 ^ len + x := by
  rw [← Nat.shiftLeft_add_eq_or_of_lt h, Nat.shiftLeft_eq]

theorem varIntByte_fst (b : UInt8) : (varIntByte b).1 = b.toNat % 128 := by
  have h : (~~~(0x80 : UInt8)) = 0x7f := by decide
  simp only [varIntByte, h, UInt8.toNat_and]
  exact and_7f _

/-- Case analysis over all 256 byte values. -/
theorem forall_byte {P : UInt8 → Prop} (h : ∀ n : Fin 256, P (UInt8.ofFin n)) (b : UInt8) : P b := by
  have := h b.toFin
  simpa using this

theorem varIntByte_snd (b : UInt8) : (varIntByte b).2 = decide (128 ≤ b.toNat) := by
  revert b
  apply forall_byte
  decide +kernel

theorem or_80_toNat (b : UInt8) (h : b.toNat < 128) : (b ||| 0x80).toNat = b.toNat + 128 := by
  revert b
  apply forall_byte
  decide +kernel

end Gust

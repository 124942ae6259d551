import Verif.Base.Res

/-!
# Independent reading of the Git variable-length integer formats

Taken from Documentation/gitformat-pack ("size encoding", "offset encoding"); plain arithmetic, no bit operations,
arbitrary precision. Not used by the model.
-/

namespace Gust.Spec

/-- Size encoding: base-128 digits, least significant first; every byte but the last has its top bit set. -/
def sizeField : Bytes → Option (Nat × Bytes)
  | [] => none
  | b :: s =>
    if b.toNat < 128 then some (b.toNat, s)
    else match sizeField s with
      | none => none
      | some (v, rest) => some (b.toNat - 128 + 128 * v, rest)

/-- The digits of an offset encoding, most significant first, and the bytes after it. -/
def offsetDigits : Bytes → Option (List Nat × Bytes)
  | [] => none
  | b :: s =>
    if b.toNat < 128 then some ([b.toNat], s)
    else match offsetDigits s with
      | none => none
      | some (ds, rest) => some ((b.toNat - 128) :: ds, rest)

/-- Concatenation of 7-bit digits. -/
def concat7 (ds : List Nat) : Nat := ds.foldl (fun a d => 128 * a + d) 0

/-- `2^7 + 2^14 + … + 2^(7(n-1))`. -/
def bias : Nat → Nat
  | 0 => 0
  | 1 => 0
  | n + 2 => bias (n + 1) + 128 ^ (n + 1)

/-- Offset encoding: "the offset is the number constructed by concatenating the lower 7 bits of each byte, and for
n >= 2 adding 2^7 + 2^14 + ... + 2^(7*(n-1)) to the result". -/
def offsetField (s : Bytes) : Option (Nat × Bytes) :=
  match offsetDigits s with
  | none => none
  | some (ds, rest) => some (concat7 ds + bias ds.length, rest)

/-- Every 7-bit group of `n` above the lowest one and up to the leading one is non-zero. -/
def NoZeroGroup (n : Nat) : Prop := ∀ k, 1 ≤ k → 128 ^ k ≤ n → n / 128 ^ k % 128 ≠ 0

end Gust.Spec

import Verif.Base.Res

/-! # Independent vocabulary for hashes and object headers -/

namespace Gust.Spec

/-- The characters `0-9`, `a-f`, `A-F`. -/
def IsHexDigit (c : UInt8) : Prop :=
  c ∈ ([48, 49, 50, 51, 52, 53, 54, 55, 56, 57, 97, 98, 99, 100, 101, 102, 65, 66, 67, 68, 69, 70] : Bytes)

instance (c : UInt8) : Decidable (IsHexDigit c) := by unfold IsHexDigit; infer_instance

/-- ASCII lower case. -/
def lower (c : UInt8) : UInt8 := if 65 ≤ c ∧ c ≤ 90 then c + 32 else c

end Gust.Spec

namespace Gust.Spec

/-- `s` is the usual decimal notation of `n`: digits only, no superfluous leading zero, right value. -/
def IsDecimal (s : Bytes) (n : Nat) : Prop :=
  s ≠ [] ∧ (∀ c ∈ s, 48 ≤ c.toNat ∧ c.toNat ≤ 57) ∧ (s.head? = some 48 → s = [48]) ∧
    s.foldl (fun a c => 10 * a + (c.toNat - 48)) 0 = n

/-- "commit", "tree", "blob", "tag". -/
def typeName (k : Fin 4) : Bytes :=
  match k with
  | 0 => [99, 111, 109, 109, 105, 116]
  | 1 => [116, 114, 101, 101]
  | 2 => [98, 108, 111, 98]
  | 3 => [116, 97, 103]

end Gust.Spec

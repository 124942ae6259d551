import Verif.Spec.Varint
import Verif.Model.Delta

/-!
# Independent meaning of deltas (Documentation/gitformat-pack, "Deltified representation")
-/

namespace Gust.Spec

/-- Delta instructions. -/
inductive Instr
  /-- add these bytes -/
  | lit (bs : Bytes)
  /-- copy `len` bytes of the base from `off` -/
  | copy (off len : Nat)
  deriving DecidableEq

/-- The optional argument bytes of a copy instruction: for each flag, the next byte if set, zero otherwise. -/
def copyArgs : List Bool → Bytes → Option (List Nat × Bytes)
  | [], s => some ([], s)
  | true :: fs, b :: s => (copyArgs fs s).map (fun p => (b.toNat :: p.1, p.2))
  | true :: _, [] => none
  | false :: fs, s => (copyArgs fs s).map (fun p => (0 :: p.1, p.2))

/-- Little-endian value. -/
def le : List Nat → Nat
  | [] => 0
  | d :: ds => d + 256 * le ds

/-- The seven flags of a copy opcode, lowest bit first. -/
def flags (op : Nat) : List Bool := (List.range 7).map (fun i => decide (op / 2 ^ i % 2 = 1))

/-- A size of zero stands for 0x10000. -/
def copySize (n : Nat) : Nat := if n = 0 then 0x10000 else n

/-- `s` is the encoding of the instruction list. -/
inductive DeltaCode : Bytes → List Instr → Prop
  | done : DeltaCode [] []
  | lit (n : UInt8) (bs rest : Bytes) (is : List Instr) : 1 ≤ n.toNat → n.toNat ≤ 127 → bs.length = n.toNat →
      DeltaCode rest is → DeltaCode (n :: (bs ++ rest)) (.lit bs :: is)
  | copy (op : UInt8) (s rest : Bytes) (offs sizes : List Nat) (is : List Instr) : 128 ≤ op.toNat →
      copyArgs (flags op.toNat) s = some (offs ++ sizes, rest) → offs.length = 4 → sizes.length = 3 →
      DeltaCode rest is → DeltaCode (op :: s) (.copy (le offs) (copySize (le sizes)) :: is)

/-- Output of one instruction; a copy must lie inside the base. -/
def Instr.run (base : Bytes) : Instr → Option Bytes
  | .lit bs => some bs
  | .copy off len => if off + len ≤ base.length then some ((base.drop off).take len) else none

/-- Output of an instruction list. -/
def runAll (base : Bytes) : List Instr → Option Bytes
  | [] => some []
  | i :: is =>
    match i.run base, runAll base is with
    | some a, some b => some (a ++ b)
    | _, _ => none

/-- A size field in 64-bit arithmetic: at most ten bytes, bits beyond 64 dropped. -/
def sizeField64 (s : Bytes) : Option (Nat × Bytes) :=
  match sizeField s with
  | some (v, rest) => if s.length - rest.length ≤ 10 then some (v % 2 ^ 64, rest) else none
  | none => none

/-- `delta` transforms a base of content `base` into `out`. -/
def DeltaMeans (base delta out : Bytes) : Prop :=
  ∃ s₁ s₂ is, sizeField64 delta = some (base.length, s₁) ∧ sizeField64 s₁ = some (out.length, s₂) ∧
    DeltaCode s₂ is ∧ runAll base is = some out

/-- The reported edit events describe how to obtain `new` from position `j` on: `equal` ranges really are equal, and the
equal and inserted ranges are non-empty and tile `new` in order. (Nothing is asked of deletions nor of the order of
ranges in `old`.) -/
def ValidScript (old new : Bytes) : Nat → List DiffEvent → Prop
  | j, [] => j = new.length
  | j, .equal o n l :: es => n = j ∧ 0 < l ∧ o + l ≤ old.length ∧ j + l ≤ new.length ∧
      (old.drop o).take l = (new.drop j).take l ∧ ValidScript old new (j + l) es
  | j, .insert _ n l :: es => n = j ∧ 0 < l ∧ j + l ≤ new.length ∧ ValidScript old new (j + l) es
  | j, .delete _ _ _ :: es => ValidScript old new j es

end Gust.Spec

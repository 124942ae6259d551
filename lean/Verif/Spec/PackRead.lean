import Verif.Spec.Pack

/-!
# What stands at an offset of a file

Like `Spec.Entries` and `Spec.Denotes`, but for any bytes: it is not asked that a delta begins with the size its header announces, nor that its base is the beginning of an entry.
-/

namespace Gust.Spec

/-- Entry header: type and size, in 64-bit arithmetic. -/
def EntryHead (s : Bytes) (kind size : Nat) (rest : Bytes) : Prop :=
  ∃ v, sizeField64 s = some (v, rest) ∧ v / 16 % 8 = kind ∧ v % 16 + 16 * (v / 128) = size

/-- At offset `off` of the file stands the object, and `rest` follows: an object stored whole, or a delta against what stands at an offset before, against an object somewhere in the
file, or against a known object. -/
inductive Stands (inflate : Bytes → Option (Bytes × Bytes)) (idOf : Obj → Hash) (known : Hash → Option Obj) (file : Bytes) : Nat → Obj → Bytes → Prop
  | whole (off k : Nat) (r d rest : Bytes) (t : ObjectType) : EntryHead (file.drop off) k d.length r → kindOf k = some t → inflate r = some (d, rest) →
      Stands inflate idOf known file off (t, d) rest
  | ofs (off size w : Nat) (r r' delta rest b base out : Bytes) (t : ObjectType) : EntryHead (file.drop off) 6 size r → offsetField r = some (w, r') → w % 2 ^ 64 ≤ off →
      Stands inflate idOf known file (off - w % 2 ^ 64) (t, base) b → inflate r' = some (delta, rest) → DeltaMeans base delta out →
      Stands inflate idOf known file off (t, out) rest
  | refIn (off off' size : Nat) (h : Hash) (r delta rest b base out : Bytes) (t : ObjectType) : EntryHead (file.drop off) 7 size (h.1 ++ r) →
      Stands inflate idOf known file off' (t, base) b → idOf (t, base) = h → inflate r = some (delta, rest) → DeltaMeans base delta out →
      Stands inflate idOf known file off (t, out) rest
  | refOut (off size : Nat) (h : Hash) (r delta rest base out : Bytes) (t : ObjectType) : EntryHead (file.drop off) 7 size (h.1 ++ r) → known h = some (t, base) →
      inflate r = some (delta, rest) → DeltaMeans base delta out → Stands inflate idOf known file off (t, out) rest

/-- From offset `off` on stand these objects one behind the other (each with its offset), up to the offset `stop`. -/
inductive Row (inflate : Bytes → Option (Bytes × Bytes)) (idOf : Obj → Hash) (known : Hash → Option Obj) (file : Bytes) : Nat → List (Nat × Obj) → Nat → Prop
  | nil (off : Nat) : Row inflate idOf known file off [] off
  | cons (off stop : Nat) (o : Obj) (rest : Bytes) (os : List (Nat × Obj)) : Stands inflate idOf known file off o rest → rest = file.drop (file.length - rest.length) →
      off < file.length - rest.length → Row inflate idOf known file (file.length - rest.length) os stop → Row inflate idOf known file off ((off, o) :: os) stop

end Gust.Spec

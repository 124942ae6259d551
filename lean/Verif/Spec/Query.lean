import Verif.Model.Query
import Verif.Spec.Json

/-! # What C146 asks for: query strings as clients write them (`application/x-www-form-urlencoded`, RFC 3986) -/

namespace Gust

/-- A text as it may stand in a query string: bytes that stand for themselves, `+` for a space, `%` with two hexadecimal digits for any byte. -/
inductive Spec.Written : Bytes → Bytes → Prop
  | nil : Spec.Written [] []
  | plain (c : UInt8) (raw v : Bytes) : c ≠ 0x25 → c ≠ 0x2b → c ≠ 0x26 → Spec.Written raw v → Spec.Written (c :: raw) (c :: v)
  | plus (raw v : Bytes) : Spec.Written raw v → Spec.Written (0x2b :: raw) (0x20 :: v)
  | code (a b : UInt8) (x y : Nat) (raw v : Bytes) : Spec.HexDigit a x → Spec.HexDigit b y → Spec.Written raw v →
      Spec.Written (0x25 :: a :: b :: raw) (UInt8.ofNat (x * 16 + y) :: v)

/-- One piece of a query string: nothing, `name=value`, or a name alone (an empty value). -/
inductive Spec.Piece : Bytes → List (Bytes × Bytes) → Prop
  | empty : Spec.Piece [] []
  | pair (n v name value : Bytes) : Spec.Written n name → Spec.Written v value → (0x3d : UInt8) ∉ n → Spec.Piece (n ++ 0x3d :: v) [(name, value)]
  | name (n name : Bytes) : Spec.Written n name → (0x3d : UInt8) ∉ n → n ≠ [] → Spec.Piece n [(name, [])]

/-- A query string and the parameters it gives, in order. -/
inductive Spec.QueryText : Bytes → List (Bytes × Bytes) → Prop
  | last (raw : Bytes) (l : List (Bytes × Bytes)) : Spec.Piece raw l → Spec.QueryText raw l
  | more (raw : Bytes) (l : List (Bytes × Bytes)) (q : Bytes) (ps : List (Bytes × Bytes)) :
      Spec.Piece raw l → Spec.QueryText q ps → Spec.QueryText (raw ++ 0x26 :: q) (l ++ ps)

/-- The names of parameters that the server knows. -/
def Spec.known : List Bytes := [ascii "service", ascii "refspec", ascii "id", ascii "path", ascii "limit", ascii "cursor"]

/-- The value given to a name. -/
def Spec.given (ps : List (Bytes × Bytes)) (name : Bytes) : Option Bytes := (ps.find? (fun p => p.1 == name)).map Prod.snd

/-- How often a name is given. -/
def Spec.times (ps : List (Bytes × Bytes)) (name : Bytes) : Nat := (ps.map Prod.fst).count name

end Gust

import Verif.Model.Json

/-! # The grammar of JSON texts (RFC 8259)

Written down as in the RFC: a relation between values and texts, without a scanner. -/

namespace Gust

/-- RFC 8259, section 2: white space. -/
def Spec.JsonWs (w : Bytes) : Prop := ∀ b ∈ w, b = 0x20 ∨ b = 0x09 ∨ b = 0x0a ∨ b = 0x0d

/-- A hexadecimal digit. -/
def Spec.JsonHex (b : UInt8) : Prop := (0x30 ≤ b ∧ b ≤ 0x39) ∨ (0x41 ≤ b ∧ b ≤ 0x46) ∨ (0x61 ≤ b ∧ b ≤ 0x66)

/-- RFC 8259, section 7: what may stand between quotation marks. -/
inductive Spec.JsonChars : Bytes → Prop
  | nil : Spec.JsonChars []
  | plain (b : UInt8) (s : Bytes) : 0x20 ≤ b → b ≠ 0x22 → b ≠ 0x5c → Spec.JsonChars s → Spec.JsonChars (b :: s)
  | esc (e : UInt8) (s : Bytes) : e ∈ ascii "\"\\/bfnrt" → Spec.JsonChars s → Spec.JsonChars (0x5c :: e :: s)
  | uni (a b c d : UInt8) (s : Bytes) : Spec.JsonHex a → Spec.JsonHex b → Spec.JsonHex c → Spec.JsonHex d → Spec.JsonChars s →
      Spec.JsonChars (0x5c :: 0x75 :: a :: b :: c :: d :: s)

/-- Decimal digits, at least one. -/
def Spec.JsonDigits (d : Bytes) : Prop := d ≠ [] ∧ ∀ b ∈ d, 0x30 ≤ b ∧ b ≤ 0x39

/-- RFC 8259, section 6: numbers. -/
def Spec.JsonNum (l : Bytes) : Prop :=
  ∃ sign int frac exp, l = sign ++ int ++ frac ++ exp ∧
    (sign = [] ∨ sign = ascii "-") ∧
    (Spec.JsonDigits int ∧ (int.head? = some 0x30 → int = ascii "0")) ∧
    (frac = [] ∨ ∃ d, Spec.JsonDigits d ∧ frac = ascii "." ++ d) ∧
    (exp = [] ∨ ∃ e g d, (e = ascii "e" ∨ e = ascii "E") ∧ (g = [] ∨ g = ascii "+" ∨ g = ascii "-") ∧ Spec.JsonDigits d ∧ exp = e ++ g ++ d)

/-- A value, or the elements between brackets, or the members between braces. -/
inductive Spec.JsonPart
  | value (v : Json)
  | elems (l : List Json)
  | members (l : List (Bytes × Json))

/-- RFC 8259, sections 3 to 5: the texts of a value. Texts of values have no white space around them, those of elements and members may. -/
inductive Spec.JsonText : Spec.JsonPart → Bytes → Prop
  | null : Spec.JsonText (.value .null) (ascii "null")
  | true : Spec.JsonText (.value (.bool true)) (ascii "true")
  | false : Spec.JsonText (.value (.bool false)) (ascii "false")
  | num (l : Bytes) : Spec.JsonNum l → Spec.JsonText (.value (.num l)) l
  | str (raw : Bytes) : Spec.JsonChars raw → Spec.JsonText (.value (.str raw)) (ascii "\"" ++ raw ++ ascii "\"")
  | emptyArr (w : Bytes) : Spec.JsonWs w → Spec.JsonText (.value (.arr [])) (ascii "[" ++ w ++ ascii "]")
  | arr (l : List Json) (t : Bytes) : Spec.JsonText (.elems l) t → Spec.JsonText (.value (.arr l)) (ascii "[" ++ t ++ ascii "]")
  | emptyObj (w : Bytes) : Spec.JsonWs w → Spec.JsonText (.value (.obj [])) (ascii "{" ++ w ++ ascii "}")
  | obj (l : List (Bytes × Json)) (t : Bytes) : Spec.JsonText (.members l) t → Spec.JsonText (.value (.obj l)) (ascii "{" ++ t ++ ascii "}")
  | lastElem (v : Json) (w t w' : Bytes) : Spec.JsonWs w → Spec.JsonText (.value v) t → Spec.JsonWs w' → Spec.JsonText (.elems [v]) (w ++ t ++ w')
  | elem (v : Json) (l : List Json) (w t w' ts : Bytes) : Spec.JsonWs w → Spec.JsonText (.value v) t → Spec.JsonWs w' → Spec.JsonText (.elems l) ts →
      Spec.JsonText (.elems (v :: l)) (w ++ t ++ w' ++ ascii "," ++ ts)
  | lastMember (k : Bytes) (v : Json) (w1 w2 w3 t w4 : Bytes) : Spec.JsonWs w1 → Spec.JsonChars k → Spec.JsonWs w2 → Spec.JsonWs w3 → Spec.JsonText (.value v) t →
      Spec.JsonWs w4 → Spec.JsonText (.members [(k, v)]) (w1 ++ ascii "\"" ++ k ++ ascii "\"" ++ w2 ++ ascii ":" ++ w3 ++ t ++ w4)
  | member (k : Bytes) (v : Json) (l : List (Bytes × Json)) (w1 w2 w3 t w4 ts : Bytes) : Spec.JsonWs w1 → Spec.JsonChars k → Spec.JsonWs w2 → Spec.JsonWs w3 →
      Spec.JsonText (.value v) t → Spec.JsonWs w4 → Spec.JsonText (.members l) ts →
      Spec.JsonText (.members ((k, v) :: l)) (w1 ++ ascii "\"" ++ k ++ ascii "\"" ++ w2 ++ ascii ":" ++ w3 ++ t ++ w4 ++ ascii "," ++ ts)

/-- A JSON text: a value with white space around it. -/
def Spec.JsonDoc (v : Json) (s : Bytes) : Prop :=
  ∃ w t w', Spec.JsonWs w ∧ Spec.JsonText (.value v) t ∧ Spec.JsonWs w' ∧ s = w ++ t ++ w'

/-- The content of a text (RFC 8259, section 7): plain bytes stand for themselves, escapes for a character; characters outside the basic plane are two escapes. `Spec.Utf8 n c`: the bytes `c` are the UTF-8
form of the scalar value `n` (RFC 3629). -/
inductive Spec.Utf8 : Nat → Bytes → Prop
  | one (n : Nat) : n < 0x80 → Spec.Utf8 n [UInt8.ofNat n]
  | two (x y : Nat) : 2 ≤ x → x < 32 → y < 64 → Spec.Utf8 (x * 64 + y) [UInt8.ofNat (0xc0 + x), UInt8.ofNat (0x80 + y)]
  | three (x y z : Nat) : x < 16 → y < 64 → z < 64 → (x = 0 → 32 ≤ y) → (x = 13 → y < 32) →
      Spec.Utf8 ((x * 64 + y) * 64 + z) [UInt8.ofNat (0xe0 + x), UInt8.ofNat (0x80 + y), UInt8.ofNat (0x80 + z)]
  | four (x y z u : Nat) : x < 5 → y < 64 → z < 64 → u < 64 → (x = 0 → 16 ≤ y) → (x = 4 → y < 16) →
      Spec.Utf8 (((x * 64 + y) * 64 + z) * 64 + u) [UInt8.ofNat (0xf0 + x), UInt8.ofNat (0x80 + y), UInt8.ofNat (0x80 + z), UInt8.ofNat (0x80 + u)]

/-- The characters that have an escape of their own. -/
def Spec.escapes : List (UInt8 × Nat) :=
  [(0x22, 0x22), (0x5c, 0x5c), (0x2f, 0x2f), (0x62, 0x08), (0x66, 0x0c), (0x6e, 0x0a), (0x72, 0x0d), (0x74, 0x09)]

/-- The value of a hexadecimal digit. -/
def Spec.HexDigit (b : UInt8) (n : Nat) : Prop :=
  n < 16 ∧ (b.toNat = 0x30 + n ∧ n < 10 ∨ b.toNat = 0x37 + n ∧ 10 ≤ n ∨ b.toNat = 0x57 + n ∧ 10 ≤ n)

/-- A backslash, `u` and the four hexadecimal digits of a number. -/
def Spec.Escape (s : Bytes) (n : Nat) : Prop :=
  ∃ a b c d x y z u, s = [0x5c, 0x75, a, b, c, d] ∧ Spec.HexDigit a x ∧ Spec.HexDigit b y ∧ Spec.HexDigit c z ∧ Spec.HexDigit d u ∧
    n = x * 4096 + y * 256 + z * 16 + u

/-- `Spec.JsonReads raw c`: between quotation marks, `raw` stands for the characters whose UTF-8 form is `c`. -/
inductive Spec.JsonReads : Bytes → Bytes → Prop
  | nil : Spec.JsonReads [] []
  | char (n : Nat) (c : Bytes) (raw t : Bytes) : Spec.Utf8 n c → 0x20 ≤ n → n ≠ 0x22 → n ≠ 0x5c → Spec.JsonReads raw t → Spec.JsonReads (c ++ raw) (c ++ t)
  | esc (e : UInt8) (n : Nat) (c : Bytes) (raw t : Bytes) : (e, n) ∈ Spec.escapes → Spec.Utf8 n c → Spec.JsonReads raw t → Spec.JsonReads (0x5c :: e :: raw) (c ++ t)
  | uni (n : Nat) (s c raw t : Bytes) : Spec.Escape s n → Spec.Utf8 n c → Spec.JsonReads raw t → Spec.JsonReads (s ++ raw) (c ++ t)
  | pair (h l : Nat) (s s' c raw t : Bytes) : Spec.Escape s (0xd800 + h) → Spec.Escape s' (0xdc00 + l) → h < 1024 → l < 1024 → Spec.Utf8 (0x10000 + h * 1024 + l) c →
      Spec.JsonReads raw t → Spec.JsonReads (s ++ s' ++ raw) (c ++ t)

end Gust

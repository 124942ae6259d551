import Verif.Model.Utils

/-!
# Text primitives of the Rust standard library used throughout

`to_string` on integers, `{:x}`, `str::parse`, `from_str_radix`, `find_byte`, `find`, `split`.
Strings are byte lists.
-/

namespace Gust

/-- ASCII text as bytes (used for literals in the source). -/
def ascii (s : String) : Bytes := s.toList.map (fun c => UInt8.ofNat c.toNat)

/-- Digits of `n` in base `b`, most significant first, at least one digit. -/
def toDigits (b n : Nat) : List Nat :=
  if _h : n < b ∨ b < 2 then [n] else toDigits b (n / b) ++ [n % b]
termination_by n
decreasing_by
  exact Nat.div_lt_self (by omega) (by omega)

/-- One lower-case digit character (`0-9`, then `a-f`). -/
def digitChar (d : Nat) : UInt8 := if d < 10 then u8 (48 + d) else u8 (87 + d)

/-- `n.to_string()` for an unsigned integer. -/
def decStr (n : Nat) : Bytes := (toDigits 10 n).map digitChar

/-- `format!("{:x}", n)`. -/
def hexStr (n : Nat) : Bytes := (toDigits 16 n).map digitChar

/-- `format!("{:04x}", n)`: zero padded to width four, never truncated. -/
def hex4 (n : Nat) : Bytes :=
  let d := hexStr n
  List.replicate (4 - d.length) 48 ++ d

/-- Value of a hexadecimal digit character: `Hash::hex_char_value`, `/repo/src/git/hash.rs` 98-105,
and `char::to_digit(16)` used by `from_str_radix`. -/
def hexCharValue (c : UInt8) : Option Nat :=
  if 48 ≤ c.toNat ∧ c.toNat ≤ 57 then some (c.toNat - 48)
  else if 97 ≤ c.toNat ∧ c.toNat ≤ 102 then some (c.toNat - 97 + 10)
  else if 65 ≤ c.toNat ∧ c.toNat ≤ 70 then some (c.toNat - 65 + 10)
  else none

/-- Value of a decimal digit character: `char::to_digit(10)`; also `decimal_char_value`,
`/repo/src/git/object/delta.rs` 182-187. -/
def decCharValue (c : UInt8) : Option Nat :=
  if 48 ≤ c.toNat ∧ c.toNat ≤ 57 then some (c.toNat - 48) else none

/-- Accumulate digits, most significant first. -/
def parseDigits (dv : UInt8 → Option Nat) (b : Nat) : (acc : Nat) → Bytes → Option Nat
  | acc, [] => some acc
  | acc, c :: s =>
    match dv c with
    | none => none
    | some d => parseDigits dv b (acc * b + d) s

/-- Skip one leading `+`. -/
def stripPlus : Bytes → Bytes
  | [] => []
  | c :: rest => if c = 43 then rest else c :: rest

/-- `usize::from_str_radix` / `str::parse::<usize>`: an optional `+`, at least one digit, value below 2^64.
(std checks overflow after each digit; as the accumulator never decreases this is the same as checking the result.) -/
def parseUnsigned (dv : UInt8 → Option Nat) (b : Nat) (s : Bytes) : Option Nat :=
  let digits := stripPlus s
  if digits = [] then none
  else match parseDigits dv b 0 digits with
    | some v => if v < U64 then some v else none
    | none => none

/-- `s.parse::<usize>().ok()`. -/
def parseUsize (s : Bytes) : Option Nat := parseUnsigned decCharValue 10 s

/-- `usize::from_str_radix(s, 16).ok()`. -/
def parseHexUsize (s : Bytes) : Option Nat := parseUnsigned hexCharValue 16 s

/-- `data.find_byte(b)` (bstr): index of the first occurrence. -/
def findByte (b : UInt8) (data : Bytes) : Option Nat := data.findIdx? (· == b)

/-- `data.find(pat)` (bstr / str): index of the first occurrence of a substring. -/
def findSub (pat : Bytes) : Bytes → Option Nat
  | [] => if pat = [] then some 0 else none
  | c :: s => if pat.isPrefixOf (c :: s) then some 0 else (findSub pat s).map (· + 1)

/-- `std::str::from_utf8(..).is_ok()`: well-formed UTF-8 (no overlong forms, no surrogates, at most U+10FFFF),
the table of the Unicode standard that `core::str::validations` implements. -/
def utf8Valid : Bytes → Bool
  | [] => true
  | a :: s =>
    let cont (b : UInt8) : Bool := 0x80 ≤ b && b ≤ 0xBF
    if a < 0x80 then utf8Valid s
    else if 0xC2 ≤ a ∧ a ≤ 0xDF then
      match s with
      | b :: s' => cont b && utf8Valid s'
      | _ => false
    else if 0xE0 ≤ a ∧ a ≤ 0xEF then
      match s with
      | b :: c :: s' =>
        (if a = 0xE0 then 0xA0 ≤ b && b ≤ 0xBF
         else if a = 0xED then 0x80 ≤ b && b ≤ 0x9F
         else cont b) && cont c && utf8Valid s'
      | _ => false
    else if 0xF0 ≤ a ∧ a ≤ 0xF4 then
      match s with
      | b :: c :: d :: s' =>
        (if a = 0xF0 then 0x90 ≤ b && b ≤ 0xBF
         else if a = 0xF4 then 0x80 ≤ b && b ≤ 0x8F
         else cont b) && cont c && cont d && utf8Valid s'
      | _ => false
    else false

end Gust

import Verif.Model.Server
import Verif.Model.Schema

/-! # JSON texts as `serde_json` reads them, and the requests of `/repo/src/git/lfs/structs.rs`

`serde_json::from_slice` reads the fields of a `struct` while it scans the text. Here a text is first split into a value, in which texts and numbers stay as they are written, and the fields are read from
the value afterwards; both ways fail for the same texts, and a failure is all that the handlers look at (they unwrap). `serde_json` limits the nesting of arrays and objects that it reads (128) but not of
those that it skips; the requests are never nested more than four deep, so there is no limit here. -/

namespace Gust

/-- A JSON value; numbers and texts as they are written (texts without the quotation marks). -/
inductive Json
  | null
  | bool (b : Bool)
  | num (lexeme : Bytes)
  | str (raw : Bytes)
  | arr (l : List Json)
  | obj (l : List (Bytes × Json))

/-! ## Scanning (`serde_json`, `de.rs` and `read.rs`) -/

/-- `parse_whitespace`: space, tab, line feed, carriage return. -/
def jsonWs (b : UInt8) : Bool := b == 0x20 || b == 0x09 || b == 0x0a || b == 0x0d

/-- Behind white space. -/
def skipWs (s : Bytes) : Bytes := s.dropWhile jsonWs

/-- Hexadecimal digit. -/
def jsonHex (b : UInt8) : Bool := (hexCharValue b).isSome

/-- `"\/bfnrt`: what may follow a backslash, besides `u`. -/
def jsonSimple (b : UInt8) : Bool :=
  b == 0x22 || b == 0x5c || b == 0x2f || b == 0x62 || b == 0x66 || b == 0x6e || b == 0x72 || b == 0x74

/-- The text up to the closing quotation mark (`ignore_str`), and what is behind it. -/
def scanStr : Bytes → Option (Bytes × Bytes)
  | [] => none
  | c :: s =>
    if c = 0x22 then some ([], s)
    else if c = 0x5c then
      match s with
      | [] => none
      | e :: s1 =>
        if e = 0x75 then
          match s1 with
          | h1 :: h2 :: h3 :: h4 :: s2 =>
            if jsonHex h1 && jsonHex h2 && jsonHex h3 && jsonHex h4 then (scanStr s2).map (fun p => (c :: e :: h1 :: h2 :: h3 :: h4 :: p.1, p.2)) else none
          | _ => none
        else if jsonSimple e then (scanStr s1).map (fun p => (c :: e :: p.1, p.2)) else none
    else if c < 0x20 then none
    else (scanStr s).map (fun p => (c :: p.1, p.2))

/-- Decimal digit. -/
def jsonDigit (b : UInt8) : Bool := 0x30 ≤ b && b ≤ 0x39

/-- Decimal digits, at least one (the decimals and the exponent of a number). -/
def scanDigits (s : Bytes) : Option (Bytes × Bytes) :=
  if s.takeWhile jsonDigit = [] then none else some (s.takeWhile jsonDigit, s.dropWhile jsonDigit)

/-- The sign. -/
def scanSign (s : Bytes) : Bytes × Bytes :=
  match s with
  | c :: r => if c = 0x2d then ([c], r) else ([], s)
  | [] => ([], s)

/-- The digits before the point: `0` alone or no leading zero. -/
def scanInt (s : Bytes) : Option (Bytes × Bytes) :=
  match scanDigits s with
  | some (d, r) => if d.head? = some 0x30 ∧ d.length ≠ 1 then none else some (d, r)
  | none => none

/-- `.` and digits, if there is a point. -/
def scanFrac (s : Bytes) : Option (Bytes × Bytes) :=
  match s with
  | c :: r => if c = 0x2e then (scanDigits r).map (fun p => (c :: p.1, p.2)) else some ([], s)
  | [] => some ([], s)

/-- `e` or `E`, a sign, and digits, if there is an exponent. -/
def scanExp (s : Bytes) : Option (Bytes × Bytes) :=
  match s with
  | c :: r =>
    if c = 0x65 ∨ c = 0x45 then
      match r with
      | g :: r1 =>
        if g = 0x2b ∨ g = 0x2d then (scanDigits r1).map (fun p => (c :: g :: p.1, p.2)) else (scanDigits r).map (fun p => (c :: p.1, p.2))
      | [] => none
    else some ([], s)
  | [] => some ([], s)

/-- A number (`ignore_number`). -/
def scanNum (s : Bytes) : Option (Bytes × Bytes) := do
  let (d, r) ← scanInt (scanSign s).2
  let (f, r) ← scanFrac r
  let (e, r) ← scanExp r
  pure ((scanSign s).1 ++ d ++ f ++ e, r)

/-- The elements of an array up to the closing bracket, given the scanner for one value. Fuel replaces the loop; one step per byte is enough. -/
def scanElems (value : Bytes → Option (Json × Bytes)) : Nat → Bytes → Option (List Json × Bytes)
  | 0, _ => none
  | fuel + 1, s =>
    match value s with
    | none => none
    | some (v, r) =>
      match skipWs r with
      | [] => none
      | c :: r1 =>
        if c = 0x5d then some ([v], r1)
        else if c = 0x2c then (scanElems value fuel r1).map (fun p => (v :: p.1, p.2))
        else none

/-- The members of an object up to the closing brace. -/
def scanMembers (value : Bytes → Option (Json × Bytes)) : Nat → Bytes → Option (List (Bytes × Json) × Bytes)
  | 0, _ => none
  | fuel + 1, s =>
    if (skipWs s).head? = some 0x22 then
      match scanStr (skipWs s).tail with
      | none => none
      | some (k, r) =>
        if (skipWs r).head? = some 0x3a then
          match value (skipWs r).tail with
          | none => none
          | some (v, r) =>
            match skipWs r with
            | [] => none
            | c :: r1 =>
              if c = 0x7d then some ([(k, v)], r1)
              else if c = 0x2c then (scanMembers value fuel r1).map (fun p => ((k, v) :: p.1, p.2))
              else none
        else none
    else none

/-- A value behind white space, and what is behind it (`ignore_value`, `deserialize_any`). Fuel replaces the recursion; `parseJson` gives enough. -/
def scanValue : Nat → Bytes → Option (Json × Bytes)
  | 0, _ => none
  | fuel + 1, s =>
    match skipWs s with
    | [] => none
    | c :: r =>
      if c = 0x6e then (if (ascii "ull").isPrefixOf r then some (.null, r.drop 3) else none)
      else if c = 0x74 then (if (ascii "rue").isPrefixOf r then some (.bool true, r.drop 3) else none)
      else if c = 0x66 then (if (ascii "alse").isPrefixOf r then some (.bool false, r.drop 4) else none)
      else if c = 0x22 then (scanStr r).map (fun p => (.str p.1, p.2))
      else if c = 0x5b then
        (if (skipWs r).head? = some 0x5d then some (.arr [], (skipWs r).tail) else (scanElems (scanValue fuel) fuel r).map (fun p => (.arr p.1, p.2)))
      else if c = 0x7b then
        (if (skipWs r).head? = some 0x7d then some (.obj [], (skipWs r).tail) else (scanMembers (scanValue fuel) fuel r).map (fun p => (.obj p.1, p.2)))
      else (scanNum (c :: r)).map (fun p => (.num p.1, p.2))

/-- A text that is one value, with white space around it (`Deserializer::end`). -/
def parseJson (s : Bytes) : Option Json :=
  match scanValue (s.length + 1) s with
  | some (v, r) => if skipWs r = [] then some v else none
  | none => none

/-! ## Texts and numbers -/

/-- The value of four hexadecimal digits. -/
def hexQuad (a b c d : UInt8) : Nat :=
  (((hexCharValue a).getD 0 * 16 + (hexCharValue b).getD 0) * 16 + (hexCharValue c).getD 0) * 16 + (hexCharValue d).getD 0

/-- `char::encode_utf8`. -/
def utf8Encode (n : Nat) : Bytes :=
  if n < 0x80 then [UInt8.ofNat n]
  else if n < 0x800 then [UInt8.ofNat (0xc0 + n / 64), UInt8.ofNat (0x80 + n % 64)]
  else if n < 0x10000 then [UInt8.ofNat (0xe0 + n / 4096), UInt8.ofNat (0x80 + n / 64 % 64), UInt8.ofNat (0x80 + n % 64)]
  else [UInt8.ofNat (0xf0 + n / 262144), UInt8.ofNat (0x80 + n / 4096 % 64), UInt8.ofNat (0x80 + n / 64 % 64), UInt8.ofNat (0x80 + n % 64)]

/-- The byte that a backslash and a letter stand for. -/
def simpleEsc (e : UInt8) : UInt8 :=
  if e = 0x62 then 0x08 else if e = 0x66 then 0x0c else if e = 0x6e then 0x0a else if e = 0x72 then 0x0d else if e = 0x74 then 0x09 else e

/-- `parse_escape` over a whole text: escapes are replaced; single surrogates are errors. -/
def unescape : Bytes → Option Bytes
  | [] => some []
  | c :: s =>
    if c = 0x5c then
      match s with
      | [] => none
      | e :: s1 =>
        if e = 0x75 then
          match s1 with
          | h1 :: h2 :: h3 :: h4 :: s2 =>
            let n := hexQuad h1 h2 h3 h4
            if 0xdc00 ≤ n ∧ n ≤ 0xdfff then none
            else if 0xd800 ≤ n ∧ n ≤ 0xdbff then
              match s2 with
              | b :: u :: k1 :: k2 :: k3 :: k4 :: s3 =>
                let n2 := hexQuad k1 k2 k3 k4
                if b = 0x5c ∧ u = 0x75 ∧ 0xdc00 ≤ n2 ∧ n2 ≤ 0xdfff then
                  (unescape s3).map (fun t => utf8Encode (0x10000 + (n - 0xd800) * 1024 + (n2 - 0xdc00)) ++ t)
                else none
              | _ => none
            else (unescape s2).map (fun t => utf8Encode n ++ t)
          | _ => none
        else (unescape s1).map (fun t => simpleEsc e :: t)
    else (unescape s).map (fun t => c :: t)

/-- The content of a text: `String` is checked to be UTF-8. -/
def jsonContent (raw : Bytes) : Option Bytes :=
  match unescape raw with
  | some t => if utf8Valid t then some t else none
  | none => none

/-- A `String`. -/
def Json.text : Json → Option Bytes
  | .str raw => jsonContent raw
  | _ => none

/-- A `bool`. -/
def Json.flag : Json → Option Bool
  | .bool b => some b
  | _ => none

/-- An `i64`: numbers with a point or an exponent, `-0`, and numbers that do not fit are floating point numbers to `serde_json` and refused. -/
def lexemeI64 (l : Bytes) : Option Int :=
  let (sign, d) := scanSign l
  if d.all jsonDigit then
    match parseDigits decCharValue 10 0 d with
    | some v =>
      if sign = [] then (if v < 2 ^ 63 then some (v : Int) else none)
      else (if v ≠ 0 ∧ v ≤ 2 ^ 63 then some (-(v : Int)) else none)
    | none => none
  else none

/-- An `i64`. -/
def Json.int : Json → Option Int
  | .num l => lexemeI64 l
  | _ => none

/-- A `Vec`. -/
def Json.vec {α : Type} (f : Json → Option α) : Json → Option (List α)
  | .arr l => l.mapM f
  | _ => none

/-! ## Structs (the code that `#[derive(Deserialize)]` generates) -/

/-- The fields of a struct as they are found: in an object by name, in an array by position. -/
inductive Fields
  | named (l : List (Bytes × Json))
  | placed (l : List Json)

/-- An object or an array of at most `n` elements. Every name has to be a text. -/
def Json.fields (n : Nat) : Json → Option Fields
  | .obj l => (l.mapM (fun p => (jsonContent p.1).map (fun k => (k, p.2)))).map .named
  | .arr l => if l.length ≤ n then some (.placed l) else none
  | _ => none

/-- Field number `i` with the name `k`: not there (`some none`), there, or there twice (an error). -/
def Fields.find (f : Fields) (i : Nat) (k : Bytes) : Option (Option Json) :=
  match f with
  | .named l =>
    match l.filter (fun p => p.1 == k) with
    | [] => some none
    | [p] => some (some p.2)
    | _ => none
  | .placed l => some (l[i]?)

/-- A field that has to be there. -/
def Fields.need {α : Type} (f : Fields) (i : Nat) (k : Bytes) (rd : Json → Option α) : Option α :=
  match f.find i k with
  | some (some v) => rd v
  | _ => none

/-- A field of type `Option`: `null` and (in an object) an absent one are `None`. -/
def Fields.opt {α : Type} (f : Fields) (i : Nat) (k : Bytes) (rd : Json → Option α) : Option (Option α) :=
  match f.find i k with
  | some (some .null) => some none
  | some (some v) => (rd v).map some
  | some none => match f with
    | .named _ => some none
    | .placed _ => none
  | none => none

/-- A field with `#[serde(default)]`. -/
def Fields.dflt {α : Type} (f : Fields) (i : Nat) (k : Bytes) (rd : Json → Option α) (d : α) : Option α :=
  match f.find i k with
  | some (some v) => rd v
  | some none => some d
  | none => none

/-- `Ref`, structs.rs 114-117. -/
def Json.ref (v : Json) : Option Bytes := do
  let f ← v.fields 1
  f.need 0 (ascii "name") Json.text

/-- `LockRequest`, structs.rs 119-124: name of the ref and path. -/
def Json.lockRequest (v : Json) : Option (Bytes × Bytes) := do
  let f ← v.fields 2
  let path ← f.need 0 (ascii "path") Json.text
  let ref ← f.need 1 (ascii "ref") Json.ref
  pure (ref, path)

/-- `UnlockRequest`, structs.rs 132-137. -/
def Json.unlockRequest (v : Json) : Option (Bytes × Option Bool) := do
  let f ← v.fields 2
  let force ← f.opt 0 (ascii "force") Json.flag
  let ref ← f.need 1 (ascii "ref") Json.ref
  pure (ref, force)

/-- `VerifiableLockRequest`, structs.rs 151-157. -/
def Json.verifyRequest (v : Json) : Option (Bytes × Option Bytes × Option Int) := do
  let f ← v.fields 3
  let ref ← f.need 0 (ascii "ref") Json.ref
  let cursor ← f.opt 1 (ascii "cursor") Json.text
  let limit ← f.opt 2 (ascii "limit") Json.int
  pure (ref, cursor, limit)

/-- `RequestVars`, structs.rs 5-17. `password` and `authorization` are read and not used (http.rs 352-354, 524). -/
def Json.requestVars (v : Json) : Option RequestVars := do
  let f ← v.fields 6
  let oid ← f.need 0 (ascii "oid") Json.text
  let size ← f.need 1 (ascii "size") Json.int
  let user ← f.dflt 2 (ascii "user") Json.text []
  let _ ← f.dflt 3 (ascii "password") Json.text []
  let repo ← f.dflt 4 (ascii "repo") Json.text []
  let _ ← f.dflt 5 (ascii "authorization") Json.text []
  pure { oid := oid, size := size, user := user, repo := repo }

/-- `BatchVars`, structs.rs 55-60. -/
def Json.batchVars (v : Json) : Option (Bytes × List RequestVars) := do
  let f ← v.fields 3
  let _ ← f.need 0 (ascii "transfers") (Json.vec Json.text)
  let operation ← f.need 1 (ascii "operation") Json.text
  let objects ← f.need 2 (ascii "objects") (Json.vec Json.requestVars)
  pure (operation, objects)

/-- `serde_json::from_slice` for the four requests. -/
def serdeJson : JsonExt where
  lock s := (parseJson s).bind Json.lockRequest
  unlock s := (parseJson s).bind Json.unlockRequest
  verify s := (parseJson s).bind Json.verifyRequest
  batch s := (parseJson s).bind Json.batchVars

/-! ## Stored locks -/

/-- `User`, structs.rs 101-104. -/
def Json.user (v : Json) : Option Bytes := do
  let f ← v.fields 1
  f.need 0 (ascii "name") Json.text

/-- `Lock`, structs.rs 106-112. -/
def Json.lock (v : Json) : Option Lock := do
  let f ← v.fields 4
  let id ← f.need 0 (ascii "id") Json.text
  let path ← f.need 1 (ascii "path") Json.text
  let lockedAt ← f.need 2 (ascii "locked_at") Json.text
  let owner ← f.opt 3 (ascii "owner") Json.user
  pure { id := id, path := path, lockedAt := lockedAt, owner := owner }

/-- `serde_json::from_str::<Vec<Lock>>(data)`, storage.rs 267, 345 and 416. -/
def readLocks (s : Bytes) : Option (List Lock) := (parseJson s).bind (Json.vec Json.lock)

end Gust

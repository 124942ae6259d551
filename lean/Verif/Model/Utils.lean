import Verif.Base.Res

/-!
# `/repo/src/git/utils.rs`: bit-level readers and writers
-/

namespace Gust

/-- A Rust `n as u8` cast (keeps the low eight bits). -/
def u8 (n : Nat) : UInt8 := UInt8.ofNat n

/-- The range of `usize`/`u64` on the modelled 64-bit platform. -/
def U64 : Nat := 2 ^ 64

/-- `keep_bits`, utils.rs 27-29. -/
def keepBits (value bits : Nat) : Nat := value &&& ((1 <<< bits) - 1)

/-- `read_bytes::<N>` (`read_exact`), utils.rs 34-39: the next `n` bytes, or an I/O error if fewer are left.
Simplification: on failure the position of the stream is not modelled (every caller gives up). -/
def readBytes (n : Nat) (s : Bytes) : Res (Bytes × Bytes) :=
  if n ≤ s.length then .ok (s.take n, s.drop n) else .err .io

/-- `u32::from_be_bytes` on a byte list. -/
def beNat (bs : Bytes) : Nat := bs.foldl (fun acc b => acc * 256 + b.toNat) 0

/-- `read_u32`, utils.rs 44-48 (big endian). -/
def readU32 (s : Bytes) : Res (Nat × Bytes) := do
  let (bs, rest) ← readBytes 4 s
  pure (beNat bs, rest)

/-- `read_until_delimiter`, utils.rs 62-75: bytes before the delimiter, which is consumed. -/
def readUntilDelimiter (d : UInt8) : Bytes → Res (Bytes × Bytes)
  | [] => .err .io
  | b :: s =>
    if b = d then .ok ([], s)
    else do
      let (bs, rest) ← readUntilDelimiter d s
      pure (b :: bs, rest)

/-- The value part and the continuation flag of one byte: body of `read_var_int_byte`,
utils.rs 80-86 (`byte & !0x80`, `byte & 0x80 != 0`). -/
def varIntByte (byte : UInt8) : Nat × Bool :=
  ((byte &&& ~~~(0x80 : UInt8)).toNat, byte &&& 0x80 != 0)

/-- Loop of `read_size_encoding`, utils.rs 95-103. End of input is `.unwrap()`ed (96), hence a panic.
`byte << length` (97) panics when `length ≥ 64` (overflow checks) and otherwise drops bits beyond 64. -/
def readSizeLoop (value length : Nat) : Bytes → Res (Nat × Bytes)
  | [] => .panic
  | byte :: s =>
    let (byteValue, more) := varIntByte byte
    if 64 ≤ length then .panic
    else
      let value := value ||| ((byteValue <<< length) % U64)
      if !more then .ok (value, s) else readSizeLoop value (length + 7) s

/-- `read_size_encoding`, utils.rs 91-104. -/
def readSizeEncoding (s : Bytes) : Res (Nat × Bytes) := readSizeLoop 0 0 s

/-- `write_size_encoding`, utils.rs 109-125 (loop turned into recursion on the shifted number). -/
def writeSizeEncoding (number : Nat) : Bytes :=
  if h : number >>> 7 > 0 then
    (u8 (number &&& 0x7f) ||| 0x80) :: writeSizeEncoding (number >>> 7)
  else
    [u8 (number &&& 0x7f)]
termination_by number
decreasing_by
  simp only [Nat.shiftRight_eq_div_pow] at *
  omega

/-- `read_type_and_size`, utils.rs 130-140. The final left shift drops bits beyond 64. -/
def readTypeAndSize (s : Bytes) : Res ((Nat × Nat) × Bytes) := do
  let (value, rest) ← readSizeEncoding s
  let objectType := keepBits (value >>> 4) 3
  let size := keepBits value 4 ||| (((value >>> 7) <<< 4) % U64)
  pure ((objectType, size), rest)

/-- Loop of `read_offset_encoding`, utils.rs 154-163, on a `u64` accumulator.
`value << 7` drops bits beyond 64; `value += 1` panics on overflow. -/
def readOffsetLoop (value : Nat) : Bytes → Res (Nat × Bytes)
  | [] => .err .io
  | byte :: s =>
    let (byteValue, more) := varIntByte byte
    let value := ((value <<< 7) % U64) ||| byteValue
    if !more then .ok (value, s)
    else if value + 1 = U64 then .panic
    else readOffsetLoop (value + 1) s

/-- `read_offset_encoding`, utils.rs 145-164. -/
def readOffsetEncoding (s : Bytes) : Res (Nat × Bytes) := readOffsetLoop 0 s

/-- Build profile: are arithmetic overflow checks compiled in? (`dev`: yes, `release`: no.) -/
inductive Profile
  | dev
  | release
  deriving DecidableEq, Repr

/-- `(number & 0x7f) - 1` on `u64`, utils.rs 184: underflow panics (dev) or wraps (release). -/
def groupMinusOne (p : Profile) (number : Nat) : Res Nat :=
  if number &&& 0x7f = 0 then
    match p with
    | .dev => .panic
    | .release => .ok (U64 - 1)
  else .ok ((number &&& 0x7f) - 1)

/-- `while number > 0` loop of `write_offset_encoding`, utils.rs 183-186: the pushed bytes in push order. -/
def writeOffsetLoop (p : Profile) (number : Nat) : Res Bytes :=
  if h : number > 0 then do
    let g ← groupMinusOne p number
    let rest ← writeOffsetLoop p (number >>> 7)
    pure ((u8 g ||| 0x80) :: rest)
  else .ok []
termination_by number
decreasing_by
  simp only [Nat.shiftRight_eq_div_pow] at *
  omega

/-- `write_offset_encoding`, utils.rs 176-191: lowest group, higher groups, reversed. -/
def writeOffsetEncoding (p : Profile) (number : Nat) : Res Bytes := do
  let rest ← writeOffsetLoop p (number >>> 7)
  pure ((u8 (number &&& 0x7f) :: rest).reverse)

/-- `read_partial_int`, utils.rs 197-211: `bytes` little-endian bytes starting at index `idx`, byte `i` present in the
stream iff bit `i` of `present` is set. Returns the value and the remaining present bits. -/
def readPartialInt : (bytes idx : Nat) → (present : Nat) → Bytes → Res ((Nat × Nat) × Bytes)
  | 0, _, present, s => .ok ((0, present), s)
  | n + 1, idx, present, s => do
    let (b, s) ←
      (if present &&& 1 ≠ 0 then do
        let (bs, s) ← readBytes 1 s
        pure ((beNat bs) <<< (idx * 8), s)
      else pure (0, s) : Res (Nat × Bytes))
    let ((v, present'), s) ← readPartialInt n (idx + 1) (present >>> 1) s
    pure ((b ||| v, present'), s)

/-- `u32_vec`, utils.rs 251-258 (big endian). -/
def u32Vec (value : Nat) : Bytes :=
  [u8 ((value >>> 24) &&& 0xff), u8 ((value >>> 16) &&& 0xff), u8 ((value >>> 8) &&& 0xff),
   u8 (value &&& 0xff)]

/-- `get_pack_raw_data`, utils.rs 264-268: `data[12..data.len()-20]` (the subtraction panics when
`data` is shorter than 20). -/
def getPackRawData (data : Bytes) : Res Bytes :=
  if data.length < 20 then .panic else slice data 12 (data.length - 20)

end Gust

import Verif.Model.Types

/-! # `/repo/src/git/hash.rs` -/

namespace Gust

/-- `Hash([u8; 20])`, hash.rs 26-29. -/
abbrev Hash := { b : Bytes // b.length = 20 }

/-- What the code takes from outside: SHA-1 and zlib. SHA-1 is an arbitrary function to 20 bytes.
zlib is a compressor with a decompressor that undoes it and stops exactly at the end of the stream
(`flate2::read::ZlibDecoder` + `read_zlib_stream_exact`, `/repo/src/git/utils.rs` 233-245).
The law is a field, not an axiom; `demoExt` below is a concrete instance. -/
structure Ext where
  /-- SHA-1 digest -/
  sha1 : Bytes → Hash
  /-- `deflate::write::ZlibEncoder` -/
  deflate : Bytes → Bytes
  /-- `flate2::read::ZlibDecoder`: decompressed data and the bytes after the stream -/
  inflate : Bytes → Option (Bytes × Bytes)
  inflate_deflate : ∀ d rest, inflate (deflate d ++ rest) = some (d, rest)
  /-- decompression only looks at the stream itself: it consumes a prefix, whatever follows -/
  inflate_prefix : ∀ s d rest, inflate s = some (d, rest) →
    ∃ z, z ≠ [] ∧ s = z ++ rest ∧ ∀ rest', inflate (z ++ rest') = some (d, rest')

/-- A toy compressor (one marker byte before each byte, a zero at the end) showing that `Ext` is inhabited. -/
def demoDeflate : Bytes → Bytes
  | [] => [0]
  | b :: s => 1 :: b :: demoDeflate s

/-- Decompressor of the toy format. -/
def demoInflate : Bytes → Option (Bytes × Bytes)
  | [] => none
  | [m] => if m = 0 then some ([], []) else none
  | m :: b :: s =>
    if m = 0 then some ([], b :: s)
    else (demoInflate s).map (fun p => (b :: p.1, p.2))

theorem demoInflate_zero (rest : Bytes) : demoInflate (0 :: rest) = some ([], rest) := by
  cases rest <;> simp [demoInflate]

theorem demoInflate_deflate (d rest : Bytes) : demoInflate (demoDeflate d ++ rest) = some (d, rest) := by
  induction d with
  | nil => simp [demoDeflate, demoInflate_zero]
  | cons b d ih => simp [demoDeflate, demoInflate, ih]

theorem demoInflate_prefix : ∀ (s d rest : Bytes), demoInflate s = some (d, rest) →
    ∃ z, z ≠ [] ∧ s = z ++ rest ∧ ∀ rest', demoInflate (z ++ rest') = some (d, rest')
  | [], d, rest, h => by simp [demoInflate] at h
  | [m], d, rest, h => by
    by_cases hm : m = 0
    · subst hm
      simp [demoInflate] at h
      exact ⟨[0], by simp, by simp [h.2], by simp [demoInflate_zero, h.1]⟩
    · simp [demoInflate, hm] at h
  | m :: b :: s, d, rest, h => by
    by_cases hm : m = 0
    · subst hm
      simp [demoInflate] at h
      exact ⟨[0], by simp, by simp [h.2], by simp [demoInflate_zero, h.1]⟩
    · simp [demoInflate, hm] at h
      obtain ⟨d', h', rfl⟩ := h
      obtain ⟨z, _, hz2, hz3⟩ := demoInflate_prefix s d' rest h'
      exact ⟨m :: b :: z, by simp, by simp [hz2], by intro r; simp [demoInflate, hm, hz3]⟩

/-- A toy 20-byte digest: the last 20 bytes, padded. -/
def demoSha1 (d : Bytes) : Hash :=
  ⟨(d.reverse ++ List.replicate 20 0).take 20, by simp⟩

/-- Concrete instance of the external interface. -/
def demoExt : Ext where
  sha1 := demoSha1
  deflate := demoDeflate
  inflate := demoInflate
  inflate_deflate := demoInflate_deflate
  inflate_prefix := demoInflate_prefix

namespace Hash

/-- The bytes hashed by `Hash::from_meta`, hash.rs 69-93: type name, space, decimal length, NUL, data.
Panics for the two delta types (79). -/
def preimage (t : ObjectType) (data : Bytes) : Res Bytes :=
  match t with
  | .commit => .ok (ascii "commit" ++ ascii " " ++ decStr data.length ++ [0] ++ data)
  | .tree => .ok (ascii "tree" ++ ascii " " ++ decStr data.length ++ [0] ++ data)
  | .blob => .ok (ascii "blob" ++ ascii " " ++ decStr data.length ++ [0] ++ data)
  | .tag => .ok (ascii "tag" ++ ascii " " ++ decStr data.length ++ [0] ++ data)
  | _ => .panic

/-- `Hash::from_meta`, hash.rs 69-93. -/
def fromMeta (X : Ext) (t : ObjectType) (data : Bytes) : Res Hash := do
  let p ← preimage t data
  pure (X.sha1 p)

/-- Pairs of hex digits to bytes: `chunks_exact(2)` with empty remainder and `try_fold`, hash.rs 114-125.
`value << 4 | char_value` on `u8`. -/
def hexPairs : Bytes → Option Bytes
  | [] => some []
  | [_] => none
  | a :: b :: s =>
    match hexCharValue a, hexCharValue b with
    | some x, some y =>
      match hexPairs s with
      | some bs => some (((u8 x <<< 4) ||| u8 y) :: bs)
      | none => none
    | _, _ => none

/-- `Hash::from_bytes`, hash.rs 110-128. -/
def fromBytes (s : Bytes) : Option Hash :=
  match hexPairs s with
  | some bs => if h : bs.length = 20 then some ⟨bs, h⟩ else none
  | none => none

/-- `FromStr for Hash`, hash.rs 166-173. -/
def fromStr (s : Bytes) : Res Hash := Res.okOr (fromBytes s) .hashValue

/-- `Hash::from_row`, hash.rs 133-135: exactly 20 raw bytes, otherwise a panic. -/
def fromRow (s : Bytes) : Res Hash :=
  if h : s.length = 20 then .ok ⟨s, h⟩ else .panic

/-- `Hash::get_first`, hash.rs 139-141. -/
def getFirst (h : Hash) : UInt8 := h.1.headD 0

/-- The two lower-case digits of a byte (`hex::encode`). -/
def hexByte (b : UInt8) : Bytes := [digitChar (b.toNat / 16), digitChar (b.toNat % 16)]

/-- `Hash::to_plain_str`, hash.rs 145-147. -/
def toPlainStr (h : Hash) : Bytes := h.1.flatMap hexByte

/-- `Hash::to_folder`, hash.rs 150-154. -/
def toFolder (h : Hash) : Bytes := (toPlainStr h).take 2

/-- `Hash::to_filename`, hash.rs 157-161. -/
def toFilename (h : Hash) : Bytes := (toPlainStr h).drop 2

end Hash

/-- `Hash::default()`: twenty zero bytes (derive, hash.rs 26). -/
def Hash.zero : Hash := ⟨List.replicate 20 0, by simp⟩

end Gust

import Verif.Model.Pack

/-! # `/repo/src/git/idx/mod.rs`: pack index files -/

namespace Gust

/-- `IdxItem`, idx/mod.rs 23-27. -/
structure IdxItem where
  id : Hash
  crc32 : Bytes
  offset : Nat
  deriving DecidableEq

/-- `Idx`, idx/mod.rs 39-48. The two `HashMap`s are only looked up and are functions. -/
structure Idx where
  version : Nat
  numberOfObjects : Nat
  mapOfPrefix : Bytes → Option Nat
  itemHash : Hash → Option Nat
  idxItems : List IdxItem
  packSignature : Hash
  idxSignature : Hash
  fileData : Bytes

namespace Idx

/-- `Idx::default()`. -/
def default : Idx :=
  { version := 0, numberOfObjects := 0, mapOfPrefix := fun _ => none, itemHash := fun _ => none, idxItems := [],
    packSignature := Hash.zero, idxSignature := Hash.zero, fileData := [] }

/-- `Idx::sha1_prefix`, idx/mod.rs 54-62. -/
def sha1Prefix (n : Nat) : Bytes :=
  if (hexStr n).length = 1 then 48 :: hexStr n else hexStr n

/-- State of the fan-out loop: last value, object count, counts by prefix. -/
structure FanState where
  n : Nat
  numberOfObjects : Nat
  mapOfPrefix : Bytes → Option Nat

/-- Body of the fan-out loop, idx/mod.rs 97-107, for the entry at `i`; `m - n` panics when the table decreases. -/
def fanStep (data : Bytes) (i : Nat) (st : FanState) : Res FanState := do
  let bs ← slice data i (i + 4)
  if beNat bs = st.n then pure st
  else if beNat bs < st.n then .panic
  else pure { n := beNat bs, numberOfObjects := beNat bs,
              mapOfPrefix := fun k => if k = sha1Prefix ((i - 8) / 4) then some (beNat bs - st.n) else st.mapOfPrefix k }

/-- The fan-out loop, idx/mod.rs 97-107: `k` entries from `i` on. -/
def fanLoop (data : Bytes) : (k i : Nat) → FanState → Res FanState
  | 0, _, st => .ok st
  | k + 1, i, st => do
    let st ← fanStep data i st
    fanLoop data k (i + 4) st

/-- The loops of layers 2-4, idx/mod.rs 112-142: `k` slices of `w` bytes from `i` on. -/
def sliceLoop (data : Bytes) (w : Nat) : (k i : Nat) → Res (List Bytes)
  | 0, _ => .ok []
  | k + 1, i => do
    let s ← slice data i (i + w)
    let rest ← sliceLoop data w k (i + w)
    pure (s :: rest)

/-- `Hash::from_row` on each slice, idx/mod.rs 113. -/
def rowsToHashes : List Bytes → Res (List Hash)
  | [] => .ok []
  | r :: rs => do
    let h ← Hash.fromRow r
    let hs ← rowsToHashes rs
    pure (h :: hs)

/-- `hex::encode`, lower case. -/
def hexEncode (bs : Bytes) : Bytes := bs.flatMap Hash.hexByte

/-- `IdxItem`s from the three layers, idx/mod.rs 128-142 (all three have the same length). -/
def mkItems : List Hash → List Bytes → List Bytes → List IdxItem
  | h :: hs, c :: cs, o :: os => { id := h, crc32 := hexEncode c, offset := beNat o } :: mkItems hs cs os
  | _, _, _ => []

/-- Filling `item_hash`, idx/mod.rs 154-156, from index `i` on. -/
def fillItemHash : List IdxItem → (i : Nat) → (Hash → Option Nat) → Hash → Option Nat
  | [], _, f => f
  | item :: items, i, f => fillItemHash items (i + 1) (fun h => if h = item.id then some i else f h)

/-- `Idx::decode`, idx/mod.rs 75-159, called on `self` (items are appended to those already there). -/
def decode (self : Idx) (data : Bytes) : Res Idx := do
  let magic ← slice data 0 4
  if magic ≠ [255, 116, 79, 99] then .err .idxFile
  else do
    let version ← slice data 4 8
    let st ← fanLoop data 256 8 { n := 0, numberOfObjects := self.numberOfObjects, mapOfPrefix := self.mapOfPrefix }
    let rows ← sliceLoop data 20 st.n 1032
    let ids ← rowsToHashes rows
    let crcs ← sliceLoop data 4 st.n (1032 + 20 * st.n)
    let offsets ← sliceLoop data 4 st.n (1032 + 20 * st.n + 4 * st.n)
    let items := self.idxItems ++ mkItems ids crcs offsets
    let packRow ← slice data (1032 + 20 * st.n + 4 * st.n + 4 * st.n) (1032 + 20 * st.n + 4 * st.n + 4 * st.n + 20)
    let packSignature ← Hash.fromRow packRow
    let idxRow ← sliceFrom data (1032 + 20 * st.n + 4 * st.n + 4 * st.n + 20)
    let idxSignature ← Hash.fromRow idxRow
    pure { self with
      version := beNat version
      numberOfObjects := st.numberOfObjects
      mapOfPrefix := st.mapOfPrefix
      itemHash := fillItemHash items 0 self.itemHash
      idxItems := items
      packSignature := packSignature
      idxSignature := idxSignature }

/-- Counting ids by first byte, idx/mod.rs 176-178, on the array `fan_out`. -/
def countFirst (hs : List Hash) (fan : Nat → Nat) : Nat → Nat :=
  match hs with
  | [] => fan
  | h :: hs => countFirst hs (fun i => if i = (h.1.headD 0).toNat then fan i + 1 else fan i)

/-- Running sums, idx/mod.rs 179-184: the values for `k` entries from `i` on. -/
def fanSums (fan : Nat → Nat) : (k i sum : Nat) → List Nat
  | 0, _, _ => []
  | k + 1, i, sum => (sum + fan i) :: fanSums fan k (i + 1) (sum + fan i)

/-- Layer 4, idx/mod.rs 208-211: a missing offset panics, `as u32` keeps the low 32 bits. -/
def offsetRows (byOffset : Hash → Option Nat) : List Hash → Res (List Bytes)
  | [] => .ok []
  | h :: hs => do
    let o ← Res.unwrapOpt (byOffset h)
    let rest ← offsetRows byOffset hs
    pure (u32Vec (o % 2 ^ 32) :: rest)

/-- `Idx::encode`, idx/mod.rs 162-221; `crc` is the CRC-32 of the `crc` crate. Simplification: the `u32` additions of the
fan-out table cannot overflow below 2^32 objects, more are not modelled. -/
def encode (X : Ext) (crc : Bytes → Nat) (pack : Pack) : Res Idx := do
  let keys := pack.result.byHash.map Prod.fst
  let sums := fanSums (countFirst keys (fun _ => 0)) 256 0 0
  let crcs := pack.result.byHash.map (fun p => u32Vec (crc (MetaData.convertToVec X p.2)))
  let offsets ← offsetRows pack.result.byOffset keys
  let body := [255, 116, 79, 99] ++ [0, 0, 0, 2] ++ (sums.map u32Vec).flatten ++ (keys.map Subtype.val).flatten ++
    crcs.flatten ++ offsets.flatten ++ pack.signature.1
  pure { default with
    version := 2
    numberOfObjects := pack.numberOfObjects
    fileData := body ++ (X.sha1 body).1 }

/-- `Idx::get_offset`, idx/mod.rs 224-229: an unknown id panics. -/
def getOffset (idx : Idx) (h : Hash) : Res IdxItem := do
  let i ← Res.unwrapOpt (idx.itemHash h)
  Res.unwrapOpt idx.idxItems[i]?

end Idx

/-- The loop of `Pack::decode_by_idx`, pack/mod.rs 137-146: the cache after decoding every item of the index. -/
def decodeByIdxLoop (X : Ext) (St : ObjectSource) (fuel : Nat) (file : Bytes) : List IdxItem → PackCache → Res PackCache
  | [], c => .ok c
  | item :: items, c => do
    let ((_, c), _) ← (nextObject X St file fuel item.offset c).unwrap
    decodeByIdxLoop X St fuel file items c

end Gust

import Verif.Model.Delta

/-! # `/repo/src/git/pack/cache.rs`, `mod.rs`, `encode.rs`: pack files -/

namespace Gust

/-! ## The object cache -/

/-- `Ord for Hash` (derived on `[u8; 20]`, hash.rs 26): lexicographic order of the bytes. -/
def bytesLt : Bytes → Bytes → Bool
  | [], [] => false
  | [], _ :: _ => true
  | _ :: _, [] => false
  | a :: s, b :: t => if a.toNat < b.toNat then true else if b.toNat < a.toNat then false else bytesLt s t

/-- `BTreeMap<Hash, V>` as the list of its entries in iteration order. -/
abbrev HashMap (V : Type) := List (Hash × V)

namespace HashMap

/-- `BTreeMap::get`. -/
def get {V : Type} (m : HashMap V) (h : Hash) : Option V :=
  match m with
  | [] => none
  | (k, v) :: m => if k = h then some v else HashMap.get m h

/-- `BTreeMap::insert`: replaces the value of an existing key, otherwise puts the entry in order. -/
def insert {V : Type} (m : HashMap V) (h : Hash) (x : V) : HashMap V :=
  match m with
  | [] => [(h, x)]
  | (k, v) :: m =>
    if k = h then (h, x) :: m
    else if bytesLt h.1 k.1 then (h, x) :: (k, v) :: m
    else (k, v) :: HashMap.insert m h x

end HashMap

/-- `PackObjectCache`, cache.rs 13-20. `by_offset` and `offset_hash` are only used for lookups and are functions; the two
counters, which are only logged, are left out. -/
structure PackCache where
  byHash : HashMap MetaData
  byOffset : Hash → Option Nat
  offsetHash : Nat → Option Hash

namespace PackCache

/-- `PackObjectCache::default()`. -/
def empty : PackCache := { byHash := [], byOffset := fun _ => none, offsetHash := fun _ => none }

/-- `PackObjectCache::update`, cache.rs 25-30. -/
def update (c : PackCache) (object : MetaData) (offset : Nat) : PackCache :=
  { byHash := c.byHash.insert object.id object
    byOffset := fun h => if h = object.id then some offset else c.byOffset h
    offsetHash := fun o => if o = offset then some object.id else c.offsetHash o }

/-- `PackObjectCache::clean`, cache.rs 32-36. -/
def clean (_ : PackCache) : PackCache := empty

/-- `PackObjectCache::offset_object`, cache.rs 38-42. -/
def offsetObject (c : PackCache) (offset : Nat) : Option MetaData :=
  match c.offsetHash offset with
  | some h => c.byHash.get h
  | none => none

/-- `PackObjectCache::hash_object`, cache.rs 44-46. -/
def hashObject (c : PackCache) (h : Hash) : Option MetaData := c.byHash.get h

end PackCache

/-! ## Decoding -/

/-- `Pack`, pack/mod.rs 35-42 (`head` and `version` are constants once the header is checked; `pack_file` is used by
multi-pack decoding only). -/
structure Pack where
  numberOfObjects : Nat
  signature : Hash
  result : PackCache

/-- `Pack::default()`. -/
def Pack.default : Pack := { numberOfObjects := 0, signature := Hash.zero, result := PackCache.empty }

/-- `Pack::check_header`, pack/mod.rs 92-124: the object count and the rest of the file. Short reads are `.unwrap()`ed. -/
def checkHeader (file : Bytes) : Res (Nat × Bytes) := do
  let (magic, rest) ← (readBytes 4 file).unwrap
  if magic ≠ ascii "PACK" then .err .packHeader
  else do
    let (version, rest) ← (readU32 rest).unwrap
    if version ≠ 2 then .err .packFile
    else (readU32 rest).unwrap

/-- What the decoder asks of storage: `ObjectStorage::get_hash_object` (the id as 40 hex digits). -/
abbrev ObjectSource := Bytes → Option MetaData

/-- `apply_delta` on the zlib stream at the current position, delta.rs 24-45 with utils.rs 233-245: the object and the
bytes after the stream. Bad zlib data is an error or a panic in the code, here an error. -/
def applyDeltaAt (X : Ext) (base : MetaData) (rest : Bytes) : Res (MetaData × Bytes) :=
  match X.inflate rest with
  | none => .err .delta
  | some (delta, rest) => do
    let m ← applyDelta X base delta
    pure (m, rest)

/-- First arm of `next_object`, pack/mod.rs 180-190: an object stored whole. `Vec::with_capacity` panics above
`isize::MAX`; running out of memory below that is not modelled. -/
def baseObjectAt (X : Ext) (typeNum size : Nat) (rest : Bytes) : Res (MetaData × Bytes) :=
  if 2 ^ 63 ≤ size then .panic
  else
    match X.inflate rest with
    | none => .panic
    | some (contents, rest) =>
      if contents.length ≠ size then .err .objectInfo
      else do
        let t ← ObjectType.ofNumber typeNum
        let m ← MetaData.new X t contents
        pure (m, rest)

/-- The base object of a hash delta, pack/mod.rs 216-222. -/
def hashBase (St : ObjectSource) (cache : PackCache) (h : Hash) : Res MetaData :=
  match cache.hashObject h with
  | some m => .ok m
  | none => Res.unwrapOpt (St (Hash.toPlainStr h))

/-- `Pack::next_object`, pack/mod.rs 168-241: the object, the new cache and the file position afterwards. The recursion for
the base of an offset delta is bounded by fuel (`spin` when it runs out). -/
def nextObject (X : Ext) (St : ObjectSource) (file : Bytes) :
    Nat → Nat → PackCache → Res ((MetaData × PackCache) × Nat)
  | 0, _, _ => .spin
  | fuel + 1, offset, cache => do
    let ((typeNum, size), rest) ← (readTypeAndSize (file.drop offset)).unwrap
    if 1 ≤ typeNum ∧ typeNum ≤ 4 then do
      let (m, rest) ← baseObjectAt X typeNum size rest
      pure ((m, cache.update m offset), file.length - rest.length)
    else if typeNum = 6 then do
      let (delta, rest) ← (readOffsetEncoding rest).unwrap
      if offset < delta then .err .objectInfo
      else do
        let (base, cache) ←
          (match cache.offsetObject (offset - delta) with
           | some m => .ok (m, cache)
           | none => do
             let (r, _) ← nextObject X St file fuel (offset - delta) cache
             pure r : Res (MetaData × PackCache))
        let (m, rest) ← applyDeltaAt X base rest
        pure ((m, cache.update m offset), file.length - rest.length)
    else if typeNum = 7 then do
      let (row, rest) ← (readBytes 20 rest).unwrap
      let h ← Hash.fromRow row
      let base ← hashBase St cache h
      let (m, rest) ← applyDeltaAt X base rest
      pure ((m, cache.update m offset), file.length - rest.length)
    else .panic

/-- The loop of `Pack::decode`, pack/mod.rs 61-81. Offsets from 2^32 on panic (78-80). -/
def decodeLoop (X : Ext) (St : ObjectSource) (file : Bytes) (fuel : Nat) :
    Nat → Nat → PackCache → Res (PackCache × Nat)
  | 0, pos, cache => .ok (cache, pos)
  | n + 1, pos, cache => do
    let ((_, cache), pos') ← nextObject X St file fuel pos cache
    if 2 ^ 32 ≤ pos then .panic else decodeLoop X St file fuel n pos' cache

/-- `Pack::decode`, pack/mod.rs 51-88. The trailer is read but not compared with anything. -/
def decodePack (X : Ext) (St : ObjectSource) (fuel : Nat) (file : Bytes) : Res Pack := do
  let (n, _) ← checkHeader file
  let (cache, pos) ← decodeLoop X St file fuel n 12 PackCache.empty
  let (id, _) ← (readBytes 20 (file.drop pos)).unwrap
  let signature ← Hash.fromRow id
  pure { numberOfObjects := n, signature := signature, result := cache }

/-- `Pack::decode_raw_data`, pack/mod.rs 156-164: count, signature and the bytes between header and trailer. -/
def decodeRawData (file : Bytes) : Res ((Nat × Hash) × Bytes) := do
  let (n, raw) ← (checkHeader file).unwrap
  if raw.length < 20 then .panic
  else do
    let signature ← Hash.fromRow (raw.drop (raw.length - 20))
    pure ((n, signature), raw.take (raw.length - 20))

/-! ## Encoding -/

/-- `Pack::encode_header`, encode.rs 33-47 (`assert`s panic). -/
def encodeHeader (n : Nat) : Res Bytes :=
  if n = 0 ∨ 2 ^ 32 ≤ n then .panic else .ok ([80, 65, 67, 75, 0, 0, 0, 2] ++ u32Vec n)

/-- `Pack::append_hash_signature` and the final append, encode.rs 49-53, 92: signature and file. -/
def signPack (X : Ext) (body : Bytes) : Hash × Bytes := (X.sha1 body, body ++ (X.sha1 body).1)

/-- The loop bodies of `Pack::encode`, encode.rs 76-81 and 86-88. -/
def encodeEntries (X : Ext) (ms : List MetaData) : Bytes := ms.flatMap (MetaData.convertToVec X)

/-- `Pack::encode` with a list of objects, encode.rs 67-94: count, signature and file. -/
def encodePack (X : Ext) (ms : List MetaData) : Res ((Nat × Hash) × Bytes) := do
  let header ← encodeHeader ms.length
  let s := signPack X (header ++ encodeEntries X ms)
  pure ((ms.length, s.1), s.2)

/-- `Pack::encode(None)`, encode.rs 83-89: the objects of the pack's own cache, in id order. -/
def encodeCache (X : Ext) (c : PackCache) : Res ((Nat × Hash) × Bytes) := encodePack X (c.byHash.map Prod.snd)

/-- What `encode_delta` uses of the diff library and of floating point: the callbacks for a pair of objects, and the
similarity rate. `f64` rates are finite here (NaN, for empty data, compares like 0). -/
structure Differ where
  events : Bytes → Bytes → List DiffEvent
  rate : MetaData → MetaData → Rat

/-- Loop over `j` in `encode_delta`, encode.rs 113-128: `prev` are the objects before the current one, nearest first
(at most nine are looked at); `j` starts at 1. The result is the chosen distance, `none` for 11. -/
def chooseBase (D : Differ) (new : MetaData) : (prev : List MetaData) → (j : Nat) → (best : Option Nat × Rat) → Option Nat
  | [], _, best => best.1
  | base :: prev, j, best =>
    if 10 ≤ j then best.1
    else if new.t ≠ base.t then best.1
    else
      let r := D.rate base new
      chooseBase D new prev (j + 1) (if r > best.2 ∧ r > 1 / 2 then (some j, r) else best)

/-- One iteration of the outer loop, encode.rs 109-148: `prev` are the earlier objects with their offsets, nearest first. -/
def encodeDeltaStep (X : Ext) (p : Profile) (D : Differ) (prev : List (MetaData × Nat)) (pos : Nat) (m : MetaData) :
    Res MetaData :=
  match chooseBase D m (prev.map Prod.fst) 1 (none, 0) with
  | none => .ok m
  | some j =>
    match prev[j - 1]? with
    | none => .panic
    | some (base, baseOffset) => do
      let delta ← getDeltaMetadata base m (diffRun (D.events base.data m.data))
      let head ← writeOffsetEncoding p (pos - baseOffset)
      pure (m.changeToDelta .offsetDelta delta head)

/-- The outer loop of `encode_delta`, encode.rs 109-148, on the file written so far. -/
def encodeDeltaLoop (X : Ext) (p : Profile) (D : Differ) :
    List MetaData → (prev : List (MetaData × Nat)) → (file : Bytes) → Res Bytes
  | [], _, file => .ok file
  | m :: ms, prev, file => do
    let f ← encodeDeltaStep X p D prev file.length m
    encodeDeltaLoop X p D ms ((m, file.length) :: prev) (file ++ MetaData.convertToVec X f)

/-- `Pack::encode_delta`, encode.rs 100-152. -/
def encodeDelta (X : Ext) (p : Profile) (D : Differ) (ms : List MetaData) : Res ((Nat × Hash) × Bytes) := do
  let header ← encodeHeader ms.length
  let body ← encodeDeltaLoop X p D ms [] header
  let s := signPack X body
  pure ((ms.length, s.1), s.2)

/-- `Pack::pack_loose`, encode.rs 158-182: reading is `MetaData.readObjectFromFile` (panics become panics, an unknown type
is skipped, 169-172). -/
def readLoose (X : Ext) (fs : MetaData.FS) (root : Bytes) : List Bytes → Res (List MetaData)
  | [] => .ok []
  | name :: names => do
    let h ← (Hash.fromStr name).unwrap
    let path := root ++ [0x2f] ++ Hash.toFolder h ++ [0x2f] ++ Hash.toFilename h
    match MetaData.readObjectFromFile X fs path with
    | .ok m => do
      let ms ← readLoose X fs root names
      pure (m :: ms)
    | .err _ => readLoose X fs root names
    | .panic => .panic
    | .spin => .spin

/-- `Pack::pack_loose`, encode.rs 158-182. -/
def packLoose (X : Ext) (fs : MetaData.FS) (root : Bytes) (names : List Bytes) : Res ((Nat × Hash) × Bytes) := do
  let ms ← readLoose X fs root names
  encodePack X ms

/-- `Pack::pack_object_dir`, encode.rs 289-320: `oldPack` is the content of the pack file found, `names` the loose objects
found. Result: count, signature and file written. -/
def packObjectDir (X : Ext) (fs : MetaData.FS) (root oldPack : Bytes) (names : List Bytes) :
    Res ((Nat × Hash) × Bytes) := do
  let ((n, _), raw) ← decodeRawData oldPack
  let ((k, _), loose) ← packLoose X fs root names
  let header ← encodeHeader (n + k)
  let looseRaw ← getPackRawData loose
  let body := header ++ raw ++ looseRaw
  pure ((n + k, X.sha1 body), body ++ (X.sha1 body).1)

end Gust

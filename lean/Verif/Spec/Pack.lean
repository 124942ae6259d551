import Verif.Spec.Delta
import Verif.Model.Hash

/-!
# Independent reading of the pack format (Documentation/gitformat-pack)

A pack is "PACK", version 2, a count, that many entries and a 20 byte trailer. Each entry is a header with a type and a size
followed by a zlib stream; delta entries name their base first. Nothing here is used by the model.
-/

namespace Gust.Spec

/-- An entry as it stands in the file. -/
inductive Entry
  /-- object of type 1-4 stored whole -/
  | whole (kind : Nat) (data : Bytes)
  /-- delta against the object `dist` bytes before this entry -/
  | ofs (dist : Nat) (delta : Bytes)
  /-- delta against the object with this id -/
  | ref (base : Hash) (delta : Bytes)
  deriving DecidableEq

/-- Entry header: type (bits 4-6 of the first byte) and size (the other bits). The value is limited to 64 bits in at most
ten bytes, as on any 64-bit implementation. -/
def EntryHeader (s : Bytes) (kind size : Nat) (rest : Bytes) : Prop :=
  ∃ v, sizeField s = some (v, rest) ∧ v < 2 ^ 64 ∧ s.length - rest.length ≤ 10 ∧
    v / 16 % 8 = kind ∧ v % 16 + 16 * (v / 128) = size

/-- `s` begins with the encoding of an entry and continues with `rest`. -/
inductive EntryCode (inflate : Bytes → Option (Bytes × Bytes)) : Bytes → Entry → Bytes → Prop
  | whole (s r rest data : Bytes) (kind : Nat) : EntryHeader s kind data.length r → 1 ≤ kind → kind ≤ 4 →
      inflate r = some (data, rest) → EntryCode inflate s (.whole kind data) rest
  | ofs (s r r' rest delta : Bytes) (dist : Nat) : EntryHeader s 6 delta.length r →
      offsetField r = some (dist, r') → inflate r' = some (delta, rest) → EntryCode inflate s (.ofs dist delta) rest
  | ref (s r rest delta : Bytes) (base : Hash) : EntryHeader s 7 delta.length (base.1 ++ r) →
      inflate r = some (delta, rest) → EntryCode inflate s (.ref base delta) rest

/-- `s`, which starts at file offset `off`, consists of these entries (each with its offset) and then `rest`. -/
inductive Entries (inflate : Bytes → Option (Bytes × Bytes)) : Nat → Bytes → List (Nat × Entry) → Bytes → Prop
  | nil (off : Nat) (s : Bytes) : Entries inflate off s [] s
  | cons (off : Nat) (s s' rest : Bytes) (e : Entry) (es : List (Nat × Entry)) : EntryCode inflate s e s' →
      Entries inflate (off + (s.length - s'.length)) s' es rest → Entries inflate off s ((off, e) :: es) rest

/-- At the beginning of `s` stands an entry of type 6 whose distance is zero in 64-bit arithmetic: a delta that names itself
as its base. -/
def ZeroDistance (s : Bytes) : Prop :=
  ∃ v r w r', sizeField s = some (v, r) ∧ v / 16 % 8 = 6 ∧ offsetField r = some (w, r') ∧ w % 2 ^ 64 = 0

/-- The compressed data of the entry at the beginning of `s`, and what follows. -/
def entryBody (s : Bytes) : Option Bytes :=
  match sizeField s with
  | none => none
  | some (v, r) => if v / 16 % 8 = 6 then (offsetField r).map Prod.snd else if v / 16 % 8 = 7 then some (r.drop 20) else some r

/-- Reading entries one after the other from offset `pos`, the entry after the next `k` begins at the offset `a`. -/
inductive EntrySeq (inflate : Bytes → Option (Bytes × Bytes)) (file : Bytes) : Nat → Nat → Nat → Prop
  | zero (pos : Nat) : EntrySeq inflate file pos 0 pos
  | succ (pos k a : Nat) (z d rest : Bytes) : entryBody (file.drop pos) = some z → inflate z = some (d, rest) → EntrySeq inflate file (file.length - rest.length) k a →
      EntrySeq inflate file pos (k + 1) a

/-- Starting from the entry at `pos` and going from deltas to their bases, in 64-bit arithmetic, one comes to the offset `a`. -/
inductive BaseOf (file : Bytes) : Nat → Nat → Prop
  | here (pos : Nat) : BaseOf file pos pos
  | base (pos a v w : Nat) (r r' : Bytes) : sizeField (file.drop pos) = some (v, r) → v / 16 % 8 = 6 → offsetField r = some (w, r') → w % 2 ^ 64 ≤ pos →
      BaseOf file (pos - w % 2 ^ 64) a → BaseOf file pos a

/-- Four bytes, most significant first. -/
def be32 (n : Nat) : List Nat := [n / 256 ^ 3 % 256, n / 256 ^ 2 % 256, n / 256 % 256, n % 256]

/-- The twelve header bytes of a pack with `n` objects. -/
def PackHeader (h : Bytes) (n : Nat) : Prop :=
  n < 2 ^ 32 ∧ h.map UInt8.toNat = [0x50, 0x41, 0x43, 0x4b] ++ be32 2 ++ be32 n

/-- Among the entries that a pack announces and their bases there is no delta that names itself as its base. -/
def NoSelfDelta (inflate : Bytes → Option (Bytes × Bytes)) (file : Bytes) : Prop :=
  ∀ n k p a, PackHeader (file.take 12) n → k < n → EntrySeq inflate file 12 k p → BaseOf file p a → ¬ ZeroDistance (file.drop a)

/-- `file` is a pack with these entries and this trailer. -/
def PackFile (inflate : Bytes → Option (Bytes × Bytes)) (file : Bytes) (es : List (Nat × Entry)) (trailer : Hash) :
    Prop :=
  ∃ h s, file = h ++ s ∧ PackHeader h es.length ∧ Entries inflate 12 s es trailer.1

/-- An object: type and content. -/
abbrev Obj := ObjectType × Bytes

/-- Type numbers 1-4. -/
def kindOf (k : Nat) : Option ObjectType :=
  if k = 1 then some .commit else if k = 2 then some .tree else if k = 3 then some .blob else if k = 4 then some .tag
  else none

/-- The object an entry at `off` stands for, given the objects of the earlier entries with their offsets, a naming of
objects, and the objects known from elsewhere. The result of a delta has the type of its base. -/
inductive Denotes (idOf : Obj → Hash) (known : Hash → Option Obj) (earlier : List (Nat × Obj)) (off : Nat) :
    Entry → Obj → Prop
  | whole (k : Nat) (t : ObjectType) (d : Bytes) : kindOf k = some t → Denotes idOf known earlier off (.whole k d) (t, d)
  | ofs (dist baseOff : Nat) (delta base out : Bytes) (t : ObjectType) : baseOff + dist = off →
      (baseOff, (t, base)) ∈ earlier → DeltaMeans base delta out → Denotes idOf known earlier off (.ofs dist delta) (t, out)
  | refIn (h : Hash) (baseOff : Nat) (delta base out : Bytes) (t : ObjectType) : (baseOff, (t, base)) ∈ earlier →
      idOf (t, base) = h → DeltaMeans base delta out → Denotes idOf known earlier off (.ref h delta) (t, out)
  | refOut (h : Hash) (delta base out : Bytes) (t : ObjectType) : (∀ p ∈ earlier, idOf p.2 ≠ h) →
      known h = some (t, base) → DeltaMeans base delta out → Denotes idOf known earlier off (.ref h delta) (t, out)

/-- The objects (with offsets) that a list of entries stands for. -/
inductive Resolves (idOf : Obj → Hash) (known : Hash → Option Obj) :
    List (Nat × Obj) → List (Nat × Entry) → List (Nat × Obj) → Prop
  | nil (earlier : List (Nat × Obj)) : Resolves idOf known earlier [] []
  | cons (earlier : List (Nat × Obj)) (off : Nat) (e : Entry) (es : List (Nat × Entry)) (o : Obj)
      (os : List (Nat × Obj)) : Denotes idOf known earlier off e o → Resolves idOf known (earlier ++ [(off, o)]) es os →
      Resolves idOf known earlier ((off, e) :: es) ((off, o) :: os)

/-- Ids identify objects, within this collection. -/
def NoCollision (idOf : Obj → Hash) (os : List (Nat × Obj)) : Prop :=
  ∀ a ∈ os, ∀ b ∈ os, idOf a.2 = idOf b.2 → a.2 = b.2

end Gust.Spec

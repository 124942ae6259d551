import Verif.Model.MetaData
import Verif.Model.Utils

/-! # `/repo/src/git/object/delta.rs` and `/repo/src/git/object/diff.rs` -/

namespace Gust

/-- `apply_delta_instruction`, delta.rs 48-100, on the decompressed delta stream: `none` at the end of the stream (56),
otherwise the extended result and the rest of the stream. `.unwrap()` on short input (75, 81, 83) panics.
`offset + size` (90) stays far below 2^64. -/
def applyDeltaInstruction (base : Bytes) (stream result : Bytes) : Res (Option (Bytes × Bytes)) :=
  match stream with
  | [] => .ok none
  | instruction :: stream =>
    if instruction &&& 0x80 = 0 then
      if instruction = 0 then .err .delta
      else do
        let (data, stream) ← (readBytes instruction.toNat stream).unwrap
        pure (some (result ++ data, stream))
    else do
      let ((offset, present), stream) ← (readPartialInt 4 0 instruction.toNat stream).unwrap
      let ((size, _), stream) ← (readPartialInt 3 0 present stream).unwrap
      let size := if size = 0 then 0x10000 else size
      if offset + size ≤ base.length then pure (some (result ++ (base.drop offset).take size, stream))
      else .err .delta

theorem readPartialInt_rest {n idx present : Nat} {s : Bytes} {r : (Nat × Nat) × Bytes}
    (h : readPartialInt n idx present s = .ok r) : r.2.length ≤ s.length := by
  induction n generalizing idx present s r with
  | zero => simp only [readPartialInt, Res.ok.injEq] at h; subst h; exact Nat.le_refl _
  | succ n ih =>
    simp only [readPartialInt, Res.bind_eq_ok] at h
    obtain ⟨⟨b, s'⟩, h1, ⟨⟨v, p⟩, s''⟩, h2, h3⟩ := h
    simp only [Res.pure_eq, Res.ok.injEq] at h3
    subst h3
    have hs' : s'.length ≤ s.length := by
      split at h1
      · simp only [Res.bind_eq_ok, readBytes] at h1
        obtain ⟨⟨bs, t⟩, h1, h1'⟩ := h1
        split at h1
        · simp only [Res.ok.injEq, Prod.mk.injEq] at h1
          simp only [Res.pure_eq, Res.ok.injEq, Prod.mk.injEq] at h1'
          rw [← h1'.2, ← h1.2]; simp
        · cases h1
      · simp only [Res.pure_eq, Res.ok.injEq, Prod.mk.injEq] at h1
        rw [h1.2]
        exact Nat.le_refl _
    have := ih h2
    simp only at this ⊢
    omega

theorem applyDeltaInstruction_shrinks {base stream result : Bytes} {r : Bytes × Bytes}
    (h : applyDeltaInstruction base stream result = .ok (some r)) : r.2.length < stream.length := by
  unfold applyDeltaInstruction at h
  split at h
  · cases h
  · rename_i instruction stream
    split at h
    · split at h
      · cases h
      · simp only [Res.bind_eq_ok, Res.unwrap_eq_ok, readBytes] at h
        obtain ⟨⟨d, s⟩, h1, h2⟩ := h
        split at h1
        · simp only [Res.ok.injEq, Prod.mk.injEq] at h1
          simp only [Res.pure_eq, Res.ok.injEq, Option.some.injEq] at h2
          rw [← h2, ← h1.2]; simp; omega
        · cases h1
    · simp only [Res.bind_eq_ok, Res.unwrap_eq_ok] at h
      obtain ⟨⟨⟨o, p⟩, s1⟩, h1, ⟨⟨z, p'⟩, s2⟩, h2, h3⟩ := h
      have e1 := readPartialInt_rest h1
      have e2 := readPartialInt_rest h2
      simp only at e1 e2 h3
      generalize (if z = 0 then 65536 else z) = zz at h3
      split at h3
      · simp only [Res.pure_eq, Res.ok.injEq, Option.some.injEq] at h3
        rw [← h3]; simp; omega
      · cases h3

/-- `while apply_delta_instruction(..)? {}`, delta.rs 35. -/
def applyDeltaLoop (base stream result : Bytes) : Res Bytes :=
  match h : applyDeltaInstruction base stream result with
  | .ok none => .ok result
  | .ok (some r) => applyDeltaLoop base r.2 r.1
  | .err e => .err e
  | .panic => .panic
  | .spin => .spin
termination_by stream.length
decreasing_by exact applyDeltaInstruction_shrinks h

/-- The closure of `apply_delta`, delta.rs 25-44, on the decompressed delta. `Vec::with_capacity` (34) panics for sizes
above `isize::MAX`; running out of memory below that is not modelled. -/
def applyDelta (X : Ext) (base : MetaData) (delta : Bytes) : Res MetaData := do
  let (baseSize, delta) ← readSizeEncoding delta
  if base.size ≠ baseSize then .err .delta
  else do
    let (resultSize, delta) ← readSizeEncoding delta
    if 2 ^ 63 ≤ resultSize then .panic
    else do
      let result ← applyDeltaLoop base.data delta []
      if result.length ≠ resultSize then .err .delta
      else MetaData.new X base.t result

/-- `Optype`, diff.rs 201-205. -/
inductive Optype
  | data
  | copy
  deriving DecidableEq, Repr

/-- `DeltaOp`, diff.rs 207-212. -/
structure DeltaOp where
  ins : Optype
  start : Nat
  len : Nat
  deriving DecidableEq, Repr

/-- The mutable part of `DeltaDiff`, diff.rs 18-24: operations (kept in reverse order so that the head is `ops.last()`) and
the number of equal bytes. -/
structure DiffState where
  rops : List DeltaOp
  ssam : Nat
  deriving DecidableEq, Repr

/-- Callbacks made by `diffs::myers::diff` (external): `equal`, `insert`, `delete`. -/
inductive DiffEvent
  | equal (old new len : Nat)
  | insert (old new len : Nat)
  | delete (old len new : Nat)
  deriving DecidableEq, Repr

/-- `Diff::equal` for `DeltaDiff`, diff.rs 122-143. -/
def DiffState.equal (s : DiffState) (old len : Nat) : DiffState :=
  let ssam := s.ssam + len
  match s.rops with
  | tail :: rest =>
    if tail.start + tail.len = old ∧ tail.ins = .copy then
      { rops := { tail with len := tail.len + len } :: rest, ssam := ssam }
    else { rops := { ins := .copy, start := old, len := len } :: tail :: rest, ssam := ssam }
  | [] => { rops := [{ ins := .copy, start := old, len := len }], ssam := ssam }

/-- `while len > DATA_INS_LEN` loop and the final push of `Diff::insert`, diff.rs 152-167 (operations in push order). -/
def insertChunks (new len : Nat) : List DeltaOp :=
  if 0x7f < len then { ins := .data, start := new, len := 0x7f } :: insertChunks (new + 0x7f) (len - 0x7f)
  else [{ ins := .data, start := new, len := len }]
termination_by len
decreasing_by omega

/-- `Diff::insert` for `DeltaDiff`, diff.rs 147-192. -/
def DiffState.insert (s : DiffState) (new len : Nat) : DiffState :=
  if 0x7f < len then { s with rops := (insertChunks new len).reverse ++ s.rops }
  else
    match s.rops with
    | tail :: rest =>
      if tail.start + tail.len = new ∧ tail.ins = .data ∧ tail.len + len < 0x7f then
        { s with rops := { tail with len := tail.len + len } :: rest }
      else { s with rops := { ins := .data, start := new, len := len } :: tail :: rest }
    | [] => { s with rops := [{ ins := .data, start := new, len := len }] }

/-- One callback; `delete` is the trait's default no-op (`DeltaDiff` does not override it, diff.rs 118-199). -/
def DiffState.step (s : DiffState) : DiffEvent → DiffState
  | .equal old _ len => s.equal old len
  | .insert _ new len => s.insert new len
  | .delete _ _ _ => s

/-- `DeltaDiff::new`, diff.rs 29-51, for the callbacks the diff library makes. -/
def diffRun (events : List DiffEvent) : DiffState := events.foldl DiffState.step { rops := [], ssam := 0 }

/-- One of the two loops of `decode_op`, diff.rs 86-93 and 95-102: present bits and non-zero bytes of `n` little-endian
bytes of `v`, the first using bit `i`. -/
def partialBytes : (n i v : Nat) → Nat × Bytes
  | 0, _, _ => (0, [])
  | n + 1, i, v =>
    let r := partialBytes n (i + 1) (v >>> 8)
    if v &&& 0xff ≠ 0 then ((1 <<< i) ||| r.1, u8 (v &&& 0xff) :: r.2) else r

/-- `DeltaDiff::decode_op`, diff.rs 70-110. -/
def decodeOp (newData : Bytes) (op : DeltaOp) : Res Bytes :=
  match op.ins with
  | .data => do
    let d ← slice newData op.start (op.start + op.len)
    pure (u8 (op.len &&& 0x7f) :: d)
  | .copy =>
    let o := partialBytes 4 0 op.start
    let z := partialBytes 3 4 op.len
    .ok (u8 (0x80 ||| o.1 ||| z.1) :: (o.2 ++ z.2))

/-- The loop of `get_delta_metadata`, diff.rs 61-63. -/
def decodeOps (newData : Bytes) : List DeltaOp → Res Bytes
  | [] => .ok []
  | op :: ops => do
    let a ← decodeOp newData op
    let b ← decodeOps newData ops
    pure (a ++ b)

/-- `DeltaDiff::get_delta_metadata`, diff.rs 55-66. -/
def getDeltaMetadata (old new : MetaData) (s : DiffState) : Res Bytes := do
  let ops ← decodeOps new.data s.rops.reverse
  pure (writeSizeEncoding old.size ++ writeSizeEncoding new.size ++ ops)

end Gust

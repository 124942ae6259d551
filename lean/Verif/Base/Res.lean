/-!
# Results, byte strings and byte-stream readers

Shared vocabulary of the model. Nothing here is specific to one Rust file.
-/

namespace Gust

/-- Byte strings: `Vec<u8>`, `&[u8]`, `Bytes`, and also `String`/`&str` (as their UTF-8 bytes). -/
abbrev Bytes := List UInt8

/-- The `Err` values that matter for control flow. Messages are not modelled.
`/repo/src/git/errors.rs` (`GitError`), `std::io::Error`, and the protocol/LFS error types. -/
inductive GitErr
  /-- `std::io::Error` (unexpected end of input) -/
  | io
  /-- `GitError::DeltaObjError` -/
  | delta
  /-- `GitError::InvalidObjectInfo` / `InvalidObjectType` -/
  | objectInfo
  /-- `GitError::InvalidPackHeader` -/
  | packHeader
  /-- `GitError::InvalidPackFile` -/
  | packFile
  /-- `GitError::InvalidIdxFile` -/
  | idxFile
  /-- `GitError::InvalidHashValue` -/
  | hashValue
  /-- `GitError::InvalidTreeItem` -/
  | treeItem
  /-- `GitError::NotFountHashValue` -/
  | notFoundHash
  /-- any other error -/
  | other
  deriving DecidableEq, Repr

/-- Outcome of a Rust call: a value, an `Err`, a panic, or (model only) loop fuel exhausted. -/
inductive Res (α : Type u) : Type u
  | ok (a : α)
  | err (e : GitErr)
  | panic
  | spin
  deriving DecidableEq, Repr

namespace Res

/-- `?` / sequencing: anything but a value is propagated. -/
protected def bind {α : Type u} {β : Type v} : Res α → (α → Res β) → Res β
  | ok a, f => f a
  | err e, _ => err e
  | panic, _ => panic
  | spin, _ => spin

instance : Monad Res where
  pure := ok
  bind := Res.bind

@[simp] theorem pure_eq {α : Type u} (a : α) : (pure a : Res α) = ok a := rfl
@[simp] theorem bind_ok {α β : Type u} (a : α) (f : α → Res β) : (ok a >>= f) = f a := rfl
@[simp] theorem bind_err {α β : Type u} (e : GitErr) (f : α → Res β) : (err e >>= f) = err e := rfl
@[simp] theorem bind_panic {α β : Type u} (f : α → Res β) : ((panic : Res α) >>= f) = panic := rfl
@[simp] theorem bind_spin {α β : Type u} (f : α → Res β) : ((spin : Res α) >>= f) = spin := rfl

theorem bind_eq_ok {α β : Type u} {x : Res α} {f : α → Res β} {b : β} :
    (x >>= f) = ok b ↔ ∃ a, x = ok a ∧ f a = ok b := by
  cases x <;> simp

@[simp] theorem map_ok {α β : Type u} (a : α) (f : α → β) : f <$> (ok a : Res α) = ok (f a) := rfl

instance : LawfulMonad Res := LawfulMonad.mk' Res
  (id_map := by intro α x; cases x <;> rfl)
  (pure_bind := by intros; rfl)
  (bind_assoc := by intro α β γ x f g; cases x <;> rfl)

/-- `.unwrap()` / `.expect()` on a `Result`: an `Err` becomes a panic. -/
def unwrap {α : Type u} : Res α → Res α
  | err _ => panic
  | r => r

@[simp] theorem unwrap_ok {α : Type u} (a : α) : (ok a).unwrap = ok a := rfl
@[simp] theorem unwrap_err {α : Type u} (e : GitErr) : (err e : Res α).unwrap = panic := rfl
@[simp] theorem unwrap_panic {α : Type u} : (panic : Res α).unwrap = panic := rfl
@[simp] theorem unwrap_spin {α : Type u} : (spin : Res α).unwrap = spin := rfl

theorem unwrap_eq_ok {α : Type u} {x : Res α} {a : α} : x.unwrap = ok a ↔ x = ok a := by
  cases x <;> simp

/-- `.unwrap()` on an `Option`. -/
def unwrapOpt {α : Type u} : Option α → Res α
  | some a => ok a
  | none => panic

@[simp] theorem unwrapOpt_some {α : Type u} (a : α) : unwrapOpt (some a) = ok a := rfl
@[simp] theorem unwrapOpt_none {α : Type u} : unwrapOpt (none : Option α) = panic := rfl

theorem unwrapOpt_eq_ok {α : Type u} {x : Option α} {a : α} : unwrapOpt x = ok a ↔ x = some a := by
  cases x <;> simp

/-- `.ok_or(e)` on an `Option`. -/
def okOr {α : Type u} (o : Option α) (e : GitErr) : Res α :=
  match o with
  | some a => ok a
  | none => err e

@[simp] theorem okOr_some {α : Type u} (a : α) (e : GitErr) : okOr (some a) e = ok a := rfl
@[simp] theorem okOr_none {α : Type u} (e : GitErr) : okOr (none : Option α) e = err e := rfl

theorem okOr_eq_ok {α : Type u} {x : Option α} {e : GitErr} {a : α} :
    okOr x e = ok a ↔ x = some a := by
  cases x <;> simp

/-- The call ended (with a value, an error or a panic). -/
def halts {α : Type u} : Res α → Prop
  | spin => False
  | _ => True

end Res

/-- `&data[a..b]`: panics unless `a ≤ b ≤ len`. -/
def slice {α : Type u} (data : List α) (a b : Nat) : Res (List α) :=
  if a ≤ b ∧ b ≤ data.length then .ok ((data.take b).drop a) else .panic

/-- `&data[a..]`: panics unless `a ≤ len`. -/
def sliceFrom {α : Type u} (data : List α) (a : Nat) : Res (List α) :=
  if a ≤ data.length then .ok (data.drop a) else .panic

end Gust

import Verif.Spec.Json
import Mathlib.Data.List.Forall2

/-! # The requests of the LFS API as JSON texts

Taken from the API documentation of Git LFS (`docs/api/batch.md`, `docs/api/locking.md`): objects with named members, in any order, with any white space, any way to write the texts, and any other members. -/

namespace Gust

/-- The object has exactly one member of this name, and this is its value. -/
def Spec.Says (l : List (Bytes × Json)) (name : Bytes) (v : Json) : Prop :=
  ∃ pre raw post, l = pre ++ (raw, v) :: post ∧ Spec.JsonReads raw name ∧ ∀ m ∈ pre ++ post, ¬ Spec.JsonReads m.1 name

/-- The object has no member of this name. -/
def Spec.Lacks (l : List (Bytes × Json)) (name : Bytes) : Prop := ∀ m ∈ l, ¬ Spec.JsonReads m.1 name

/-- The names of the members are texts: UTF-8, no single surrogates. -/
def Spec.Names (l : List (Bytes × Json)) : Prop := ∀ m ∈ l, ∃ name, Spec.JsonReads m.1 name

/-- The text `c`. -/
def Spec.IsText (v : Json) (c : Bytes) : Prop := ∃ raw, v = .str raw ∧ Spec.JsonReads raw c

/-- The value of a decimal number. -/
def Spec.decimal (d : Bytes) : Nat := d.foldl (fun a b => 10 * a + (b.toNat - 0x30)) 0

/-- The whole number `n`, 64 bits with a sign. -/
def Spec.IsInt (v : Json) (n : Int) : Prop :=
  (-2 ^ 63 ≤ n ∧ n < 2 ^ 63) ∧
    ∃ d, Spec.JsonDigits d ∧ (v = .num d ∧ n = Spec.decimal d ∨ v = .num (ascii "-" ++ d) ∧ Spec.decimal d ≠ 0 ∧ n = -Spec.decimal d)

/-- A truth value. -/
def Spec.IsFlag (v : Json) (b : Bool) : Prop := v = .bool b

/-- A member that may be absent or `null`. -/
def Spec.MaySay {α : Type} (l : List (Bytes × Json)) (name : Bytes) (is : Json → α → Prop) (o : Option α) : Prop :=
  match o with
  | some a => ∃ v, Spec.Says l name v ∧ is v a
  | none => Spec.Lacks l name ∨ Spec.Says l name .null

/-- A member that may be absent: then it stands for the empty text. -/
def Spec.TextOr (l : List (Bytes × Json)) (name c : Bytes) : Prop :=
  (∃ v, Spec.Says l name v ∧ Spec.IsText v c) ∨ (Spec.Lacks l name ∧ c = [])

/-- `{"name": …}`. -/
def Spec.IsRef (v : Json) (name : Bytes) : Prop := ∃ l w, v = .obj l ∧ Spec.Names l ∧ Spec.Says l (ascii "name") w ∧ Spec.IsText w name

/-- A request to create a lock. -/
def Spec.LockBody (s ref path : Bytes) : Prop :=
  ∃ l p r, Spec.JsonDoc (.obj l) s ∧ Spec.Names l ∧ Spec.Says l (ascii "path") p ∧ Spec.IsText p path ∧ Spec.Says l (ascii "ref") r ∧ Spec.IsRef r ref

/-- A request to delete a lock. -/
def Spec.UnlockBody (s ref : Bytes) (force : Option Bool) : Prop :=
  ∃ l r, Spec.JsonDoc (.obj l) s ∧ Spec.Names l ∧ Spec.MaySay l (ascii "force") Spec.IsFlag force ∧ Spec.Says l (ascii "ref") r ∧ Spec.IsRef r ref

/-- A request for the locks before a push. -/
def Spec.VerifyBody (s ref : Bytes) (cursor : Option Bytes) (limit : Option Int) : Prop :=
  ∃ l r, Spec.JsonDoc (.obj l) s ∧ Spec.Names l ∧ Spec.Says l (ascii "ref") r ∧ Spec.IsRef r ref ∧ Spec.MaySay l (ascii "cursor") Spec.IsText cursor ∧
    Spec.MaySay l (ascii "limit") Spec.IsInt limit

/-- One object of a batch; `user`, `password`, `repo` and `authorization` are additions of this server. -/
def Spec.IsObject (v : Json) (o : RequestVars) : Prop :=
  ∃ l i z, v = .obj l ∧ Spec.Names l ∧ Spec.Says l (ascii "oid") i ∧ Spec.IsText i o.oid ∧ Spec.Says l (ascii "size") z ∧ Spec.IsInt z o.size ∧
    Spec.TextOr l (ascii "user") o.user ∧ (∃ c, Spec.TextOr l (ascii "password") c) ∧ Spec.TextOr l (ascii "repo") o.repo ∧ ∃ c, Spec.TextOr l (ascii "authorization") c

/-- A batch request that names the ways of transfer it knows. -/
def Spec.BatchBody (s operation : Bytes) (objects : List RequestVars) : Prop :=
  ∃ l ts o vs, Spec.JsonDoc (.obj l) s ∧ Spec.Names l ∧ Spec.Says l (ascii "transfers") (.arr ts) ∧ (∀ t ∈ ts, ∃ c, Spec.IsText t c) ∧
    Spec.Says l (ascii "operation") o ∧ Spec.IsText o operation ∧ Spec.Says l (ascii "objects") (.arr vs) ∧ List.Forall₂ Spec.IsObject vs objects

end Gust

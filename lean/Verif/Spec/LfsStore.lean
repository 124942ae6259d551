import Verif.Model.LfsStore

/-! # Vocabulary for the properties of LFS objects -/

namespace Gust

/-- An oid the object routes accept: `[a-z0-9]+`. -/
def Spec.RouteOid (oid : Bytes) : Prop :=
  oid ≠ [] ∧ ∀ c ∈ oid, (97 ≤ c.toNat ∧ c.toNat ≤ 122) ∨ (48 ≤ c.toNat ∧ c.toNat ≤ 57)

/-- What is assumed about the collation of the key column: only strings without slashes and dots are equal to a routed oid, and
two different routed oids are not equal. (Exact comparison and ASCII case folding are instances, shown below.) -/
def Spec.CollationOk (D : DbExt) : Prop :=
  ∀ s t, Spec.RouteOid t → D.fold s = D.fold t → s ≠ [] ∧ (0x2f : UInt8) ∉ s ∧ (0x2e : UInt8) ∉ s ∧ (Spec.RouteOid s → s = t)

/-- SHA-256 in lower-case hexadecimal. -/
def Spec.HexDigest (E : StoreExt) : Prop :=
  ∀ b, (E.digest b).length = 64 ∧ ∀ c ∈ E.digest b, (97 ≤ c.toNat ∧ c.toNat ≤ 102) ∨ (48 ≤ c.toNat ∧ c.toNat ≤ 57)

/-- Inside the content directory (not the directory itself). -/
def Spec.Below (E : StoreExt) (q : Bool × List Bytes) : Prop :=
  ∃ tail ≠ [], q = ((components E.base).1, (components E.base).2 ++ tail)

/-- A directory on the way to the content directory, or that directory. -/
def Spec.Above (E : StoreExt) (q : Bool × List Bytes) : Prop :=
  q.1 = (components E.base).1 ∧ q.2 <+: (components E.base).2

/-- A new server: no metadata, nothing in the content directory, nothing in the way of creating it. -/
def Spec.FreshStore (E : StoreExt) (s : LfsState) : Prop :=
  (∀ k, s.metas k = none) ∧ (∀ q, Spec.Below E q → s.disk q = none) ∧ ∀ q c, Spec.Above E q → s.disk q ≠ some (.file c)

/-- The metadata row the database has for `oid` when an object of a batch is processed, given the rows before the batch and the objects
of the batch before it: the row that was there; otherwise, in an upload batch, the first of the earlier objects with this oid. -/
def Spec.rowFor (D : DbExt) (m0 : MetaTable) (upload : Bool) (earlier : List RequestVars) (oid : Bytes) : Option (Bytes × Int) :=
  match m0 (D.fold oid) with
  | some row => some row
  | none =>
    if upload then (earlier.find? (fun w => D.fold w.oid == D.fold oid)).map (fun w => (w.oid, w.size)) else none

end Gust

import Verif.Model.LfsLock

/-! # Vocabulary for the properties of LFS locks -/

namespace Gust

/-- A client that lists the locks of a ref without further parameters is shown `ls` and no cursor. -/
def Spec.Listed (D : DbExt) (t : LockTable) (r : Bytes) (ls : List Lock) : Prop :=
  retrieveLock D t { refspec := some r } = .ok (ls, [])

/-- A client pages through a listing: it asks without a cursor, and as long as a cursor is returned it asks again with
this cursor. `seen` is what it has been shown when no cursor is returned. -/
inductive Spec.Paged (ask : Option Bytes → Reply VerifiableLockList) : Option Bytes → List Lock → Prop
  | last (c : Option Bytes) (p : VerifiableLockList) : ask c = .ok p → p.next = [] → Paged ask c (p.ours ++ p.theirs)
  | more (c : Option Bytes) (p : VerifiableLockList) (rest : List Lock) : ask c = .ok p → p.next ≠ [] →
      Paged ask (some p.next) rest → Paged ask c (p.ours ++ p.theirs ++ rest)

/-- The ref of a request that is being processed. -/
def Spec.inFlight : LockTask → Option Bytes
  | .create r _ _ _ | .createRead r _ | .createWrite r _ _ | .delete r _ _ | .deleteWrite r _ _ _ => some r
  | .done _ => none

/-- No two requests for the same ref are being processed at the same time. -/
def Spec.NoOverlap (D : DbExt) (s : LockServer) : Prop :=
  ∀ (i j : Nat) (a b : LockTask) (r r' : Bytes), s.tasks[i]? = some a → s.tasks[j]? = some b → Spec.inFlight a = some r → Spec.inFlight b = some r' →
    D.fold r = D.fold r' → i = j

/-- Server states reachable when requests for the same ref never overlap (requests for different refs may). -/
inductive Spec.ReachApart (D : DbExt) : LockServer → Prop
  | init : ReachApart D { table := noLocks, tasks := [] }
  | step (s s' : LockServer) : ReachApart D s → LockServer.Step D s s' → Spec.NoOverlap D s' → ReachApart D s'

/-- The ids drawn by the creations of a history. -/
def Spec.drawnIds (h : List LockReq) : List Bytes :=
  h.filterMap (fun q => match q with | .create _ _ i _ => some i | _ => none)

end Gust

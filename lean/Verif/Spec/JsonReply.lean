import Verif.Model.JsonOut
import Verif.Spec.JsonReq

/-! # The replies of the LFS API as JSON values

What a client finds in a reply, in the words of the API documentation of Git LFS (`docs/api/batch.md`, `docs/api/locking.md`). -/

namespace Gust

/-- A lock: id, path, time, and the owner when there is one. -/
def Spec.ShowsLock (v : Json) (l : Lock) : Prop :=
  ∃ ms i p t, v = .obj ms ∧ Spec.Names ms ∧ Spec.Says ms (ascii "id") i ∧ Spec.IsText i l.id ∧ Spec.Says ms (ascii "path") p ∧ Spec.IsText p l.path ∧
    Spec.Says ms (ascii "locked_at") t ∧ Spec.IsText t l.lockedAt ∧ Spec.MaySay ms (ascii "owner") Spec.IsRef l.owner

/-- Locks in their order. -/
def Spec.ShowsLocks (v : Json) (ls : List Lock) : Prop := ∃ vs, v = .arr vs ∧ List.Forall₂ Spec.ShowsLock vs ls

/-- Where to go, until when. -/
def Spec.ShowsLink (v : Json) (href expires : Bytes) : Prop :=
  ∃ ms h e, v = .obj ms ∧ Spec.Names ms ∧ Spec.Says ms (ascii "href") h ∧ Spec.IsText h href ∧ Spec.Says ms (ascii "expires_at") e ∧ Spec.IsText e expires

/-- One action and no other, or an error and no action. -/
def Spec.ShowsOffer (ms : List (Bytes × Json)) (expires : Bytes) : Offer → Prop
  | .download href => Spec.Lacks ms (ascii "error") ∧ ∃ as k, Spec.Says ms (ascii "actions") (.obj as) ∧ Spec.Names as ∧ Spec.Says as (ascii "download") k ∧ Spec.ShowsLink k href expires ∧
      Spec.Lacks as (ascii "upload")
  | .upload href => Spec.Lacks ms (ascii "error") ∧ ∃ as k, Spec.Says ms (ascii "actions") (.obj as) ∧ Spec.Names as ∧ Spec.Says as (ascii "upload") k ∧ Spec.ShowsLink k href expires ∧
      Spec.Lacks as (ascii "download")
  | .error code => Spec.Lacks ms (ascii "actions") ∧ ∃ es c m, Spec.Says ms (ascii "error") (.obj es) ∧ Spec.Names es ∧ Spec.Says es (ascii "code") c ∧ Spec.IsInt c code ∧
      Spec.Says es (ascii "message") m ∧ ∃ t, Spec.IsText m t

/-- One object of a batch. -/
def Spec.ShowsRep (expires : Bytes) (v : Json) (r : Rep) : Prop :=
  ∃ ms i z, v = .obj ms ∧ Spec.Names ms ∧ Spec.Says ms (ascii "oid") i ∧ Spec.IsText i r.oid ∧ Spec.Says ms (ascii "size") z ∧ Spec.IsInt z r.size ∧ Spec.ShowsOffer ms expires r.offer

/-- A reply. -/
def Spec.ShowsReply (expires : Bytes) (v : Json) : Payload → Prop
  | .bytes _ => False
  | .lock l => ∃ ms k, v = .obj ms ∧ Spec.Names ms ∧ Spec.Says ms (ascii "lock") k ∧ Spec.ShowsLock k l
  | .locks ls next => ∃ ms k n, v = .obj ms ∧ Spec.Names ms ∧ Spec.Says ms (ascii "locks") k ∧ Spec.ShowsLocks k ls ∧ Spec.Says ms (ascii "next_cursor") n ∧ Spec.IsText n next
  | .verified a => ∃ ms o t n, v = .obj ms ∧ Spec.Names ms ∧ Spec.Says ms (ascii "ours") o ∧ Spec.ShowsLocks o a.ours ∧ Spec.Says ms (ascii "theirs") t ∧ Spec.ShowsLocks t a.theirs ∧
      Spec.Says ms (ascii "next_cursor") n ∧ Spec.IsText n a.next
  | .objects rs => ∃ ms t vs, v = .obj ms ∧ Spec.Names ms ∧ Spec.Says ms (ascii "transfer") t ∧ Spec.IsText t (ascii "basic") ∧ Spec.Says ms (ascii "objects") (.arr vs) ∧
      List.Forall₂ (Spec.ShowsRep expires) vs rs

end Gust

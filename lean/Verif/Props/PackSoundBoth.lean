import Verif.Props.PackSound
import Verif.Props.PublishBoth
import Verif.Props.BothExamples
import Verif.Base.Tactics

/-! # C135 for pushes to both servers -/

namespace Gust

open Spec (nodeObj)

/-- The objects that are stored, found by their ids. -/
def Spec.FindsStored (X : Ext) (db : Db) (known : Hash → Option Spec.Obj) : Prop := ∀ n ∈ db.nodes, known (idOf X (nodeObj n)) = some (nodeObj n)

/-- The storage answers only with what is stored. -/
theorem getHash_only {X : Ext} {E : SqlExt} {db : Db} (hn : NodesOk X db) (hfold : ∀ a b : Hash, E.fold (Hash.toPlainStr a) = E.fold (Hash.toPlainStr b) → a = b)
    {known : Hash → Option Spec.Obj} (hk : Spec.FindsStored X db known) : Spec.Only (getHashObject X E db) known := by
  intro h m e
  unfold getHashObject at e
  cases hh : (E.order (db.nodes.filter (fun n => E.fold n.gitId == E.fold (Hash.toPlainStr h)))).head? with
  | none => rw [hh] at e; cases e
  | some n =>
    rw [hh] at e
    obtain ⟨hm, he⟩ := List.mem_filter.1 ((E.order_perm _).mem_iff.1 (List.mem_of_head? hh))
    rw [hn.id n hm] at he
    have hid := hfold _ _ (eq_of_beq he)
    have hb : (nodeObj n).1.isBase = true := by
      rw [nodeObj]
      simp only
      split <;> rfl
    have hnew : MetaData.new X (if n.nodeType = ascii "tree" then .tree else .blob) n.data = .ok (metaOf X (nodeObj n)) := new_metaOf X (nodeObj n) hb
    simp only [hnew, Option.some.injEq] at e
    subst e
    exact ⟨rfl, by rw [← hid]; exact hk n hm⟩

/-- **C135, partial**: whenever a push over HTTP or SSH is answered, after anything anybody has done, its bytes begin with the header of a pack, and behind it stand, one behind the other, as many
entries as the header announces; and every object that is stored afterwards was stored before, or stands in these bytes. (`known`: the objects stored before, by their ids. Missing: as for
`C135_read_partial`. No two objects in the bytes have the same id.) -/
theorem C135_pushed_partial (P : ServerExt) (hfold : ∀ a b : Hash, P.D.fold (Hash.toPlainStr a) = P.D.fold (Hash.toPlainStr b) → a = b) (u : Bytes) (c : Spec.PushCmd) (hc : c.Ok)
    (caps : Bytes) (hcaps : caps.length ≤ 4000) (hascii : ∀ x ∈ caps, x.toNat < 128) (pack rep : Bytes) (hpack : (ascii "PACK").isPrefixOf pack = true) (m : Moment)
    (hm : m.sql.fold = P.D.fold) (h h' : BothHist) (hpush : Spec.PushedAny P u c caps pack rep m h h') (known : Hash → Option Spec.Obj)
    (hk : Spec.FindsStored P.X (runBoth P .empty h).web.db known) (hd : Spec.Distinct P.X known pack) :
    (∃ os stop, Spec.PackHeader (pack.take 12) os.length ∧ Spec.Row P.X.inflate (idOf P.X) known pack 12 os stop) ∧
    ∀ o, StoredObj (runBoth P .empty h').web.db o → StoredObj (runBoth P .empty h).web.db o ∨ ∃ off r, Spec.Stands P.X.inflate (idOf P.X) known pack off o r := by
  obtain ⟨st', e1, e2, -⟩ := pushedAny_http hc hcaps hascii hpush
  rw [push_answer _ u _ c hc caps hcaps hascii pack hpack] at e1
  obtain ⟨p, db1, h1, h2, h3, _⟩ := receiveData_ok rfl (Res.unwrap_eq_ok.1 e1)
  simp only at h1 h2 h3
  obtain ⟨k1, k2⟩ := handleRefs_only m.sql { RefCommand.new c.old c.new (c.name ++ [0]) with ok := true } u db1
  rw [h3] at k1 k2
  obtain ⟨os, stop, q1, q2, -, -, -, q6⟩ := C135_read_partial (getHash_only (both_nodes P h) (by rw [hm]; exact hfold) hk) hd m.fuel p h1
  refine ⟨⟨os, stop, q1, q2⟩, fun o ho => ?_⟩
  obtain ⟨rows, r1, r2, -, r4⟩ := push_effect h1 m.sql m.fuel u (runBoth P .empty h).web.db
  have e3 : (savePackfile m.sql m.fuel p u (runBoth P .empty h).web.db).2 = db1 := by
    have := congrArg Prod.snd h2
    exact this
  rw [e3] at r1 r4
  have found : ∀ x : MetaData, p.result.hashObject x.id = some x → ∃ off r, Spec.Stands P.X.inflate (idOf P.X) known pack off (x.t, x.data) r := by
    intro x hx
    obtain ⟨off, o', r, hs, rfl, -⟩ := q6 _ _ hx
    exact ⟨off, r, hs⟩
  rw [e2] at ho
  rcases ho with ⟨n, hn, rfl⟩ | ⟨row, hrow, rfl⟩
  · rw [k1, r1] at hn
    rcases List.mem_append.1 hn with hn | hn
    · exact .inl (.inl ⟨n, hn, rfl⟩)
    · obtain ⟨x, hx, ex, -⟩ := r2 n hn
      have := found x hx
      rw [ex] at this
      exact .inr this
  · rw [k2] at hrow
    rcases r4 row hrow with hrow | ⟨-, -, x, cm, hx, ht, hdat, -⟩
    · exact .inl (.inr ⟨row, hrow, rfl⟩)
    · have := found x hx
      rw [ht, ← hdat] at this
      exact .inr this

/-! ## A concrete push -/

/-- The demo server with the decompressor of the examples of C135. -/
def blobServer : ServerExt := { demoServer with X := demoExt }

def blobPush : Visit := .http (Spec.pushReq (ascii "/app" ++ []) (Spec.pushBody appCmd [] (ascii "report-status") plainPack))

def blobReport : Bytes := ascii "000eunpack ok\n0019ok refs/heads/master" ++ [0] ++ ascii "00000000"

theorem blobPush_answered : Spec.PushedAny blobServer (ascii "/app") appCmd (ascii "report-status") plainPack blobReport demoMoment [] [(demoMoment, blobPush)] :=
  .http [] [] app_clean_url (.inl rfl) (by decide +kernel)

/-- Two files are pushed. -/
example : ∃ os stop, Spec.PackHeader (plainPack.take 12) os.length ∧ Spec.Row demoExt.inflate (idOf demoExt) (fun _ => none) plainPack 12 os stop :=
  (C135_pushed_partial blobServer demoFold_hash (ascii "/app") appCmd appCmd_ok (ascii "report-status") (by decide) (by decide) plainPack blobReport (by decide +kernel) demoMoment rfl
    [] _ blobPush_answered (fun _ => none) (fun n hn => by cases hn) plain_distinct).1

end Gust

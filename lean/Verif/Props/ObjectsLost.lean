import Verif.Model.ObjectsLost
import Verif.Props.ObjectsFail

/-! # C169: LFS objects while answers of the database are lost -/

namespace Gust

/-- The request that has the same effect when no answer is lost. -/
def LfsReq.shortened (f : MetaTrouble) : LfsReq → LfsReq
  | .batch op vs => .batch op (match f.upto with | none => vs | some k => vs.take k)
  | .upload oid body => if f.reads = false then .download oid else .upload oid body
  | .download oid => .download oid

theorem lost_shortened (D : DbExt) (E : StoreExt) (f : MetaTrouble) (s : LfsState) (q : LfsReq) : q.lost D E f s = (q.shortened f).under D E f.toMetaFault s := by
  cases q with
  | batch op vs =>
    simp only [LfsReq.lost, LfsReq.shortened, LfsReq.under]
    cases f.upto <;> rfl
  | upload oid body =>
    simp only [LfsReq.lost, LfsReq.shortened, uploadLost]
    split
    · simp only [LfsReq.under, downloadObject_state]
    · simp only [LfsReq.under]
      split <;> rfl
  | download oid => rfl

theorem lfsLost_shortened (D : DbExt) (E : StoreExt) (s : LfsState) (h : List (MetaTrouble × LfsReq)) :
    lfsLost D E s h = lfsUnder D E s (h.map (fun x => (x.1.toMetaFault, x.2.shortened x.1))) := by
  induction h generalizing s with
  | nil => rfl
  | cons x h ih =>
    show lfsLost D E (x.2.lost D E x.1 s) h = _
    rw [ih, lost_shortened]
    rfl

theorem shortened_upload {f : MetaTrouble} {q : LfsReq} {oid body : Bytes} (h : q.shortened f = .upload oid body) : q = .upload oid body ∧ f.reads = true := by
  cases q with
  | batch op vs => cases h
  | upload o b =>
    simp only [LfsReq.shortened] at h
    split at h
    · cases h
    · rename_i e
      exact ⟨h, by simpa using e⟩
  | download o => cases h

/-- **C169 (partial)** Whatever statements fail and whatever answers of the database are lost, before and after: when an upload of at most one write's length is answered with success, and any further requests follow except uploads for the
same oid, a download delivers exactly the uploaded bytes. (Missing from the full claim: longer bodies, see `C45_upload_download_false`; other uploads for the oid, see `C167_wrong_false`.) -/
theorem C169_kept_partial (D : DbExt) (E : StoreExt) (hD : Spec.CollationOk D) (hE : Spec.HexDigest E) (s0 : LfsState)
    (hs : Spec.FreshStore E s0) (h1 h2 : List (MetaTrouble × LfsReq)) (f : MetaTrouble) (oid body : Bytes) (ho : Spec.RouteOid oid) (hlen : body.length ≤ E.maxWrite)
    (hacc : (uploadLost D E f (lfsLost D E s0 h1) oid body).1 = .ok ())
    (hup : ∀ f' oid' body', (f', .upload oid' body') ∈ h2 → Spec.RouteOid oid' ∧ oid' ≠ oid) :
    (downloadObject D E (lfsLost D E s0 (h1 ++ (f, .upload oid body) :: h2)) oid).1 = .ok body := by
  unfold uploadLost at hacc
  split at hacc
  · cases hacc
  · rename_i hr
    simp only at hacc
    split at hacc
    · cases hacc
    · rw [lfsLost_shortened] at hacc ⊢
      have := C167_kept_partial D E hD hE s0 hs (h1.map (fun x => (x.1.toMetaFault, x.2.shortened x.1))) (h2.map (fun x => (x.1.toMetaFault, x.2.shortened x.1))) f.toMetaFault oid body ho hlen hacc (by
        intro f' oid' body' hm
        obtain ⟨⟨g, q⟩, hx, e⟩ := List.mem_map.1 hm
        obtain ⟨rfl, -⟩ := shortened_upload (Prod.mk.inj e).2
        exact hup g oid' body' hx)
      rw [List.map_append, List.map_cons]
      simp only [LfsReq.shortened, if_neg hr]
      exact this

/-- **C169 (partial)** Whatever has failed and got lost before: the right bytes for an oid that is on record with the right size are accepted, if only the SELECT statement of the upload is answered. (Missing from the full claim: oids of
fewer than five characters, see `C68_short_oid_false`; bytes longer than one write.) -/
theorem C169_accepted_partial (D : DbExt) (E : StoreExt) (hD : Spec.CollationOk D) (s0 : LfsState) (hs : Spec.FreshStore E s0) (h : List (MetaTrouble × LfsReq))
    (hq : ∀ x ∈ h, Spec.LongOids x.2) (f : MetaTrouble) (hf : f.reads = true) (oid body : Bytes) (ho : Spec.RouteOid oid)
    (hm : (lfsLost D E s0 h).metas (D.fold oid) = some (oid, (body.length : Int))) (hdig : E.digest body = oid) (hlen : body.length ≤ E.maxWrite) :
    (uploadLost D E f (lfsLost D E s0 h) oid body).1 = .ok () := by
  rw [lfsLost_shortened] at hm ⊢
  have := C167_accepted_partial D E hD s0 hs (h.map (fun x => (x.1.toMetaFault, x.2.shortened x.1))) (by
    intro x hx
    obtain ⟨⟨g, q⟩, hx', rfl⟩ := List.mem_map.1 hx
    have := hq _ hx'
    cases q with
    | batch op vs =>
      intro v hv
      simp only at hv
      cases hu : g.upto with
      | none => rw [hu] at hv; exact this v hv
      | some k => rw [hu] at hv; exact this v (List.mem_of_mem_take hv)
    | upload o b =>
      simp only [LfsReq.shortened]
      split
      · exact trivial
      · exact this
    | download o => exact trivial) f.toMetaFault oid body ho hm hdig hlen
  unfold uploadLost
  rw [if_neg (by simp [hf])]
  simp only
  rw [if_neg (by rw [this]; exact fun e => nomatch e.1)]
  exact this

/-- **C169 (partial)** Whatever statements fail and whatever answers are lost: as long as no upload for the oid was rejected or left unanswered (and none was longer than one write), a download that succeeds delivers bytes whose digest is the
oid. (Missing from the full claim: such uploads, see `C167_wrong_false` and `C44_download_false`.) -/
theorem C169_content_partial (D : DbExt) (E : StoreExt) (hD : Spec.CollationOk D) (hE : Spec.HexDigest E) (s0 : LfsState) (hs : Spec.FreshStore E s0)
    (h : List (MetaTrouble × LfsReq)) (hup : ∀ f oid body, (f, .upload oid body) ∈ h → Spec.RouteOid oid ∧ body.length ≤ E.maxWrite) (oid : Bytes) (ho : Spec.RouteOid oid)
    (hrej : ∀ pre f body post, h = pre ++ (f, .upload oid body) :: post →
      (uploadLost D E f (lfsLost D E s0 pre) oid body).1 ≠ .status 406 ∧ (uploadLost D E f (lfsLost D E s0 pre) oid body).1 ≠ .panic)
    (c : Bytes) (hd : (downloadObject D E (lfsLost D E s0 h) oid).1 = .ok c) : E.digest c = oid := by
  rw [lfsLost_shortened] at hd
  refine C167_content_partial D E hD hE s0 hs _ ?_ oid ho ?_ c hd
  · intro f o b hm
    obtain ⟨⟨g, q⟩, hx, e⟩ := List.mem_map.1 hm
    obtain ⟨rfl, -⟩ := shortened_upload (Prod.mk.inj e).2
    exact hup g o b hx
  · intro pre f body post e
    obtain ⟨pre', rest, rfl, rfl, e2⟩ := List.map_eq_append_iff.1 e
    obtain ⟨⟨g, q⟩, post', rfl, e3, -⟩ := List.map_eq_cons_iff.1 e2
    obtain ⟨rfl, e4⟩ := Prod.mk.inj e3
    obtain ⟨rfl, hr⟩ := shortened_upload e4
    have hr : g.reads = true := hr
    obtain ⟨n1, n2⟩ := hrej pre' g body post' rfl
    rw [← lfsLost_shortened]
    unfold uploadLost at n1 n2
    rw [if_neg (by simp [hr])] at n1 n2
    simp only at n1 n2
    split at n2
    · exact absurd rfl n2
    · rename_i hn
      rw [if_neg hn] at n1
      exact ⟨n1, n2⟩

/-! ## Examples -/

/-- The database carries out everything; the answer to the second INSERT statement of a batch request, or to the DELETE statement of an upload, is lost. -/
def metaLost : MetaTrouble := ⟨metaWorks, some 2, true, true⟩
/-- Nothing works. -/
def metaDead : MetaTrouble := ⟨metaDown, some 0, false, false⟩

/-- Three objects are announced; the third one is not reached, and nothing is answered. -/
def lostObjects : List (MetaTrouble × LfsReq) :=
  [(metaDead, .batch (ascii "upload") [{ oid := rightOid, size := 5 }]), (metaLost, .batch (ascii "upload") [{ oid := ascii "abcdef", size := 3 }, { oid := rightOid, size := 5 }, { oid := ascii "fedcba", size := 3 }]), (metaDead, .upload rightOid (ascii "right"))]

theorem lostObjects_long : ∀ x ∈ lostObjects, Spec.LongOids x.2 := by
  intro x hx
  simp only [lostObjects, List.mem_cons, List.not_mem_nil, or_false] at hx
  rcases hx with rfl | rfl | rfl
  · intro v hv
    simp only [List.mem_cons, List.not_mem_nil, or_false] at hv
    subst hv
    decide +kernel
  · intro v hv
    simp only [List.mem_cons, List.not_mem_nil, or_false] at hv
    rcases hv with rfl | rfl | rfl <;> decide +kernel
  · exact hexDigest_route demoStore_digest _

/-- C169 at work: after these requests the right bytes are accepted, -/
theorem lostObjects_accepted : (uploadLost lowerDb demoStore metaLost (lfsLost lowerDb demoStore freshLfs lostObjects) rightOid (ascii "right")).1 = .ok () :=
  C169_accepted_partial lowerDb demoStore lowerDb_ok freshLfs (freshLfs_fresh _) lostObjects lostObjects_long metaLost rfl rightOid (ascii "right") (hexDigest_route demoStore_digest _) (by decide +kernel) rfl (by decide)

/-- and they are delivered from then on. -/
example : (downloadObject lowerDb demoStore (lfsLost lowerDb demoStore freshLfs (lostObjects ++ (metaLost, .upload rightOid (ascii "right")) ::
    [(metaLost, .batch (ascii "upload") [{ oid := ascii "fedcba", size := 3 }]), (metaDead, .download (ascii "fedcba"))])) rightOid).1 = .ok (ascii "right") :=
  C169_kept_partial lowerDb demoStore lowerDb_ok demoStore_digest freshLfs (freshLfs_fresh _) lostObjects _ metaLost rightOid (ascii "right") (hexDigest_route demoStore_digest _) (by decide) lostObjects_accepted
    (fun _ _ _ h => by simp at h)

/-- `C169_content_partial` at work. -/
example : demoStore.digest (ascii "right") = rightOid :=
  C169_content_partial lowerDb demoStore lowerDb_ok demoStore_digest freshLfs (freshLfs_fresh _) (lostObjects.take 2 ++ [(metaLost, .upload rightOid (ascii "right"))]) (by
    intro f o b hm
    simp [lostObjects] at hm
    obtain ⟨-, rfl, rfl⟩ := hm
    exact ⟨hexDigest_route demoStore_digest _, by decide⟩) rightOid (hexDigest_route demoStore_digest _) (by
    intro pre f body post e
    rcases pre with _ | ⟨a, _ | ⟨b, _ | ⟨c, pre⟩⟩⟩ <;> simp [lostObjects] at e
    obtain ⟨rfl, rfl, ⟨rfl, rfl⟩, rfl⟩ := e
    exact ⟨by decide +kernel, by decide +kernel⟩) _ (by decide +kernel)

end Gust

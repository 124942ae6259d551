import Verif.Props.Links
import Verif.Props.ServerBoth
import Verif.Base.Tactics

/-! # C44 and C45 for whole histories of requests

Statements in terms of HTTP requests and their replies, after any history of requests and messages to the two servers. -/

namespace Gust

/-- The LFS request in a visit. -/
def visitLfs (P : ServerExt) : Visit → Option LfsReq
  | .http r => lfsOf P r
  | .ssh _ _ => none

theorem both_lfs (P : ServerExt) : ∀ (h : BothHist) (s : Both),
    (runBoth P s h).web.lfs = runLfs P.D P.S s.web.lfs (h.filterMap (fun p => visitLfs P p.2))
  | [], _ => rfl
  | (m, v) :: h, s => by
    rw [runBoth_cons, both_lfs P h]
    cases v with
    | ssh i e => rfl
    | http r =>
      have h1 := serve_lfsOf P m s.web r
      cases e : lfsOf P r with
      | none => rw [List.filterMap_cons_none (f := fun p : Moment × Visit => visitLfs P p.2) (a := (m, Visit.http r)) e, show (bothStep P m s (.http r)).web.lfs = s.web.lfs by rw [e] at h1; exact h1]
      | some q =>
        rw [List.filterMap_cons_some (f := fun p : Moment × Visit => visitLfs P p.2) (a := (m, Visit.http r)) e, show (bothStep P m s (.http r)).web.lfs = q.run P.D P.S s.web.lfs by rw [e] at h1; exact h1]
        rfl

/-- A request to store bytes under an oid. -/
def Spec.AsksUpload (r : HttpReq) (oid : Bytes) : Prop := route r.method r.path r.service = .upload oid

/-- A request for the object with an oid. -/
def Spec.AsksObject (r : HttpReq) (oid : Bytes) : Prop := route r.method r.path r.service = .download oid

theorem object_route {r : HttpReq} {oid : Bytes} (hr : Spec.AsksObject r oid) : Spec.RouteOid oid := by
  have h : route r.method r.path r.service = .download oid := hr
  obtain ⟨Q, hQ, hq⟩ := C57_only_partial (m := r.method) (path := r.path) (s := r.service) (by rw [h]; rintro (e | e | e | e) <;> cases e) (by rw [h]; intro id e; cases e)
  generalize hm : r.method = me at hQ hq h
  generalize hp : r.path = pa at hQ hq h
  generalize hs : r.service = sv at hQ hq h
  cases hQ with
  | download pre oid' s ho => rw [h] at hq; cases hq; exact ho
  | infoRefs pre t => obtain ⟨_, hq⟩ := hq; rw [hq] at h; cases h
  | uploadPack pre t => obtain ⟨_, hq⟩ := hq; rw [hq] at h; cases h
  | receivePack pre t => obtain ⟨_, hq⟩ := hq; rw [hq] at h; cases h
  | _ => rw [hq] at h; cases h

theorem serve_upload (P : ServerExt) (m : Moment) (s : ServerState) (r : HttpReq) (oid : Bytes) (hr : Spec.AsksUpload r oid) :
    (serve P m s r).1 = (uploadObject P.D P.S s.lfs oid r.body).1.outcome (fun _ => .bytes []) := by
  unfold serve
  rw [show route r.method r.path r.service = .upload oid from hr]

theorem serve_object (P : ServerExt) (m : Moment) (s : ServerState) (r : HttpReq) (oid : Bytes) (hr : Spec.AsksObject r oid) :
    (serve P m s r).1 = (downloadObject P.D P.S s.lfs oid).1.outcome .bytes := by
  unfold serve
  rw [show route r.method r.path r.service = .download oid from hr]

theorem visit_upload {P : ServerExt} {v : Visit} {oid body : Bytes} (h : visitLfs P v = some (.upload oid body)) :
    ∃ r, v = .http r ∧ Spec.AsksUpload r oid ∧ r.body = body ∧ Spec.RouteOid oid := by
  cases v with
  | ssh i e => cases h
  | http r =>
    have h1 := lfsOf_upload h
    refine ⟨r, rfl, h1.1, ?_, h1.2⟩
    have h2 : lfsOf P r = some (.upload oid body) := h
    unfold lfsOf at h2
    rw [h1.1] at h2
    cases h2
    rfl

universe u v in
/-- Where an element of the LFS requests comes from. -/
theorem filterMap_split {α : Type u} {β : Type v} (f : α → Option β) : ∀ (h : List α) (pre post : List β) (b : β), h.filterMap f = pre ++ b :: post →
    ∃ p a q, h = p ++ a :: q ∧ f a = some b ∧ p.filterMap f = pre
  | [], pre, post, b, e => by simp at e
  | a :: h, pre, post, b, e => by
    cases hf : f a with
    | none =>
      rw [List.filterMap_cons_none hf] at e
      obtain ⟨p, a', q, rfl, h1, h2⟩ := filterMap_split f h pre post b e
      exact ⟨a :: p, a', q, rfl, h1, by rw [List.filterMap_cons_none hf, h2]⟩
    | some c =>
      rw [List.filterMap_cons_some hf] at e
      cases pre with
      | nil => cases e; exact ⟨[], a, h, rfl, hf, rfl⟩
      | cons c' pre =>
        rw [List.cons_append] at e
        obtain ⟨rfl, e1⟩ := List.cons.inj e
        obtain ⟨p, a', q, rfl, h1, h2⟩ := filterMap_split f h pre post b e1
        exact ⟨a :: p, a', q, rfl, h1, by rw [List.filterMap_cons_some hf, h2]⟩

/-- **C44** After every history of the two servers in which no upload for this oid was rejected (406) and no upload was longer than one write, a
request for the object that is answered with bytes is answered with bytes whose digest is the oid. (Missing: rejected uploads, `C44_served_false`;
uploads longer than one write; requests that overlap in time, see C101.) -/
theorem C44_served_partial (P : ServerExt) (hD : Spec.CollationOk P.D) (hE : Spec.HexDigest P.S) (h : BothHist)
    (hup : ∀ p ∈ h, ∀ r oid', p.2 = .http r → Spec.AsksUpload r oid' → r.body.length ≤ P.S.maxWrite) (oid : Bytes)
    (hrej : ∀ pre m r post, h = pre ++ (m, .http r) :: post → Spec.AsksUpload r oid → (serve P m (runBoth P .empty pre).web r).1 ≠ .reply (.status 406))
    (m : Moment) (r : HttpReq) (hr : Spec.AsksObject r oid) (c : Bytes)
    (hd : (serve P m (runBoth P .empty h).web r).1 = .reply (.ok (.bytes c))) : P.S.digest c = oid := by
  rw [serve_object P m _ r oid hr, both_lfs] at hd
  obtain ⟨c', e, hc⟩ := Reply.outcome_ok hd
  cases hc
  refine C44_download_partial P.D P.S hD hE _ (empty_fresh P.S) _ ?_ oid (object_route hr) ?_ c e
  · intro oid' body hm
    obtain ⟨p, hp, e'⟩ := List.mem_filterMap.1 hm
    obtain ⟨r', h1, h2, rfl, h3⟩ := visit_upload e'
    exact ⟨h3, hup p hp r' oid' h1 h2⟩
  · intro pre body post hs hx
    obtain ⟨p, a, q, rfl, h1, h2⟩ := filterMap_split _ h pre post _ hs
    obtain ⟨m', v⟩ := a
    obtain ⟨r', h3, h4, h5, -⟩ := visit_upload h1
    simp only at h3
    subst h3
    refine hrej p m' r' q rfl h4 ?_
    rw [serve_upload P m' _ r' oid h4, both_lfs, h2, h5]
    rw [show (uploadObject P.D P.S (runLfs P.D P.S Both.empty.web.lfs pre) oid body).1 = .status 406 from hx]
    rfl

/-- **C45** After every history of the two servers: an upload of at most one write's length that is answered with success, any further history
without an upload for the same oid, and then a request for the object is answered with exactly the uploaded bytes. (Missing: longer uploads;
requests that overlap in time, see C101.) -/
theorem C45_served_partial (P : ServerExt) (hD : Spec.CollationOk P.D) (hE : Spec.HexDigest P.S) (h1 h2 : BothHist) (m m' : Moment) (r r' : HttpReq)
    (oid : Bytes) (hr : Spec.AsksUpload r oid) (hlen : r.body.length ≤ P.S.maxWrite)
    (hok : (serve P m (runBoth P .empty h1).web r).1 = .reply (.ok (.bytes [])))
    (hno : ∀ p ∈ h2, ∀ r'', p.2 = .http r'' → ¬ Spec.AsksUpload r'' oid) (hr' : Spec.AsksObject r' oid) :
    (serve P m' (runBoth P .empty (h1 ++ (m, .http r) :: h2)).web r').1 = .reply (.ok (.bytes r.body)) := by
  have hv : (fun p : Moment × Visit => visitLfs P p.2) (m, .http r) = some (.upload oid r.body) := by
    show lfsOf P r = _
    unfold lfsOf
    rw [show route r.method r.path r.service = .upload oid from hr]
  rw [serve_upload P m _ r oid hr, both_lfs] at hok
  obtain ⟨u, e, -⟩ := Reply.outcome_ok hok
  cases u
  have := C45_upload_download_partial P.D P.S hD hE Both.empty.web.lfs (empty_fresh P.S) (h1.filterMap (fun p => visitLfs P p.2))
    (h2.filterMap (fun p => visitLfs P p.2)) oid r.body (upload_route hr) hlen e (by
      intro oid' body' hm
      obtain ⟨p, hp, e'⟩ := List.mem_filterMap.1 hm
      obtain ⟨r'', g1, g2, -, g3⟩ := visit_upload e'
      exact ⟨g3, fun he => hno p hp r'' g1 (he ▸ g2)⟩)
  rw [serve_object P m' _ r' oid hr', both_lfs, List.filterMap_append, List.filterMap_cons_some (f := fun p : Moment × Visit => visitLfs P p.2) (a := (m, Visit.http r)) hv, this]
  rfl

/-- Announce an object, upload wrong bytes, announce it again. -/
def wrongHistory : List (Moment × HttpReq) :=
  [(demoMoment, batchReq rightOid), (demoMoment, objectReq .put rightOid (ascii "wrong")), (demoMoment, batchReq rightOid)]

/-- **C44 is false** after a rejected upload, seen by requests and replies: the upload of wrong bytes is answered 406; after the object has been
announced again, a request for it is answered with the wrong bytes. -/
theorem C44_served_false : ∃ (P : ServerExt) (m : Moment) (h : List (Moment × HttpReq)) (oid c : Bytes),
    Spec.AsksObject (objectReq .get oid []) oid ∧
    (serve P m (runServer P .empty h) (objectReq .get oid [])).1 = .reply (.ok (.bytes c)) ∧ P.S.digest c ≠ oid :=
  ⟨demoServer, demoMoment, wrongHistory, rightOid, ascii "wrong", by unfold Spec.AsksObject; decide +kernel, by decide +kernel, by decide +kernel⟩

/-- C44 and C45 at work: an object is announced, somebody connects over SSH, the object is uploaded, a file is locked; the download. -/
example : (serve lowerServer demoMoment (runBoth lowerServer .empty
      ([(demoMoment, .http (batchReq rightOid)), (demoMoment, .ssh 3 (.exec 0 (ascii "git-upload-pack '/app.git'")))] ++
        (demoMoment, .http (objectReq .put rightOid (ascii "right"))) :: [(demoMoment, .http (lockReq (ascii "big.psd")))])).web (objectReq .get rightOid [])).1 =
    .reply (.ok (.bytes (ascii "right"))) :=
  C45_served_partial lowerServer lowerDb_ok demoStore_digest _ _ demoMoment demoMoment (objectReq .put rightOid (ascii "right")) _ rightOid
    (by unfold Spec.AsksUpload; decide +kernel) (by decide +kernel) (by decide +kernel) (by
      intro p hp r'' e ha
      rcases List.mem_singleton.1 hp with rfl
      cases e
      unfold Spec.AsksUpload at ha
      exact absurd ha (by decide +kernel)) (by unfold Spec.AsksObject; decide +kernel)

example (m : Moment) (c : Bytes) (hd : (serve lowerServer m (runBoth lowerServer .empty
      [(demoMoment, .http (batchReq rightOid)), (demoMoment, .http (lockReq (ascii "big.psd")))]).web (objectReq .get rightOid [])).1 = .reply (.ok (.bytes c))) :
    demoStore.digest c = rightOid :=
  C44_served_partial lowerServer lowerDb_ok demoStore_digest _ (by
      intro p hp r oid' e ha
      unfold Spec.AsksUpload at ha
      rcases List.mem_cons.1 hp with rfl | hp
      · cases e; exact absurd ha (by rw [show route (batchReq rightOid).method (batchReq rightOid).path (batchReq rightOid).service = .batch by decide +kernel]; exact fun h => nomatch h)
      · rcases List.mem_singleton.1 hp with rfl
        cases e
        exact absurd ha (by rw [show route (lockReq (ascii "big.psd")).method (lockReq (ascii "big.psd")).path (lockReq (ascii "big.psd")).service = .createLock by decide +kernel]; exact fun h => nomatch h)) rightOid (by
      intro pre m' r post e ha
      have hm : ((m', Visit.http r) : Moment × Visit) ∈ [(demoMoment, .http (batchReq rightOid)), (demoMoment, .http (lockReq (ascii "big.psd")))] := by rw [e]; simp
      unfold Spec.AsksUpload at ha
      rcases List.mem_cons.1 hm with hm | hm
      · cases hm; exact absurd ha (by decide +kernel)
      · cases List.mem_singleton.1 hm; exact absurd ha (by decide +kernel)) m _ (by unfold Spec.AsksObject; decide +kernel) c hd

end Gust

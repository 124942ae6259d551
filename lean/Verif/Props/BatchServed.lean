import Verif.Props.ObjectsServed
import Verif.Base.Tactics

/-! # C47 and C68 for whole histories of requests

Statements in terms of HTTP requests and their replies, after any history of requests and messages to the two servers. -/

namespace Gust

/-- A batch request: the operation and the objects it names. -/
def Spec.AsksBatch (P : ServerExt) (r : HttpReq) (op : Bytes) (vs : List RequestVars) : Prop :=
  route r.method r.path r.service = .batch ∧ P.J.batch r.body = some (op, vs)

/-- In the history only oids of at least five characters are named in batch requests. -/
def Spec.LongNames (P : ServerExt) (h : BothHist) : Prop :=
  ∀ p ∈ h, ∀ r op vs, p.2 = .http r → Spec.AsksBatch P r op vs → ∀ v ∈ vs, 5 ≤ v.oid.length

/-- Nobody uploads anything for this oid. -/
def Spec.NoUploadOf (h : BothHist) (oid : Bytes) : Prop := ∀ p ∈ h, ∀ r, p.2 = .http r → ¬ Spec.AsksUpload r oid

/-- Every request for the object is answered with these bytes. -/
def Spec.Delivers (P : ServerExt) (s : Both) (oid c : Bytes) : Prop :=
  ∀ m r, Spec.AsksObject r oid → (serve P m s.web r).1 = .reply (.ok (.bytes c))

/-- The usual request for an object. -/
theorem object_asked {oid : Bytes} (ho : Spec.RouteOid oid) : Spec.AsksObject { method := .get, path := ascii "/objects/" ++ oid } oid := by
  obtain ⟨path, h1, h2, -⟩ := C74_link_partial (o := ascii "http://h") ⟨ascii "h", rfl, by decide, by decide⟩ (v := { oid := oid, size := 0 }) ho rfl rfl none
  rw [link_path (o := ascii "http://h") ⟨ascii "h", rfl, by decide, by decide⟩ (v := { oid := oid, size := 0 }) ho rfl rfl] at h1
  cases h1
  exact h2

theorem delivers_iff (P : ServerExt) (s : Both) {oid : Bytes} (ho : Spec.RouteOid oid) (c : Bytes) :
    Spec.Delivers P s oid c ↔ (downloadObject P.D P.S s.web.lfs oid).1 = .ok c := by
  constructor
  · intro h
    have := h demoMoment _ (object_asked ho)
    rw [serve_object P _ _ _ oid (object_asked ho)] at this
    obtain ⟨a, e, h2⟩ := Reply.outcome_ok this
    cases h2
    exact e
  · intro h m r hr
    rw [serve_object P m _ r oid hr, h]
    rfl

theorem visit_batch {P : ServerExt} {v : Visit} {op : Bytes} {vs : List RequestVars} (h : visitLfs P v = some (.batch op vs)) :
    ∃ r, v = .http r ∧ Spec.AsksBatch P r op vs := by
  cases v with
  | ssh i e => cases h
  | http r =>
    have e : lfsOf P r = some (.batch op vs) := h
    unfold lfsOf at e
    cases e' : route r.method r.path r.service <;> rw [e'] at e <;> simp only at e <;> (try (cases e; done))
    cases hb : P.J.batch r.body with
    | none => rw [hb] at e; cases e
    | some x =>
      rw [hb] at e
      cases e
      exact ⟨r, rfl, e', hb⟩

theorem longNames_lfs {P : ServerExt} {h : BothHist} (hl : Spec.LongNames P h) : ∀ q ∈ h.filterMap (fun p => visitLfs P p.2), Spec.LongOids q := by
  intro q hq
  obtain ⟨p, hp, e⟩ := List.mem_filterMap.1 hq
  cases q with
  | batch op vs =>
    obtain ⟨r, h1, h2⟩ := visit_batch e
    exact hl p hp r op vs h1 h2
  | upload oid body => exact (visit_upload e).choose_spec.2.2.2
  | download oid => trivial

theorem noUpload_visits {P : ServerExt} {oid : Bytes} {h : BothHist} (hn : Spec.NoUploadOf h oid) :
    ∀ oid' body', .upload oid' body' ∈ h.filterMap (fun p => visitLfs P p.2) → Spec.RouteOid oid' ∧ oid' ≠ oid := by
  intro oid' body' hm
  obtain ⟨p, hp, e⟩ := List.mem_filterMap.1 hm
  obtain ⟨r, h1, h2, -, h3⟩ := visit_upload e
  exact ⟨h3, fun e => hn p hp r h1 (e ▸ h2)⟩

/-- What can be downloaded stays as it is until somebody uploads something for the oid. -/
theorem keep_download {D : DbExt} (E : StoreExt) (hD : Spec.CollationOk D) {oid : Bytes} (ho : Spec.RouteOid oid) {c : Bytes} :
    ∀ (h : List LfsReq) (s : LfsState), Keyed D s.metas → (downloadObject D E s oid).1 = .ok c →
      (∀ oid' body', .upload oid' body' ∈ h → Spec.RouteOid oid' ∧ oid' ≠ oid) → (downloadObject D E (runLfs D E s h) oid).1 = .ok c
  | [], _, _, hd, _ => hd
  | q :: h, s, hk, hd, hu => by
    refine keep_download E hD ho h _ (run_keyed D E s q hk) ?_ (fun a b hab => hu a b (List.mem_cons_of_mem _ hab))
    obtain ⟨o, n, p, hm, hp, hf⟩ := downloadObject_ok_inv D E s oid c hd
    have hnew : (storeNew E s.disk).2 = true := by
      cases e : (storeNew E s.disk).2 with
      | true => rfl
      | false =>
        unfold downloadObject at hd
        simp only [e, Bool.not_false, if_true] at hd
        cases hd
    have hpo := hD o oid ho (hk _ _ _ hm)
    refine downloadObject_ok D E _ oid o n p c ?_ ?_ hp ?_
    · refine mkdirs_ok _ _ _ _ ?_
      intro k hk' c' he
      rw [List.nil_append] at he
      rcases run_file D E s q _ c' with h1 | ⟨oid', body', o', n', rfl, hm', hp', -⟩
      · have h2 := (storeNew_grown E s.disk).file.2 (h1.1 he)
        have h3 := mkdirs_dirs _ _ [] _ hnew k hk'
        rw [List.nil_append] at h3
        rw [show (storeNew E s.disk).1 = (mkdirs (components E.base).1 s.disk [] (components E.base).2).1 from rfl] at h2
        rw [h3] at h2
        cases h2
      · have hr := (hu oid' body' (by simp)).1
        have hpl := hD o' oid' hr (hk _ _ _ hm')
        have := storePath_plain E ⟨hpl.1, hpl.2.1, hpl.2.2.1⟩ hp'
        have hl := congrArg (fun x : Bool × List Bytes => x.2.length) this
        simp only [List.length_append, List.length_take] at hl
        have hne : oidParts o' ≠ [] := by unfold oidParts; split <;> simp
        have := List.length_pos_iff.2 hne
        omega
    · rcases run_metas D E s q _ _ hm with h1 | ⟨oid', body', rfl, hfold, -⟩
      · exact h1
      · obtain ⟨hr, hne⟩ := hu oid' body' (by simp)
        exact absurd ((hD oid' oid ho hfold).2.2.2 hr) hne
    · rcases run_file D E s q p c with h1 | ⟨oid', body', o', n', rfl, hm', hp', -⟩
      · exact h1.2 hf
      · obtain ⟨hr, hne⟩ := hu oid' body' (by simp)
        have hpl := hD o' oid' hr (hk _ _ _ hm')
        have : o' = o := storePath_inj E ⟨hpl.1, hpl.2.1, hpl.2.2.1⟩ ⟨hpo.1, hpo.2.1, hpo.2.2.1⟩ hp' hp
        subst this
        have e : D.fold oid' = D.fold oid := by rw [← hk _ _ _ hm', ← hk _ _ _ hm]
        exact absurd ((hD oid' oid ho e).2.2.2 hr) hne

theorem both_keyed (P : ServerExt) (h : BothHist) : Keyed P.D (runBoth P .empty h).web.lfs.metas := by
  rw [both_lfs]
  exact runLfs_keyed P.D P.S _ _ (fresh_keyed P.D (empty_fresh P.S))

/-! ## C47 -/

/-- **C47** After every history of the two servers in which only oids of at least five characters were named, the reply to a batch request (no oid twice,
oids that the object routes accept) has one entry per object, in the order of the request. An entry offers a download exactly when every request
for the object is answered with some bytes; otherwise an upload, if that was the operation; otherwise the error 404. And what is offered for
download is delivered from then on, always the same bytes, until somebody uploads something for this oid. (Missing: shorter oids,
`C47_directory_false`; requests that overlap in time.) -/
theorem C47_requests_partial (P : ServerExt) (hD : Spec.CollationOk P.D) (h : BothHist) (hl : Spec.LongNames P h) (m : Moment) (r : HttpReq) (op : Bytes)
    (vs : List RequestVars) (hr : Spec.AsksBatch P r op vs) (ho : ∀ v ∈ vs, Spec.RouteOid v.oid) (hnd : (vs.map (·.oid)).Nodup)
    (rs : List Rep) (hrs : (serve P m (runBoth P .empty h).web r).1 = .reply (.ok (.objects rs))) :
    rs.length = vs.length ∧ ∀ (j : Nat) (v : RequestVars) (e : Rep), vs[j]? = some v → rs[j]? = some e →
      ((∃ l, e.offer = .download l) ↔ ∃ c, Spec.Delivers P (runBoth P .empty h) v.oid c) ∧
      ((∃ l, e.offer = .upload l) ↔ op = ascii "upload" ∧ ¬ ∃ c, Spec.Delivers P (runBoth P .empty h) v.oid c) ∧
      (e.offer = .error 404 ↔ op ≠ ascii "upload" ∧ ¬ ∃ c, Spec.Delivers P (runBoth P .empty h) v.oid c) ∧
      ((∃ l, e.offer = .download l) → ∃ c, ∀ h2, Spec.NoUploadOf h2 v.oid → Spec.Delivers P (runBoth P .empty (h ++ (m, .http r) :: h2)) v.oid c) := by
  have hb := serve_batch hr.1 hr.2 hrs
  refine ⟨(C47_batch P.D P.S _ op vs rs hb).1, fun j v e hv he => ?_⟩
  have hov := ho v (List.mem_of_getElem? hv)
  have hb' := hb
  rw [both_lfs] at hb'
  have h1 := C47_served_partial P.D P.S hD _ (empty_fresh P.S) _ (longNames_lfs hl) op vs ho hnd rs hb' j v e hv he
  have h2 := C47_offers P.D P.S hD _ (empty_fresh P.S) _ op vs ho hnd rs hb' j v e hv he
  have hdel : (∃ c, Spec.Delivers P (runBoth P .empty h) v.oid c) ↔ ∃ l, e.offer = .download l := by
    rw [h1]
    refine exists_congr fun c => ?_
    rw [delivers_iff P _ hov, both_lfs]
    rfl
  refine ⟨hdel.symm, ?_, ?_, fun hx => ?_⟩
  · rw [h2.2.1, hdel, h2.1]
  · rw [h2.2.2, hdel, h2.1]
  · obtain ⟨c, hc⟩ := hdel.2 hx
    refine ⟨c, fun h' hn => ?_⟩
    rw [delivers_iff P _ hov] at hc ⊢
    rw [runBoth_append, both_lfs]
    refine keep_download P.S hD hov _ _ (both_keyed P h) hc ?_
    intro oid' body' hm
    refine noUpload_visits (P := P) (h := (m, .http r) :: h') (oid := v.oid) ?_ oid' body' hm
    intro p hp r' hr' ha
    rcases List.mem_cons.1 hp with rfl | hp
    · cases hr'
      exact nomatch hr.1.symm.trans ha
    · exact hn p hp r' hr' ha

/-! ## C68 -/

/-- **C68** After every history of the two servers: somebody announces an object in a batch request and is offered an upload of the size of
these bytes, whose SHA-256 is the oid. After any further history without an upload for this oid, the upload of the bytes is accepted, and then, until
somebody uploads something for this oid again, every request for the object is answered with the bytes. (Only oids of at least five characters are
named before the upload. Missing: shorter oids, `C68_short_oid_false`; another size announced by somebody before, `C68_wrong_size_false`;
bytes longer than one write; requests that overlap in time.) -/
theorem C68_requests_partial (P : ServerExt) (hD : Spec.CollationOk P.D) (hE : Spec.HexDigest P.S) (h1 h2 : BothHist) (m m' : Moment) (r r' : HttpReq)
    (hl : Spec.LongNames P (h1 ++ (m, .http r) :: h2)) (op : Bytes) (vs : List RequestVars) (hr : Spec.AsksBatch P r op vs) (rs : List Rep)
    (hrs : (serve P m (runBoth P .empty h1).web r).1 = .reply (.ok (.objects rs))) (j : Nat) (v : RequestVars) (href : Bytes) (hv : vs[j]? = some v)
    (hoid : P.S.digest r'.body = v.oid) (hj : rs[j]? = some { oid := v.oid, size := r'.body.length, offer := .upload href })
    (hlen : r'.body.length ≤ P.S.maxWrite) (hn : Spec.NoUploadOf h2 v.oid) (hr' : Spec.AsksUpload r' v.oid) :
    (serve P m' (runBoth P .empty (h1 ++ (m, .http r) :: h2)).web r').1 = .reply (.ok (.bytes [])) ∧
    ∀ h3, Spec.NoUploadOf h3 v.oid → Spec.Delivers P (runBoth P .empty ((h1 ++ (m, .http r) :: h2) ++ (m', .http r') :: h3)) v.oid r'.body := by
  have hro : Spec.RouteOid v.oid := hoid ▸ hexDigest_route hE _
  have hpb := serve_batch hr.1 hr.2 hrs
  have hrow := batchLoop_row P.D P.S _ _ vs _ rs (processBatch_ok P.D P.S _ _ vs rs hpb) j v _ href hv hj rfl
  have hmeta : (processBatch P.D P.S (runBoth P .empty h1).web.lfs op vs).2.metas (P.D.fold v.oid) = some (v.oid, (r'.body.length : Int)) := by
    unfold processBatch at hpb ⊢
    simp only at hpb ⊢
    split
    · rename_i hh
      rw [if_pos hh] at hpb
      cases hpb
    · exact hrow
  have hbatch : (runBoth P .empty (h1 ++ [(m, .http r)])).web.lfs = (processBatch P.D P.S (runBoth P .empty h1).web.lfs op vs).2 := by
    rw [runBoth_concat]
    show (serve P m (runBoth P .empty h1).web r).2.lfs = _
    rw [serve_lfs, hr.1]
    simp only [hr.2]
  have hm2 : (runBoth P .empty (h1 ++ (m, .http r) :: h2)).web.lfs.metas (P.D.fold v.oid) = some (v.oid, (r'.body.length : Int)) := by
    rw [show h1 ++ (m, Visit.http r) :: h2 = (h1 ++ [(m, .http r)]) ++ h2 by simp, runBoth_append, both_lfs]
    exact runLfs_keep P.S hD hro _ _ (by rw [hbatch]; exact hmeta) (noUpload_visits hn)
  rw [both_lfs] at hm2
  have hup := C68_upload_accepted_partial P.D P.S hD _ (empty_fresh P.S) _ (longNames_lfs hl) v.oid r'.body hro hm2 hoid hlen
  have hok : (serve P m' (runBoth P .empty (h1 ++ (m, .http r) :: h2)).web r').1 = .reply (.ok (.bytes [])) := by
    rw [serve_upload P m' _ r' v.oid hr', both_lfs]
    rw [show (uploadObject P.D P.S (runLfs P.D P.S Both.empty.web.lfs _) v.oid r'.body).1 = .ok () from hup]
    rfl
  exact ⟨hok, fun h3 hn3 m3 r3 hr3 => C45_served_partial P hD hE _ h3 m' m3 r' r3 v.oid hr' hlen hok (fun p hp r'' e => hn3 p hp r'' e) hr3⟩

/-! ## Examples -/

/-- A history: an object is announced and uploaded, somebody connects over SSH, a file is locked. -/
def objectStored : BothHist :=
  [(demoMoment, .http (batchReq rightOid)), (demoMoment, .http (objectReq .put rightOid (ascii "right"))),
   (demoMoment, .ssh 3 (.exec 0 (ascii "git-upload-pack '/app.git'"))), (demoMoment, .http (lockReq (ascii "big.psd")))]

theorem demo_long {r : HttpReq} {op : Bytes} {vs : List RequestVars} (hb : 5 ≤ r.body.length) (h : Spec.AsksBatch lowerServer r op vs) :
    ∀ v ∈ vs, 5 ≤ v.oid.length := by
  have h2 : demoJson.batch r.body = some (op, vs) := h.2
  simp only [demoJson] at h2
  split at h2
  · cases h2
  · cases h2
    intro v hv
    rw [List.mem_singleton.1 hv]
    exact hb

theorem objectStored_long : Spec.LongNames lowerServer objectStored := by
  intro p hp r op vs e h
  simp only [objectStored, List.mem_cons, List.not_mem_nil, or_false] at hp
  rcases hp with rfl | rfl | rfl | rfl
  · cases e; exact demo_long (by decide +kernel) h
  · cases e; exact demo_long (by decide +kernel) h
  · cases e
  · cases e; exact demo_long (by decide +kernel) h

theorem batchReq_asks : Spec.AsksBatch lowerServer (batchReq rightOid) (ascii "upload") [{ oid := rightOid, size := 5 }] :=
  ⟨by decide +kernel, by show demoJson.batch rightOid = _; simp only [demoJson]; rw [if_neg (by decide +kernel)]⟩

theorem rightOid_accepted : Spec.RouteOid rightOid := hexDigest_route demoStore_digest _

/-- The reply to a batch request for the object that is stored. -/
def rightOffer : Rep := { oid := rightOid, size := 5, offer := .download (ascii "http://host/objects/" ++ rightOid) }

theorem rightOffer_replied :
    (serve lowerServer demoMoment (runBoth lowerServer .empty objectStored).web (batchReq rightOid)).1 = .reply (.ok (.objects [rightOffer])) := by
  decide +kernel

/-- C47 at work: the object is offered for download, and delivered from then on. -/
example : ∃ c, ∀ h2, Spec.NoUploadOf h2 rightOid →
    Spec.Delivers lowerServer (runBoth lowerServer .empty (objectStored ++ (demoMoment, .http (batchReq rightOid)) :: h2)) rightOid c :=
  ((C47_requests_partial lowerServer lowerDb_ok objectStored objectStored_long demoMoment _ _ _ batchReq_asks
    (by intro v hv; rw [List.mem_singleton.1 hv]; exact rightOid_accepted) (by simp) _ rightOffer_replied).2 0 _ _ rfl rfl).2.2.2 ⟨_, rfl⟩

/-- C68 at work: the object is announced, a file is locked, the object is uploaded. -/
example : (serve lowerServer demoMoment (runBoth lowerServer .empty ([] ++ (demoMoment, .http (batchReq rightOid)) ::
      [(demoMoment, .http (lockReq (ascii "big.psd")))])).web (objectReq .put rightOid (ascii "right"))).1 = .reply (.ok (.bytes [])) :=
  (C68_requests_partial lowerServer lowerDb_ok demoStore_digest [] [(demoMoment, .http (lockReq (ascii "big.psd")))] demoMoment demoMoment
    (batchReq rightOid) (objectReq .put rightOid (ascii "right")) (by
      intro p hp r op vs e h
      rcases List.mem_cons.1 hp with rfl | hp
      · cases e; exact demo_long (by decide +kernel) h
      · rcases List.mem_singleton.1 hp with rfl
        cases e; exact demo_long (by decide +kernel) h)
    _ _ batchReq_asks [{ oid := rightOid, size := 5, offer := .upload (ascii "http://host/objects/" ++ rightOid) }] (by decide +kernel) 0 _
    (ascii "http://host/objects/" ++ rightOid) rfl rfl rfl (by decide) (by
      intro p hp r e h
      rcases List.mem_singleton.1 hp with rfl
      cases e
      unfold Spec.AsksUpload at h
      exact absurd h (by decide +kernel)) (by unfold Spec.AsksUpload; decide +kernel)).1

end Gust

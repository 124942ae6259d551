import Verif.Props.ServerBoth
import Verif.Props.Links
import Verif.Props.LfsShared

/-! # The LFS API while the SSH server runs on the same database

All claims about locks and large files speak of histories of HTTP requests. Here: such a claim holds as well when the SSH server runs at the same time, since every request
that is not one of git is answered as after the HTTP requests of the history alone. -/

namespace Gust

/-- What has come over HTTP. -/
def Spec.httpPart (h : BothHist) : List (Moment × HttpReq) :=
  h.filterMap (fun p => match p.2 with
    | .http r => some (p.1, r)
    | .ssh _ _ => none)

theorem httpPart_append (h k : BothHist) : Spec.httpPart (h ++ k) = Spec.httpPart h ++ Spec.httpPart k := List.filterMap_append

theorem httpPart_mem {h : BothHist} {m : Moment} {r : HttpReq} : (m, r) ∈ Spec.httpPart h ↔ (m, .http r) ∈ h := by
  unfold Spec.httpPart
  rw [List.mem_filterMap]
  constructor
  · rintro ⟨⟨m', v⟩, h1, h2⟩
    cases v with
    | http r' => cases h2; exact h1
    | ssh i e => cases h2
  · intro h1
    exact ⟨_, h1, rfl⟩

theorem both_api (P : ServerExt) : ∀ (h : BothHist) (s : Both) (t : ServerState), s.web.locks = t.locks → s.web.lfs = t.lfs →
    (runBoth P s h).web.locks = (runServer P t (Spec.httpPart h)).locks ∧ (runBoth P s h).web.lfs = (runServer P t (Spec.httpPart h)).lfs
  | [], _, _, e1, e2 => ⟨e1, e2⟩
  | (m, .http r) :: h, s, t, e1, e2 => both_api P h (bothStep P m s (.http r)) (serve P m t r).2 (serve_locks_congr e1) (serve_lfs_congr e2)
  | (m, .ssh i e) :: h, s, t, e1, e2 => both_api P h (bothStep P m s (.ssh i e)) t e1 e2

theorem serve_api {P : ServerExt} {m : Moment} {s t : ServerState} {r : HttpReq} (hr : r.repo = none) (e1 : s.locks = t.locks) (e2 : s.lfs = t.lfs) :
    (serve P m s r).1 = (serve P m t r).1 := by
  unfold HttpReq.repo at hr
  unfold serve
  cases h : route r.method r.path r.service with
  | infoRefs a b => rw [h] at hr; cases hr
  | uploadPack a => rw [h] at hr; cases hr
  | receivePack a => rw [h] at hr; cases hr
  | verifyLocks => simp only [e1]; split <;> rfl
  | createLock => simp only [e1]; split <;> rfl
  | deleteLock id => simp only [e1]; split <;> (try split) <;> rfl
  | batch => simp only [e2]; split <;> rfl
  | _ => simp only [e1, e2]

/-- **C75** Every request to the LFS API (every request that is not one of git), in every history of both servers, is answered as the HTTP server alone answers it after the HTTP requests of the
history: there might as well be no SSH server. -/
theorem C75_api_both (P : ServerExt) (s : Both) (h : BothHist) (m : Moment) (r : HttpReq) (hr : r.repo = none) :
    (serve P m (runBoth P s h).web r).1 = (serve P m (runServer P s.web (Spec.httpPart h)) r).1 :=
  serve_api hr (both_api P h s s.web rfl rfl).1 (both_api P h s s.web rfl rfl).2

theorem withToken_repo (path : Bytes) (k : Nat) (f : Bytes → Route) (hf : ∀ t, Spec.RepoOf (f t) = none) : Spec.RepoOf (withToken path k f) = none := by
  unfold withToken token
  cases (splitOn 0x2f path).reverse[k]? with
  | some t => exact hf t
  | none => rfl

theorem put_repo (path body : Bytes) : (Spec.putReq path body).repo = none := by
  show Spec.RepoOf (if path = ascii "/" then .notFound else putRoute path) = none
  unfold putRoute
  by_cases h1 : path = ascii "/"
  · rw [if_pos h1]; rfl
  · rw [if_neg h1]
    by_cases h2 : matchObjects path = true
    · rw [if_pos h2]; exact withToken_repo _ _ _ (fun _ => rfl)
    · rw [if_neg h2]; rfl

theorem get_repo (path : Bytes) : (Spec.getReq path).repo = none := by
  show Spec.RepoOf (if path = ascii "/" then .notFound else getRoute path none) = none
  unfold getRoute
  by_cases h1 : path = ascii "/"
  · rw [if_pos h1]; rfl
  · rw [if_neg h1]
    by_cases h2 : matchObjects path = true
    · rw [if_pos h2]; exact withToken_repo _ _ _ (fun _ => rfl)
    · rw [if_neg h2]
      by_cases h3 : endsWith path (ascii "/locks") = true
      · rw [if_pos h3]; rfl
      · rw [if_neg h3]
        by_cases h4 : (!endsWith path (ascii "/info/refs")) = true
        · rw [if_pos h4]; rfl
        · rw [if_neg h4]; rfl

theorem ask_repo {u : Bytes} {a : Spec.LfsAsk} (ha : a.Ok) : (a.to u).repo = none := by
  rw [HttpReq.repo, lfs_route u a ha]
  cases a <;> rfl

/-- **C74 (partial)** The life of an LFS object, as in `C74_roundtrip_partial`, while both servers run: between its steps there may be any messages over SSH as well. (Missing from the full claim: as there.) -/
theorem C74_both_partial (P : ServerExt) (hD : Spec.CollationOk P.D) (hE : Spec.HexDigest P.S) (ho : Spec.Origin P.S.origin)
    (h1 h2 h3 : BothHist) (m1 m2 m3 m4 : Moment) (b1 : HttpReq)
    (hlong : ∀ m r, (m, .http r) ∈ h1 ++ [(m1, .http b1)] ++ h2 → Spec.LongBatch P r)
    (hb1 : route b1.method b1.path b1.service = .batch) (vs : List RequestVars) (hj1 : P.J.batch b1.body = some (ascii "upload", vs))
    (content : Bytes) (hlen : content.length ≤ P.S.maxWrite) (i : Nat) (v : RequestVars) (hv : vs[i]? = some v) (hoid : v.oid = P.S.digest content)
    (hplain : v.user = [] ∧ v.repo = [])
    (rs : List Rep) (hrep : (serve P m1 (runBoth P .empty h1).web b1).1 = .reply (.ok (.objects rs))) (href : Bytes)
    (hr : rs[i]? = some { oid := v.oid, size := content.length, offer := .upload href })
    (hn2 : ∀ m r, (m, .http r) ∈ h2 → route r.method r.path r.service ≠ .upload v.oid) (hn3 : ∀ m r, (m, .http r) ∈ h3 → route r.method r.path r.service ≠ .upload v.oid) :
    ∃ path, Spec.urlPath href = some path ∧
      (serve P m2 (runBoth P .empty (h1 ++ [(m1, .http b1)] ++ h2)).web (Spec.putReq path content)).1 = .reply (.ok (.bytes [])) ∧
      ∀ (b2 : HttpReq) (op : Bytes) (vs' : List RequestVars) (i' : Nat) (v' : RequestVars) (rs' : List Rep),
        route b2.method b2.path b2.service = .batch → P.J.batch b2.body = some (op, vs') → vs'[i']? = some v' → v'.oid = v.oid → v'.user = [] ∧ v'.repo = [] →
        (serve P m3 (runBoth P .empty (h1 ++ [(m1, .http b1)] ++ h2 ++ [(m2, .http (Spec.putReq path content))] ++ h3)).web b2).1 = .reply (.ok (.objects rs')) →
        ∃ r' href' path', rs'[i']? = some r' ∧ r'.offer = .download href' ∧ Spec.urlPath href' = some path' ∧
          (serve P m4 (runBoth P .empty (h1 ++ [(m1, .http b1)] ++ h2 ++ [(m2, .http (Spec.putReq path content))] ++ h3 ++ [(m3, .http b2)])).web (Spec.getReq path')).1 =
            .reply (.ok (.bytes content)) := by
  have one : ∀ m r, Spec.httpPart [(m, .http r)] = [(m, r)] := fun _ _ => rfl
  have batch : ∀ b : HttpReq, route b.method b.path b.service = .batch → b.repo = none := fun b hb => by rw [HttpReq.repo, hb]; rfl
  rw [C75_api_both P _ _ _ _ (batch b1 hb1)] at hrep
  obtain ⟨path, p1, p2, p3⟩ := C74_roundtrip_partial P hD hE ho (Spec.httpPart h1) (Spec.httpPart h2) (Spec.httpPart h3) m1 m2 m3 m4 b1
    (by
      intro p hp
      rw [← one m1 b1, ← httpPart_append, ← httpPart_append] at hp
      exact hlong p.1 p.2 (httpPart_mem.1 hp))
    hb1 vs hj1 content hlen i v hv hoid hplain rs hrep href hr (fun p hp => hn2 p.1 p.2 (httpPart_mem.1 hp)) (fun p hp => hn3 p.1 p.2 (httpPart_mem.1 hp))
  refine ⟨path, p1, ?_, ?_⟩
  · rw [C75_api_both P _ _ _ _ (put_repo _ _), httpPart_append, httpPart_append]
    exact p2
  · intro b2 op vs' i' v' rs' hb2 hj2 hv' hoid' hplain' hrep2
    rw [C75_api_both P _ _ _ _ (batch b2 hb2), httpPart_append, httpPart_append, httpPart_append, httpPart_append] at hrep2
    obtain ⟨r', href', path', q1, q2, q3, q4⟩ := p3 b2 op vs' i' v' rs' hb2 hj2 hv' hoid' hplain' hrep2
    refine ⟨r', href', path', q1, q2, q3, ?_⟩
    rw [C75_api_both P _ _ _ _ (get_repo _), httpPart_append, httpPart_append, httpPart_append, httpPart_append, httpPart_append]
    exact q4

/-- **C124 is false** also while both servers run, for locks and for large files. -/
theorem C124_both_false (P : ServerExt) (u v : Bytes) :
    (∀ (s : Both) (m m' : Moment) (body body' ref path : Bytes) (l : Lock), P.J.lock body = some (ref, path) → P.J.lock body' = some (ref, path) →
      (serve P m s.web ((Spec.LfsAsk.lock body).to u)).1 = .reply (.ok (.lock l)) →
      ∀ h : BothHist, (∀ m r, (m, .http r) ∈ h → ∀ id, route r.method r.path r.service ≠ .deleteLock id) →
        (serve P m' (runBoth P s ((m, .http ((Spec.LfsAsk.lock body).to u)) :: h)).web ((Spec.LfsAsk.lock body').to v)).1 = .reply (.status 409)) ∧
    (Spec.CollationOk P.D → Spec.HexDigest P.S → ∀ (h1 h2 : BothHist) (m m' : Moment) (oid body : Bytes), Spec.RouteOid oid → body.length ≤ P.S.maxWrite →
      (serve P m (runBoth P .empty h1).web ((Spec.LfsAsk.upload oid body).to u)).1 = .reply (.ok (.bytes [])) →
      (∀ m r, (m, .http r) ∈ h2 → route r.method r.path r.service ≠ .upload oid) →
      (serve P m' (runBoth P .empty (h1 ++ (m, .http ((Spec.LfsAsk.upload oid body).to u)) :: h2)).web ((Spec.LfsAsk.download oid).to v)).1 = .reply (.ok (.bytes body))) := by
  constructor
  · intro s m m' body body' ref path l hb hb' hok h hh
    rw [C75_api_both P _ _ _ _ (ask_repo (a := .lock body') trivial)]
    show (serve P m' (runServer P (serve P m s.web ((Spec.LfsAsk.lock body).to u)).2 (Spec.httpPart h)) _).1 = _
    rw [C124_lock_false P m m' s.web u v body body' ref path l hb hb' hok (Spec.httpPart h) (fun p hp => hh p.1 p.2 (httpPart_mem.1 hp))]
  · intro hD hE h1 h2 m m' oid body ho hlen hok hn
    rw [C75_api_both P _ _ _ _ (ask_repo (a := .upload oid body) ho)] at hok
    rw [C75_api_both P _ _ _ _ (ask_repo (a := .download oid) ho), httpPart_append]
    exact C124_file_false P hD hE (Spec.httpPart h1) (Spec.httpPart h2) m m' u v oid body ho hlen hok (fun p hp => hn p.1 p.2 (httpPart_mem.1 hp))

/-! ## Examples -/

/-- Somebody locks `data.bin` in `/app`; a push session is opened over SSH; then `data.bin` cannot be locked in `/other`. -/
example : (serve demoServer demoMoment (runBoth demoServer .empty [(demoMoment, .http ((Spec.LfsAsk.lock (ascii "data.bin")).to (ascii "/app"))), (demoMoment, .ssh 1 logIn),
    (demoMoment, .ssh 1 (askFor .receivePack 0 (ascii "/app")))]).web ((Spec.LfsAsk.lock (ascii "data.bin")).to (ascii "/other"))).1 = .reply (.status 409) :=
  (C124_both_false demoServer (ascii "/app") (ascii "/other")).1 .empty demoMoment demoMoment (ascii "data.bin") (ascii "data.bin") (ascii "refs/heads/main") (ascii "data.bin")
    (newLock (ascii "data.bin") demoMoment.lockId demoMoment.now) (by decide) (by decide) (by decide +kernel) _ (by
      intro m r hr id e
      simp only [List.mem_cons, Prod.mk.injEq, reduceCtorEq, and_false, List.not_mem_nil, or_self] at hr)

/-- A large file is announced and uploaded, SSH messages come in between. -/
example : (serve lowerServer demoMoment (runBoth lowerServer .empty ([(demoMoment, .http ((Spec.LfsAsk.batch (demoStore.digest (ascii "other"))).to (ascii "/app"))), (demoMoment, .ssh 1 logIn)] ++
    (demoMoment, .http ((Spec.LfsAsk.upload (demoStore.digest (ascii "other")) (ascii "other")).to (ascii "/app"))) :: [(demoMoment, .ssh 1 (askFor .uploadPack 0 (ascii "/app")))])).web
    ((Spec.LfsAsk.download (demoStore.digest (ascii "other"))).to (ascii "/other"))).1 = .reply (.ok (.bytes (ascii "other"))) :=
  (C124_both_false lowerServer (ascii "/app") (ascii "/other")).2 lowerDb_ok demoStore_digest _ _ demoMoment demoMoment _ _ (hexDigest_route demoStore_digest _) (by decide)
    (by rw [C75_api_both lowerServer _ _ _ _ (ask_repo (a := .upload _ _) (hexDigest_route demoStore_digest _))]; decide +kernel)
    (by intro m r hr; simp only [List.mem_cons, Prod.mk.injEq, reduceCtorEq, and_false, List.not_mem_nil, or_self] at hr)

/-- C74: the link offered after SSH messages works. -/
example : ∃ path, Spec.urlPath (ascii "http://host/objects/" ++ demoStore.digest (ascii "other")) = some path ∧
    (serve lowerServer demoMoment (runBoth lowerServer .empty ([(demoMoment, .ssh 1 logIn), (demoMoment, .http listReq)] ++ [(demoMoment, .http (batchReq (demoStore.digest (ascii "other"))))] ++
      [(demoMoment, .ssh 1 (askFor .uploadPack 0 (ascii "/app")))])).web (Spec.putReq path (ascii "other"))).1 = .reply (.ok (.bytes [])) := by
  obtain ⟨path, h1, h2, _⟩ := C74_both_partial lowerServer lowerDb_ok demoStore_digest ⟨ascii "host", rfl, by decide, by decide⟩ [(demoMoment, .ssh 1 logIn), (demoMoment, .http listReq)]
    [(demoMoment, .ssh 1 (askFor .uploadPack 0 (ascii "/app")))] [] demoMoment demoMoment demoMoment demoMoment (batchReq (demoStore.digest (ascii "other"))) (by
      intro m r hr op vs hb v hv
      simp only [List.cons_append, List.nil_append, List.mem_cons, Prod.mk.injEq, reduceCtorEq, and_false, List.not_mem_nil, or_false, false_or, Visit.http.injEq] at hr
      have e : ∀ b : Bytes, 5 ≤ b.length ∨ b = [] → demoJson.batch b = some (op, vs) → 5 ≤ v.oid.length := by
        intro b hb h
        simp only [demoJson] at h
        split at h
        · cases h
        · rename_i hne
          simp only [Option.some.injEq, Prod.mk.injEq] at h
          rw [← h.2] at hv
          rw [List.mem_singleton.1 hv]
          rcases hb with hb | hb
          · exact hb
          · exact absurd hb hne
      refine e r.body ?_ hb
      rcases hr with ⟨_, rfl⟩ | ⟨_, rfl⟩ <;> decide +kernel)
    (by decide +kernel) [{ oid := demoStore.digest (ascii "other"), size := 5 }] (by simp only [lowerServer, demoServer, demoJson, batchReq]; rw [if_neg (by decide +kernel)]) (ascii "other") (by decide) 0 _ rfl rfl
    ⟨rfl, rfl⟩ [{ oid := demoStore.digest (ascii "other"), size := 5, offer := .upload (ascii "http://host/objects/" ++ demoStore.digest (ascii "other")) }]
    (by rw [C75_api_both lowerServer _ _ _ _ (by decide +kernel)]; decide +kernel) _ rfl
    (by intro m r hr; simp only [List.mem_cons, Prod.mk.injEq, reduceCtorEq, and_false, List.not_mem_nil, or_self] at hr)
    (by intro m r hr; cases hr)
  exact ⟨path, h1, h2⟩

end Gust

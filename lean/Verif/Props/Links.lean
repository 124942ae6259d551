import Verif.Props.ServerExamples

/-! # C74: the links of the LFS batch response -/

namespace Gust

/-- The path of an absolute `http` URL, as a client puts it into the request line. -/
def Spec.urlPath (url : Bytes) : Option Bytes :=
  if (ascii "http://").isPrefixOf url then some ((url.drop 7).dropWhile (fun c => c != 0x2f)) else none

/-- An origin: `http://` and an authority (host and port). -/
def Spec.Origin (o : Bytes) : Prop := ∃ a, o = ascii "http://" ++ a ∧ a ≠ [] ∧ (0x2f : UInt8) ∉ a

theorem pathJoin_plain {p c : Bytes} (hp : ∃ q x, p = q ++ [x] ∧ x ≠ 0x2f) (hc : c.head? ≠ some 0x2f) : pathJoin p c = p ++ 0x2f :: c := by
  obtain ⟨q, x, rfl, hx⟩ := hp
  unfold pathJoin MetaData.pathPush
  rw [if_neg hc]
  simp [hx]

theorem link_eq {o : Bytes} (ho : Spec.Origin o) {v : RequestVars} (hv : Spec.RouteOid v.oid) (hu : v.user = []) (hr : v.repo = []) :
    internalLink o v = o ++ ascii "/objects/" ++ v.oid := by
  obtain ⟨a, rfl, ha, hs⟩ := ho
  have h1 : pathJoin [] (ascii "http://" ++ a) = ascii "http://" ++ a := by
    unfold pathJoin MetaData.pathPush
    rw [if_neg (by simp [ascii])]
    simp
  have hlast : ∃ q x, ascii "http://" ++ a = q ++ [x] ∧ x ≠ 0x2f := by
    refine ⟨ascii "http://" ++ a.dropLast, a.getLast ha, ?_, fun e => hs (e ▸ List.getLast_mem ha)⟩
    rw [List.append_assoc, List.dropLast_append_getLast ha]
  have hne : v.oid.head? ≠ some 0x2f := fun e => routeOid_noSlash hv (List.mem_of_mem_head? e)
  unfold internalLink
  simp only [hu, hr, List.length_nil, Nat.lt_irrefl, if_false, gt_iff_lt, h1]
  rw [pathJoin_plain hlast (by decide), pathJoin_plain ⟨ascii "http://" ++ a ++ ascii "/object", 0x73, by simp [ascii], by decide⟩ hne]
  simp [ascii]

theorem link_path {o : Bytes} (ho : Spec.Origin o) {v : RequestVars} (hv : Spec.RouteOid v.oid) (hu : v.user = []) (hr : v.repo = []) :
    Spec.urlPath (internalLink o v) = some (ascii "/objects/" ++ v.oid) := by
  rw [link_eq ho hv hu hr]
  obtain ⟨a, rfl, ha, hs⟩ := ho
  unfold Spec.urlPath
  rw [if_pos (by simp [ascii])]
  have : List.drop 7 (ascii "http://" ++ a ++ ascii "/objects/" ++ v.oid) = a ++ (0x2f :: (ascii "objects/" ++ v.oid)) := by
    simp [ascii]
  rw [this, List.dropWhile_append_of_pos (by
    intro c hc
    simp only [bne_iff_ne]
    rintro rfl
    exact hs hc)]
  simp [ascii]

/-- **C74 (partial)** A link offered for a routed oid, when the client names no user or repository, is an absolute URL on the server's origin; a GET request for its path
downloads that oid and a PUT request uploads it. (Missing from the full claim: objects with a user or repository, see `C74_repo_false`.) -/
theorem C74_link_partial {o : Bytes} (ho : Spec.Origin o) {v : RequestVars} (hv : Spec.RouteOid v.oid) (hu : v.user = []) (hr : v.repo = []) (s : Option Bytes) :
    ∃ path, Spec.urlPath (internalLink o v) = some path ∧ route .get path s = .download v.oid ∧ route .put path s = .upload v.oid := by
  refine ⟨_, link_path ho hv hu hr, ?_, ?_⟩
  · have e : ascii "/objects/" ++ v.oid = ascii "/objects" ++ 0x2f :: v.oid := by simp [ascii]
    have hm := (matchObjects_iff (ascii "/objects/" ++ v.oid)).2 ⟨[], v.oid, hv, rfl⟩
    have hroot : ascii "/objects/" ++ v.oid ≠ ascii "/" := by simp [ascii]
    simp only [route, if_neg hroot, getRoute, hm, if_true]
    rw [e]
    exact token_last _ _ (routeOid_noSlash hv) _
  · exact C57_routed_partial (.upload [] v.oid s hv) (by intro h; cases h)

/-- **C74 is false** when the client names a repository: the link starts with it, and is no URL of the server. -/
theorem C74_repo_false : ∃ (o : Bytes) (v : RequestVars), Spec.Origin o ∧ Spec.RouteOid v.oid ∧
    internalLink o v = ascii "org/app/http://host:8000/objects/abc123" ∧ Spec.urlPath (internalLink o v) = none :=
  ⟨ascii "http://host:8000", { oid := ascii "abc123", size := 1, user := ascii "org", repo := ascii "app" }, ⟨ascii "host:8000", rfl, by decide, by decide⟩,
    ⟨by decide, by decide⟩, by decide, by decide⟩

/-! ## Histories -/

/-- The LFS request in an HTTP request. -/
def lfsOf (P : ServerExt) (r : HttpReq) : Option LfsReq :=
  match route r.method r.path r.service with
  | .download oid => some (.download oid)
  | .batch => (P.J.batch r.body).map (fun p => .batch p.1 p.2)
  | .upload oid => some (.upload oid r.body)
  | _ => none

theorem serve_lfsOf (P : ServerExt) (m : Moment) (s : ServerState) (r : HttpReq) :
    (serve P m s r).2.lfs = match lfsOf P r with
      | some q => q.run P.D P.S s.lfs
      | none => s.lfs := by
  rw [serve_lfs]
  unfold lfsOf
  cases e : route r.method r.path r.service <;> simp only <;> (try rfl)
  cases P.J.batch r.body <;> rfl

theorem run_lfs (P : ServerExt) : ∀ (h : List (Moment × HttpReq)) (s : ServerState),
    (runServer P s h).lfs = runLfs P.D P.S s.lfs (h.filterMap (fun p => lfsOf P p.2))
  | [], _ => rfl
  | (m, r) :: h, s => by
    show (runServer P (serve P m s r).2 h).lfs = _
    rw [run_lfs P h, serve_lfsOf]
    cases e : lfsOf P r with
    | none => rw [List.filterMap_cons_none (by exact e)]
    | some q => rw [List.filterMap_cons_some (by exact e)]; rfl

theorem empty_fresh (E : StoreExt) : Spec.FreshStore E ServerState.empty.lfs := freshLfs_fresh E

/-- All objects of a batch request have oids of at least five characters. -/
def Spec.LongBatch (P : ServerExt) (r : HttpReq) : Prop := ∀ op vs, P.J.batch r.body = some (op, vs) → ∀ v ∈ vs, 5 ≤ v.oid.length

theorem upload_route {r : HttpReq} {oid : Bytes} (h : route r.method r.path r.service = .upload oid) : Spec.RouteOid oid := by
  obtain ⟨Q, hQ, hq⟩ := C57_only_partial (m := r.method) (path := r.path) (s := r.service) (by rw [h]; rintro (e | e | e | e) <;> cases e) (by rw [h]; intro id e; cases e)
  generalize hm : r.method = me at hQ hq h
  generalize hp : r.path = pa at hQ hq h
  generalize hs : r.service = sv at hQ hq h
  cases hQ with
  | upload pre oid' s ho => rw [h] at hq; cases hq; exact ho
  | infoRefs pre t => obtain ⟨_, hq⟩ := hq; rw [hq] at h; cases h
  | uploadPack pre t => obtain ⟨_, hq⟩ := hq; rw [hq] at h; cases h
  | receivePack pre t => obtain ⟨_, hq⟩ := hq; rw [hq] at h; cases h
  | _ => rw [hq] at h; cases h

theorem lfsOf_upload {P : ServerExt} {r : HttpReq} {oid body : Bytes} (h : lfsOf P r = some (.upload oid body)) :
    route r.method r.path r.service = .upload oid ∧ Spec.RouteOid oid := by
  unfold lfsOf at h
  cases e : route r.method r.path r.service <;> rw [e] at h <;> simp only at h <;> (try (cases h; done))
  · cases hb : P.J.batch r.body <;> rw [hb] at h <;> simp at h
  · cases h
    exact ⟨rfl, upload_route e⟩

theorem long_lfs {P : ServerExt} {h : List (Moment × HttpReq)} (hl : ∀ p ∈ h, Spec.LongBatch P p.2) : ∀ q ∈ h.filterMap (fun p => lfsOf P p.2), Spec.LongOids q := by
  intro q hq
  obtain ⟨p, hp, e⟩ := List.mem_filterMap.1 hq
  cases q with
  | batch op vs =>
    unfold lfsOf at e
    cases e' : route p.2.method p.2.path p.2.service <;> rw [e'] at e <;> simp only at e <;> (try (cases e; done))
    cases hb : P.J.batch p.2.body with
    | none => rw [hb] at e; cases e
    | some x =>
      rw [hb] at e
      cases e
      exact hl p hp _ _ hb
  | upload oid body => exact (lfsOf_upload e).2
  | download oid => trivial

/-- An announced object has a row with what the entry says. -/
theorem batchLoop_row (D : DbExt) (E : StoreExt) (disk : Disk) (upload : Bool) : ∀ (vs : List RequestVars) (m : MetaTable) (rs : List Rep),
    (batchLoop D E disk upload vs m).1 = .ok rs → ∀ (j : Nat) (v : RequestVars) (r : Rep) (l : Bytes), vs[j]? = some v → rs[j]? = some r → r.offer = .upload l →
      (batchLoop D E disk upload vs m).2 (D.fold v.oid) = some (r.oid, r.size)
  | [], _, _, _, j, v, _, _, hv, _, _ => by simp at hv
  | w :: vs, m, rs, h, j, v, r, l, hv, hr, hl => by
    rw [batchLoop] at h ⊢
    cases h1 : batchOne D E disk m upload w with
    | mk a m1 =>
      rw [h1] at h
      cases a with
      | ok r1 =>
        simp only at h ⊢
        cases h2 : batchLoop D E disk upload vs m1 with
        | mk b m2 =>
          rw [h2] at h
          cases b with
          | ok rs1 =>
            simp only at h ⊢
            cases h
            have e2 : (batchLoop D E disk upload vs m1).1 = .ok rs1 := by rw [h2]
            have e3 : (batchLoop D E disk upload vs m1).2 = m2 := by rw [h2]
            cases j with
            | zero =>
              simp only [List.getElem?_cons_zero, Option.some.injEq] at hv hr
              subst hv hr
              have hrow : m1 (D.fold w.oid) = some (r1.oid, r1.size) := by
                unfold batchOne lfsGetMeta lfsPutMeta at h1
                simp only at h1
                cases hm : m (D.fold w.oid) with
                | some row =>
                  rw [hm] at h1
                  simp only at h1
                  split at h1
                  · simp only [Prod.mk.injEq, Res.ok.injEq] at h1
                    obtain ⟨rfl, rfl⟩ := h1
                    cases hl
                  · split at h1
                    · simp only [Prod.mk.injEq, Res.ok.injEq] at h1
                      obtain ⟨rfl, rfl⟩ := h1
                      exact hm
                    · simp only [Prod.mk.injEq, Res.ok.injEq] at h1
                      obtain ⟨rfl, rfl⟩ := h1
                      cases hl
                  · cases h1
                | none =>
                  rw [hm] at h1
                  simp only at h1
                  split at h1
                  · split at h1
                    · rename_i hh
                      split at hh
                      · cases hh
                        simp only [Prod.mk.injEq, Res.ok.injEq] at h1
                        obtain ⟨rfl, rfl⟩ := h1
                        exact setAt_same _ _ _
                      · cases hh
                    · cases h1
                  · simp only [Prod.mk.injEq, Res.ok.injEq] at h1
                    obtain ⟨rfl, rfl⟩ := h1
                    cases hl
              rcases batchLoop_meta D E disk upload vs m1 (D.fold w.oid) with e | ⟨e, _⟩
              · rw [e3] at e; rw [e, hrow]
              · rw [e] at hrow; cases hrow
            | succ j =>
              rw [← e3]
              exact batchLoop_row D E disk upload vs m1 rs1 e2 j v r l (by simpa using hv) (by simpa using hr) hl
          | _ => simp at h
      | _ => simp at h

theorem Reply.outcome_ok {α : Type} {f : α → Payload} {x : Reply α} {p : Payload} (h : x.outcome f = .reply (.ok p)) : ∃ a, x = .ok a ∧ f a = p := by
  cases x with
  | ok a => simp [Reply.outcome] at h; exact ⟨a, rfl, h⟩
  | _ => simp [Reply.outcome] at h

theorem serve_batch {P : ServerExt} {m : Moment} {s : ServerState} {r : HttpReq} {op : Bytes} {vs : List RequestVars} {rs : List Rep}
    (hr : route r.method r.path r.service = .batch) (hj : P.J.batch r.body = some (op, vs)) (h : (serve P m s r).1 = .reply (.ok (.objects rs))) :
    (processBatch P.D P.S s.lfs op vs).1 = .ok rs := by
  unfold serve at h
  rw [hr] at h
  simp only [hj] at h
  obtain ⟨a, h1, h2⟩ := Reply.outcome_ok h
  cases h2
  exact h1

/-- The row of an object stays while nobody uploads for its oid. -/
theorem runLfs_keep {D : DbExt} (E : StoreExt) (hD : Spec.CollationOk D) {oid : Bytes} (ho : Spec.RouteOid oid) {row : Bytes × Int} :
    ∀ (h : List LfsReq) (s : LfsState), s.metas (D.fold oid) = some row → (∀ oid' body', .upload oid' body' ∈ h → Spec.RouteOid oid' ∧ oid' ≠ oid) →
      (runLfs D E s h).metas (D.fold oid) = some row
  | [], _, hm, _ => hm
  | q :: h, s, hm, hu => by
    refine runLfs_keep E hD ho h _ ?_ (fun a b hab => hu a b (List.mem_cons_of_mem _ hab))
    rcases run_metas D E s q _ _ hm with e | ⟨oid', body', rfl, hf, -⟩
    · exact e
    · obtain ⟨h1, h2⟩ := hu oid' body' (by simp)
      exact absurd ((hD oid' oid ho hf).2.2.2 h1) h2

theorem noUpload_lfs {P : ServerExt} {oid : Bytes} {h : List (Moment × HttpReq)} (hn : ∀ p ∈ h, route p.2.method p.2.path p.2.service ≠ .upload oid) :
    ∀ oid' body', .upload oid' body' ∈ h.filterMap (fun p => lfsOf P p.2) → Spec.RouteOid oid' ∧ oid' ≠ oid := by
  intro oid' body' hm
  obtain ⟨p, hp, e⟩ := List.mem_filterMap.1 hm
  obtain ⟨e1, e2⟩ := lfsOf_upload e
  refine ⟨e2, ?_⟩
  rintro rfl
  exact hn p hp e1

/-- What a client does with an object, by HTTP requests only: announce it, and upload it at the link it gets. -/
def Spec.putReq (path body : Bytes) : HttpReq := { method := .put, path := path, body := body }
def Spec.getReq (path : Bytes) : HttpReq := { method := .get, path := path }

/-- **C74 (partial)** The life of an LFS object over HTTP, on a server that started empty and has handled any requests before. A client announces objects in an upload batch
and for one of them, with the oid of its content, is offered a link for an upload of the right size. After any further requests except uploads for this oid, a PUT request with
the content to the path of that link succeeds. After any further requests except uploads for this oid, every batch request that names the oid is answered with a link for a
download, and a GET request to its path delivers the content. (Missing from the full claim: objects with user or repository, see `C74_repo_false`; contents longer than
one write, see C45; oids of fewer than five characters announced, see C68.) -/
theorem C74_roundtrip_partial (P : ServerExt) (hD : Spec.CollationOk P.D) (hE : Spec.HexDigest P.S) (ho : Spec.Origin P.S.origin)
    (h1 h2 h3 : List (Moment × HttpReq)) (m1 m2 m3 m4 : Moment) (b1 : HttpReq)
    (hlong : ∀ p ∈ h1 ++ [(m1, b1)] ++ h2, Spec.LongBatch P p.2)
    (hb1 : route b1.method b1.path b1.service = .batch) (vs : List RequestVars) (hj1 : P.J.batch b1.body = some (ascii "upload", vs))
    (content : Bytes) (hlen : content.length ≤ P.S.maxWrite) (i : Nat) (v : RequestVars) (hv : vs[i]? = some v) (hoid : v.oid = P.S.digest content)
    (hplain : v.user = [] ∧ v.repo = [])
    (rs : List Rep) (hrep : (serve P m1 (runServer P .empty h1) b1).1 = .reply (.ok (.objects rs))) (href : Bytes)
    (hr : rs[i]? = some { oid := v.oid, size := content.length, offer := .upload href })
    (hn2 : ∀ p ∈ h2, route p.2.method p.2.path p.2.service ≠ .upload v.oid) (hn3 : ∀ p ∈ h3, route p.2.method p.2.path p.2.service ≠ .upload v.oid) :
    ∃ path, Spec.urlPath href = some path ∧
      (serve P m2 (runServer P .empty (h1 ++ [(m1, b1)] ++ h2)) (Spec.putReq path content)).1 = .reply (.ok (.bytes [])) ∧
      ∀ (b2 : HttpReq) (op : Bytes) (vs' : List RequestVars) (i' : Nat) (v' : RequestVars) (rs' : List Rep),
        route b2.method b2.path b2.service = .batch → P.J.batch b2.body = some (op, vs') → vs'[i']? = some v' → v'.oid = v.oid → v'.user = [] ∧ v'.repo = [] →
        (serve P m3 (runServer P .empty (h1 ++ [(m1, b1)] ++ h2 ++ [(m2, Spec.putReq path content)] ++ h3)) b2).1 = .reply (.ok (.objects rs')) →
        ∃ r' href' path', rs'[i']? = some r' ∧ r'.offer = .download href' ∧ Spec.urlPath href' = some path' ∧
          (serve P m4 (runServer P .empty (h1 ++ [(m1, b1)] ++ h2 ++ [(m2, Spec.putReq path content)] ++ h3 ++ [(m3, b2)])) (Spec.getReq path')).1 =
            .reply (.ok (.bytes content)) := by
  have hro : Spec.RouteOid v.oid := hoid ▸ hexDigest_route hE content
  -- the announcement
  have hpb := serve_batch hb1 hj1 hrep
  have hentry := (C47_batch P.D P.S _ _ vs rs hpb).2 i v _ hv hr
  have hlink : href = internalLink P.S.origin v := by
    unfold Spec.entryFor at hentry
    split at hentry <;> (try split at hentry) <;> (try split at hentry) <;> simp only [Rep.mk.injEq] at hentry <;> first | exact Offer.upload.inj hentry.2.2 | cases hentry.2.2
  have hloop := processBatch_ok P.D P.S _ _ vs rs hpb
  have hrow := batchLoop_row P.D P.S _ _ vs _ rs hloop i v _ href hv hr rfl
  have hmeta : (processBatch P.D P.S (runServer P .empty h1).lfs (ascii "upload") vs).2.metas (P.D.fold v.oid) = some (v.oid, (content.length : Int)) := by
    unfold processBatch at hpb ⊢
    simp only at hpb ⊢
    split
    · rename_i hh
      rw [if_pos hh] at hpb
      cases hpb
    · exact hrow
  obtain ⟨path, hpath, hget, hput⟩ := C74_link_partial ho hro hplain.1 hplain.2 none
  rw [← hlink] at hpath
  -- the state when the object is uploaded
  have hs2 := run_lfs P (h1 ++ [(m1, b1)] ++ h2) .empty
  generalize hL : (h1 ++ [(m1, b1)] ++ h2).filterMap (fun p => lfsOf P p.2) = L at hs2
  have hmeta2 : (runLfs P.D P.S ServerState.empty.lfs L).metas (P.D.fold v.oid) = some (v.oid, (content.length : Int)) := by
    rw [← hs2, runServer_append, run_lfs P h2]
    refine runLfs_keep P.S hD hro _ _ ?_ (noUpload_lfs hn2)
    rw [runServer_concat, serve_lfs, hb1]
    simp only [hj1]
    exact hmeta
  have hlongL : ∀ q ∈ L, Spec.LongOids q := by rw [← hL]; exact long_lfs hlong
  have hup := C68_upload_accepted_partial P.D P.S hD _ (empty_fresh P.S) L hlongL v.oid content hro hmeta2 hoid.symm hlen
  refine ⟨path, hpath, ?_, ?_⟩
  · unfold serve
    simp only [Spec.putReq, hput, hs2, hup]
    rfl
  -- afterwards
  intro b2 op vs' i' v' rs' hb2 hj2 hv' hoid' hplain' hrep2
  have hpb2 := serve_batch hb2 hj2 hrep2
  have hs3 : ∀ h, (runServer P .empty (h1 ++ [(m1, b1)] ++ h2 ++ [(m2, Spec.putReq path content)] ++ h)).lfs =
      runLfs P.D P.S ServerState.empty.lfs (L ++ .upload v.oid content :: h.filterMap (fun p => lfsOf P p.2)) := by
    intro h
    rw [run_lfs]
    congr 1
    rw [List.append_assoc _ _ h, List.filterMap_append, hL]
    congr 1
    rw [List.singleton_append, List.filterMap_cons_some]
    simp only [lfsOf, Spec.putReq, hput]
  have down : ∀ h, (∀ p ∈ h, route p.2.method p.2.path p.2.service ≠ .upload v.oid) →
      (downloadObject P.D P.S (runServer P .empty (h1 ++ [(m1, b1)] ++ h2 ++ [(m2, Spec.putReq path content)] ++ h)).lfs v.oid).1 = .ok content := by
    intro h hn
    rw [hs3]
    exact C45_upload_download_partial P.D P.S hD hE _ (empty_fresh P.S) L _ v.oid content hro hlen hup (noUpload_lfs hn)
  obtain ⟨o, n, p, d1, d2, d3⟩ := downloadObject_ok_inv _ _ _ _ _ (down h3 hn3)
  obtain ⟨hlen2, hentry2⟩ := C47_batch P.D P.S _ _ vs' rs' hpb2
  obtain ⟨r', hr'⟩ : ∃ r', rs'[i']? = some r' := by
    have := List.getElem?_eq_some_iff.1 hv'
    obtain ⟨hlt, _⟩ := this
    exact ⟨rs'[i'], List.getElem?_eq_getElem (by omega)⟩
  have he := hentry2 i' v' r' hv' hr'
  have hrow' : ∀ up earlier, Spec.rowFor P.D (runServer P .empty (h1 ++ [(m1, b1)] ++ h2 ++ [(m2, Spec.putReq path content)] ++ h3)).lfs.metas up earlier v'.oid = some (o, n) := by
    intro up earlier
    unfold Spec.rowFor
    rw [hoid', d1]
  have hpres : Spec.present P.S (storeNew P.S (runServer P .empty (h1 ++ [(m1, b1)] ++ h2 ++ [(m2, Spec.putReq path content)] ++ h3)).lfs.disk).1 o = true := by
    unfold Spec.present
    rw [d2]
    simp only [((storeNew_grown P.S _).file).2 d3]
    rfl
  rw [hrow'] at he
  unfold Spec.entryFor at he
  simp only [hpres, if_true] at he
  obtain ⟨path', hpath', hget', -⟩ := C74_link_partial ho (v := v') (hoid'.symm ▸ hro) hplain'.1 hplain'.2 none
  refine ⟨r', _, path', hr', by rw [he], hpath', ?_⟩
  have := down (h3 ++ [(m3, b2)]) (by
    intro q hq
    rcases List.mem_append.1 hq with hq | hq
    · exact hn3 q hq
    · rw [List.mem_singleton.1 hq, hb2]
      intro e
      cases e)
  rw [← List.append_assoc] at this
  unfold serve
  simp only [Spec.getReq, hget', hoid', this]
  rfl

/-- The example server with LFS rows compared by lower case. -/
def lowerServer : ServerExt := { demoServer with D := lowerDb }

/-- The batch request of the example and its answer. -/
theorem lower_batch : (serve lowerServer demoMoment (runServer lowerServer .empty mixedRequests) (batchReq (demoStore.digest (ascii "other")))).1 =
    .reply (.ok (.objects [{ oid := demoStore.digest (ascii "other"), size := 5, offer := .upload (ascii "http://host/objects/" ++ demoStore.digest (ascii "other")) }])) := by
  decide +kernel

/-- C74 on the example server: announce, list locks, upload at the link, then the batch answer and the download. -/
example : ∃ path, Spec.urlPath (ascii "http://host/objects/" ++ demoStore.digest (ascii "other")) = some path ∧
    (serve lowerServer demoMoment (runServer lowerServer .empty (mixedRequests ++ [(demoMoment, batchReq (demoStore.digest (ascii "other")))] ++ [(demoMoment, listReq)]))
      (Spec.putReq path (ascii "other"))).1 = .reply (.ok (.bytes [])) := by
  obtain ⟨path, h1, h2, _⟩ := C74_roundtrip_partial lowerServer lowerDb_ok demoStore_digest ⟨ascii "host", rfl, by decide, by decide⟩ mixedRequests [(demoMoment, listReq)] []
    demoMoment demoMoment demoMoment demoMoment (batchReq (demoStore.digest (ascii "other"))) (by
      intro p hp op vs hb v hv
      simp only [mixedRequests, uploadHistory, List.cons_append, List.nil_append, List.mem_cons, List.not_mem_nil, or_false] at hp
      have e : ∀ b : Bytes, 5 ≤ b.length ∨ b = [] → demoJson.batch b = some (op, vs) → 5 ≤ v.oid.length := by
        intro b hb h
        simp only [demoJson] at h
        split at h
        · cases h
        · rename_i hne
          simp only [Option.some.injEq, Prod.mk.injEq] at h
          rw [← h.2] at hv
          rw [List.mem_singleton.1 hv]
          rcases hb with hb | hb
          · exact hb
          · exact absurd hb hne
      refine e p.2.body ?_ hb
      rcases hp with rfl | rfl | rfl | rfl | rfl | rfl | rfl <;> decide +kernel)
    (by decide +kernel) [{ oid := demoStore.digest (ascii "other"), size := 5 }] (by simp only [lowerServer, demoServer, demoJson, batchReq]; rw [if_neg (by decide +kernel)]) (ascii "other") (by decide) 0 _ rfl rfl ⟨rfl, rfl⟩ _ lower_batch _ rfl
    (by
      intro p hp e
      rw [List.mem_singleton.1 hp, show route listReq.method listReq.path listReq.service = .listLocks from by decide] at e
      cases e)
    (by simp)
  exact ⟨path, h1, h2⟩

end Gust

import Verif.Props.AcksBoth

/-! # C159: what the server has once called common it always calls common -/

namespace Gust

/-- A stored commit stays. -/
theorem hasCommit_stays {P : ServerExt} {h later : BothHist} {id : Hash} (hc : Spec.HasCommit P.X (runBoth P .empty h).web.db id) :
    Spec.HasCommit P.X (runBoth P .empty (h ++ later)).web.db id := by
  obtain ⟨r, hr, e⟩ := hc
  refine ⟨r, ?_, e⟩
  rw [runBoth_append]
  exact (runBoth_extends P later _).2 r hr

/-- What a client reads in an answered fetch in which it lists ids that it has and asks for `multi_ack_detailed` and a side-band. -/
theorem fetchedAny_reads {P : ServerExt} (hfold : ∀ a b : Hash, P.D.fold (Hash.toPlainStr a) = P.D.fold (Hash.toPlainStr b) → a = b) {h : BothHist} {m : Moment}
    (hm : m.sql.fold = P.D.fold) (hord : ∀ l x, x ∈ m.ord l ↔ x ∈ l) (hcut : Spec.CutOk m.cut) {u : Bytes} {ls : List Spec.ReqLine} (hls : ∀ l ∈ ls, l.Ok) {t rest : Bytes}
    (ht : t.length ≤ 65000) (hh : Spec.haveIds ls ≠ []) (hask : Spec.Asks ls (ascii "multi_ack_detailed")) (hband : Spec.AsksBand (Spec.askedFor ls)) {out : Bytes}
    (hout : Spec.FetchedAny P u (doneBody ls t rest) out m h) :
    ∃ ids file, Spec.readFetch out = some (ids, file) ∧
      ∀ id : Hash, Hash.toPlainStr id ∈ ids ↔ Hash.toPlainStr id ∈ Spec.wantIds ls ++ Spec.haveIds ls ∧ Spec.HasCommit P.X (runBoth P .empty h).web.db id := by
  rw [← hm] at hfold
  have hc := both_commit_ids P h
  have hout := fetchedAny_http (fun l x => (hord l x).1) hout
  obtain ⟨w, v, hw, h1, h2⟩ := httpUploadPack_step (St := mysqlFetch P.X m.sql m.fuel (runBoth P .empty h).web.db u) hord hcut hls ht rest hh hask hband
  by_cases hf : ∃ file, (mysqlFetch P.X m.sql m.fuel (runBoth P .empty h).web.db u).incPack w v = .ok file
  · obtain ⟨file, hf⟩ := hf
    obtain ⟨out', ids, o1, o2, o3⟩ := h1 file hf
    rw [hout, Res.ok.injEq] at o1
    subst o1
    exact ⟨ids, file, o2, fun id => by rw [o3, known_hash hfold hc]⟩
  · exact absurd hout (h2 (fun file hf' => hf ⟨file, hf'⟩) out)

/-- **C159** A fetch of any repository, over HTTP or SSH, is answered, and the client reads that certain commits are common. Whatever happens on both servers afterwards, in every fetch that is
answered, of any repository and over HTTP or SSH, a client that lists such a commit among those it has reads that it is common. (Both clients ask for `multi_ack_detailed` and a side-band and
list what they have.) -/
theorem C159_stays (P : ServerExt) (hfold : ∀ a b : Hash, P.D.fold (Hash.toPlainStr a) = P.D.fold (Hash.toPlainStr b) → a = b) (h later : BothHist)
    (m m' : Moment) (hm : m.sql.fold = P.D.fold) (hm' : m'.sql.fold = P.D.fold) (hord : ∀ l x, x ∈ m.ord l ↔ x ∈ l) (hord' : ∀ l x, x ∈ m'.ord l ↔ x ∈ l)
    (hcut : Spec.CutOk m.cut) (hcut' : Spec.CutOk m'.cut) (u u' : Bytes)
    (ls ls' : List Spec.ReqLine) (hls : ∀ l ∈ ls, l.Ok) (hls' : ∀ l ∈ ls', l.Ok) (t rest t' rest' : Bytes) (ht : t.length ≤ 65000) (ht' : t'.length ≤ 65000)
    (hh : Spec.haveIds ls ≠ []) (hh' : Spec.haveIds ls' ≠ []) (hasks : Spec.Asks ls (ascii "multi_ack_detailed")) (hasks' : Spec.Asks ls' (ascii "multi_ack_detailed"))
    (hband : Spec.AsksBand (Spec.askedFor ls)) (hband' : Spec.AsksBand (Spec.askedFor ls')) (out out' : Bytes) (hout : Spec.FetchedAny P u (doneBody ls t rest) out m h)
    (hout' : Spec.FetchedAny P u' (doneBody ls' t' rest') out' m' (h ++ later)) :
    ∃ ids file ids' file', Spec.readFetch out = some (ids, file) ∧ Spec.readFetch out' = some (ids', file') ∧
      ∀ id : Hash, Hash.toPlainStr id ∈ ids → Hash.toPlainStr id ∈ Spec.haveIds ls' → Hash.toPlainStr id ∈ ids' := by
  obtain ⟨ids, file, a1, a2⟩ := fetchedAny_reads hfold hm hord hcut hls ht hh hasks hband hout
  obtain ⟨ids', file', b1, b2⟩ := fetchedAny_reads hfold hm' hord' hcut' hls' ht' hh' hasks' hband' hout'
  exact ⟨ids, file, ids', file', a1, b1, fun id h1 h2 => (b2 id).2 ⟨List.mem_append_right _ h2, hasCommit_stays ((a2 id).1 h1).2⟩⟩

/-- **C159** Two clients that fetch after the same history, from whatever repositories and over HTTP or SSH, read the same of every commit that both list. -/
theorem C159_same (P : ServerExt) (hfold : ∀ a b : Hash, P.D.fold (Hash.toPlainStr a) = P.D.fold (Hash.toPlainStr b) → a = b) (h : BothHist)
    (m m' : Moment) (hm : m.sql.fold = P.D.fold) (hm' : m'.sql.fold = P.D.fold) (hord : ∀ l x, x ∈ m.ord l ↔ x ∈ l) (hord' : ∀ l x, x ∈ m'.ord l ↔ x ∈ l)
    (hcut : Spec.CutOk m.cut) (hcut' : Spec.CutOk m'.cut) (u u' : Bytes)
    (ls ls' : List Spec.ReqLine) (hls : ∀ l ∈ ls, l.Ok) (hls' : ∀ l ∈ ls', l.Ok) (t rest t' rest' : Bytes) (ht : t.length ≤ 65000) (ht' : t'.length ≤ 65000)
    (hh : Spec.haveIds ls ≠ []) (hh' : Spec.haveIds ls' ≠ []) (hasks : Spec.Asks ls (ascii "multi_ack_detailed")) (hasks' : Spec.Asks ls' (ascii "multi_ack_detailed"))
    (hband : Spec.AsksBand (Spec.askedFor ls)) (hband' : Spec.AsksBand (Spec.askedFor ls')) (out out' : Bytes) (hout : Spec.FetchedAny P u (doneBody ls t rest) out m h)
    (hout' : Spec.FetchedAny P u' (doneBody ls' t' rest') out' m' h) :
    ∃ ids file ids' file', Spec.readFetch out = some (ids, file) ∧ Spec.readFetch out' = some (ids', file') ∧
      ∀ id : Hash, Hash.toPlainStr id ∈ Spec.haveIds ls → Hash.toPlainStr id ∈ Spec.haveIds ls' → (Hash.toPlainStr id ∈ ids ↔ Hash.toPlainStr id ∈ ids') := by
  obtain ⟨ids, file, a1, a2⟩ := fetchedAny_reads hfold hm hord hcut hls ht hh hasks hband hout
  obtain ⟨ids', file', b1, b2⟩ := fetchedAny_reads hfold hm' hord' hcut' hls' ht' hh' hasks' hband' hout'
  exact ⟨ids, file, ids', file', a1, b1, fun id h1 h2 => by
    rw [a2, b2]
    exact ⟨fun x => ⟨List.mem_append_right _ h2, x.2⟩, fun x => ⟨List.mem_append_right _ h1, x.2⟩⟩⟩

/-- A fetch on SSH connection 1 after the push of `/app`, in which the client reads that the commit of `/app` is common. -/
theorem called_common : ∃ (h' : BothHist) (m : Moment) (out : Bytes), Spec.FetchedAny demoServer (ascii "/app") (doneBody hasItLines (ascii "\n") []) out m h' ∧
    m.sql.fold = demoServer.D.fold ∧ (∀ l x, x ∈ m.ord l ↔ x ∈ l) ∧ Spec.CutOk m.cut ∧ ∃ ids file, Spec.readFetch out = some (ids, file) ∧ appCmd.new ∈ ids := by
  obtain ⟨pack, rep, p, h', h1, hdec, h3, hp, hfl, hab, hopen, objs, o, ho⟩ := both_ready
  have hcommit := (h3 _ _).2 ⟨(by simp [appObjects, appThin] : metaOf polyExt (.commit, appCommit.encode) ∈ appObjects), rfl⟩
  obtain ⟨m, hm⟩ : ∃ m : Moment, m = { demoMoment with fuel := (runBoth demoServer .empty h').web.db.nodes.length } := ⟨_, rfl⟩
  have hord : ∀ l x, x ∈ m.ord l ↔ x ∈ l := by rw [hm]; exact fun _ _ => .rfl
  have hcut : Spec.CutOk m.cut := by rw [hm]; exact demoCut_ok
  have hms : m.sql.fold = demoServer.D.fold := by rw [hm]; rfl
  have hfuel : (runBoth demoServer .empty h').web.db.nodes.length ≤ m.fuel := by rw [hm]
  obtain ⟨out, ids, file, k1, k2, k3⟩ := C149_fetched_partial demoServer demoFold_hash (ascii "/app") appCmd appCmd_ok (ascii "report-status") (by decide) (by decide) pack h1 rep demoMoment m
    bothBefore h' [] hp (fun _ _ => rfl) p hdec (by rw [List.append_nil]; exact hfl) hms (by rw [List.append_nil]; exact hab)
    (by rw [List.append_nil]; exact app_unique objs) (by rw [List.append_nil]; exact app_fits objs) (by rw [List.append_nil]; exact hfuel) hord hcut
    hasItLines hasItLines_ok (ascii "\n") [] (by decide) (by simp [hasItLines, Spec.haveIds]) hasItLines_asks update_band
    ⟨metaOf polyExt (.commit, appCommit.encode), hcommit, rfl, by simp [hasItLines, Spec.wantIds, appCmd, metaOf]⟩
  rw [List.append_nil] at k2
  have hf : Spec.FetchedAny demoServer (ascii "/app") (doneBody hasItLines (ascii "\n") []) out m h' := .ssh 1 0 hopen (k2 1 0 hopen)
  refine ⟨h', m, out, hf, hms, hord, hcut, ids, file, k3.1, ?_⟩
  obtain ⟨st', hrec, hdb, _⟩ := pushedAny_http appCmd_ok (by decide) (by decide) hp
  obtain ⟨p2, d1, d2, _⟩ := C26_durable_partial polyExt demoMoment.sql demoMoment.fuel (ascii "/app") (runBoth demoServer .empty bothBefore).web.db appCmd appCmd_ok (ascii "report-status") (by decide)
    (by decide) pack h1 (fun _ _ => rfl) (fun _ _ => rfl) rep st' hrec
  have e : p2 = p := by
    have := d1.symm.trans hdec
    exact Res.ok.inj this
  subst e
  obtain ⟨r, hr, e1, _⟩ := d2 _ hcommit rfl
  have hr' : r ∈ (runBoth demoServer .empty h').web.db.commits := by rw [hdb]; exact hr
  have hin : Hash.toPlainStr (metaOf polyExt (.commit, appCommit.encode)).id ∈ Spec.wantIds hasItLines ++ Spec.haveIds hasItLines := by
    simp [hasItLines, Spec.wantIds, appCmd]
  refine (k3.2.1 _).2 ⟨hin, r, by rw [List.append_nil]; exact hr', Hash.toPlainStr_injective ?_⟩
  have e2 := both_commit_ids demoServer h' r hr'
  exact e2.symm.trans e1

/-- C159: the commit of `/app` was pushed on SSH connection 0, and a client that lists it reads on connection 1 that it is common. After any further requests and messages, every client that lists it
and is answered reads so as well; so does one that is answered at once, of another repository. -/
example : ∃ (h' : BothHist) (m : Moment) (out : Bytes), Spec.FetchedAny demoServer (ascii "/app") (doneBody hasItLines (ascii "\n") []) out m h' ∧
    ∀ (later : BothHist) (u' : Bytes) (out' : Bytes), Spec.FetchedAny demoServer u' (doneBody hasItLines (ascii "\n") []) out' m (h' ++ later) →
      ∃ ids' file', Spec.readFetch out' = some (ids', file') ∧ appCmd.new ∈ ids' := by
  obtain ⟨h', m, out, hf, hms, hord, hcut, ids, file, hr, hin⟩ := called_common
  refine ⟨h', m, out, hf, fun later u' out' hf' => ?_⟩
  have hne : Spec.haveIds hasItLines ≠ [] := by simp [hasItLines, Spec.haveIds]
  obtain ⟨ids2, file2, ids', file', a, b, c⟩ := C159_stays demoServer demoFold_hash h' later m m hms hms hord hord hcut hcut (ascii "/app") u' hasItLines hasItLines hasItLines_ok hasItLines_ok
    (ascii "\n") [] (ascii "\n") [] (by decide) (by decide) hne hne hasItLines_asks hasItLines_asks update_band update_band out out' hf hf'
  rw [hr, Option.some.injEq, Prod.mk.injEq] at a
  obtain ⟨rfl, -⟩ := a
  exact ⟨ids', file', b, c _ hin (by simp [hasItLines, Spec.haveIds, appCmd])⟩

/-- C159: that first client is told on connection 1 what it would be told over HTTP for the same repository or any other. -/
example : ∃ (h' : BothHist) (m : Moment), ∀ (u' out' : Bytes), Spec.FetchedAny demoServer u' (doneBody hasItLines (ascii "\n") []) out' m h' →
    ∃ ids' file', Spec.readFetch out' = some (ids', file') ∧ appCmd.new ∈ ids' := by
  obtain ⟨h', m, out, hf, hms, hord, hcut, ids, file, hr, hin⟩ := called_common
  refine ⟨h', m, fun u' out' hf' => ?_⟩
  have hne : Spec.haveIds hasItLines ≠ [] := by simp [hasItLines, Spec.haveIds]
  have hl : appCmd.new ∈ Spec.haveIds hasItLines := by simp [hasItLines, Spec.haveIds]
  obtain ⟨ids2, file2, ids', file', a, b, c⟩ := C159_same demoServer demoFold_hash h' m m hms hms hord hord hcut hcut (ascii "/app") u' hasItLines hasItLines hasItLines_ok hasItLines_ok
    (ascii "\n") [] (ascii "\n") [] (by decide) (by decide) hne hne hasItLines_asks hasItLines_asks update_band update_band out out' hf hf'
  rw [hr, Option.some.injEq, Prod.mk.injEq] at a
  obtain ⟨rfl, -⟩ := a
  exact ⟨ids', file', b, (c _ hl hl).1 hin⟩

end Gust

import Verif.Props.FetchBothExamples

/-! # C103 for the two servers together

What a fetch calls common, after any history of requests over HTTP and of events on SSH connections, whichever of the two the fetch uses. -/

namespace Gust

open Spec (InRepo)

/-- **C103 (partial)** As `C103_told_partial`, after any history of HTTP requests and SSH connections, for a fetch over HTTP or on an SSH connection. (Missing from the full claim: as there.) -/
theorem C103_told_both_partial (P : ServerExt) (hfold : ∀ a b : Hash, P.D.fold (Hash.toPlainStr a) = P.D.fold (Hash.toPlainStr b) → a = b)
    (h : BothHist) (m : Moment) (hm : m.sql.fold = P.D.fold) (hord : ∀ l x, x ∈ m.ord l ↔ x ∈ l) {u : Bytes}
    (ls : List Spec.ReqLine) (hls : ∀ l ∈ ls, l.Ok) (t rest : Bytes) (ht : t.length ≤ 65000) (out : Bytes) (hout : Spec.FetchedAny P u (doneBody ls t rest) out m h) :
    ∃ (pkts : List Spec.Pkt) (file : Bytes), out = Spec.stream pkts ++ sendPack (requestCaps ls) (m.cut file) ∧ (∀ p ∈ pkts, p.Fits) ∧
      (file = [] ∨ getFullPack P.X m.sql m.fuel (runBoth P .empty h).web.db u = .ok file ∨ ∃ w v, getIncPack P.X m.sql m.fuel (runBoth P .empty h).web.db u w v = .ok file) ∧
      (Spec.haveIds ls = [] → pkts = [.line (ascii "NAK\n")]) ∧
      (∀ id : Hash, Hash.toPlainStr id ∈ Spec.commonIds pkts → Hash.toPlainStr id ∈ Spec.wantIds ls ++ Spec.haveIds ls ∧ Spec.HasCommit P.X (runBoth P .empty h).web.db id) ∧
      (Spec.haveIds ls ≠ [] → Spec.Asks ls (ascii "multi_ack_detailed") → ∀ id : Hash, Hash.toPlainStr id ∈ Spec.wantIds ls ++ Spec.haveIds ls →
        Spec.HasCommit P.X (runBoth P .empty h).web.db id → Hash.toPlainStr id ∈ Spec.commonIds pkts) := by
  rw [← hm] at hfold
  have hc := both_commit_ids P h
  obtain ⟨pkts, file, h1, h2, h0, h3, h4, h5⟩ := httpUploadPack_common hord hls ht (fetchedAny_http (fun l x => (hord l x).1) hout)
  refine ⟨pkts, file, h1, h2, h0, h3, fun id hid => ?_, fun a b id h6 h7 => h5 a b _ h6 ((known_hash hfold hc _ _ _).2 h7)⟩
  obtain ⟨h6, h7⟩ := h4 _ hid
  exact ⟨h6, (known_hash hfold hc _ _ _).1 h7⟩

/-- **C103 (partial)** Every commit of a push that was answered, over HTTP or SSH, is called common by every later fetch, over HTTP or SSH and of whatever repository, in which the client lists it
among those it has and asks for `multi_ack_detailed`. (Database accepting the inserts of commits and refs.) -/
theorem C103_pushed_both_partial (P : ServerExt) (hfold : ∀ a b : Hash, P.D.fold (Hash.toPlainStr a) = P.D.fold (Hash.toPlainStr b) → a = b)
    (h h' later : BothHist) {m0 : Moment} {v : Bytes} {c : Spec.PushCmd} (hc : c.Ok) {caps0 : Bytes}
    (hl : caps0.length ≤ 4000) (ha : ∀ x ∈ caps0, x.toNat < 128) {pack rep : Bytes} (hp : (ascii "PACK").isPrefixOf pack = true)
    (hac : ∀ n rows, m0.sql.acceptCommits n rows = true) (har : ∀ n rows, m0.sql.acceptRefs n rows = true)
    (hpush : Spec.PushedAny P v c caps0 pack rep m0 h h') (m : Moment) (hm : m.sql.fold = P.D.fold) (hord : ∀ l x, x ∈ m.ord l ↔ x ∈ l) {u : Bytes}
    (ls : List Spec.ReqLine) (hls : ∀ l ∈ ls, l.Ok) (t rest : Bytes) (ht : t.length ≤ 65000) (hasks : Spec.Asks ls (ascii "multi_ack_detailed")) (out : Bytes)
    (hout : Spec.FetchedAny P u (doneBody ls t rest) out m (h' ++ later)) :
    ∃ p, decodePack P.X (getHashObject P.X m0.sql (runBoth P .empty h).web.db) m0.fuel pack = .ok p ∧
      ∃ (pkts : List Spec.Pkt) (file : Bytes), out = Spec.stream pkts ++ sendPack (requestCaps ls) (m.cut file) ∧ (∀ p ∈ pkts, p.Fits) ∧
        ∀ o, p.result.hashObject o.id = some o → o.t = .commit → Hash.toPlainStr o.id ∈ Spec.haveIds ls → Hash.toPlainStr o.id ∈ Spec.commonIds pkts := by
  obtain ⟨st', hrec, hdb, _⟩ := pushedAny_http hc hl ha hpush
  obtain ⟨p, d1, d2, _⟩ := C26_durable_partial P.X m0.sql m0.fuel v (runBoth P .empty h).web.db c hc caps0 hl ha pack hp hac har rep st' hrec
  obtain ⟨pkts, file, h1, h2, _, _, _, h5⟩ := C103_told_both_partial P hfold _ m hm hord ls hls t rest ht out hout
  refine ⟨p, d1, pkts, file, h1, h2, fun o ho hty hin => h5 (List.ne_nil_of_mem hin) hasks o.id (List.mem_append_right _ hin) ?_⟩
  obtain ⟨r, hr, e1, _⟩ := d2 o ho hty
  have hin' : r ∈ (runBoth P .empty (h' ++ later)).web.db.commits := by
    rw [runBoth_append]
    exact (runBoth_extends P later _).2 r (by rw [hdb]; exact hr)
  refine ⟨r, hin', Hash.toPlainStr_injective ?_⟩
  rw [← both_commit_ids P _ r hin', e1]

/-- A client that has the commit of `/app` and asks for it again. -/
def hasItLines : List Spec.ReqLine := [.want appCmd.new (ascii " multi_ack_detailed side-band-64k\n"), .flush, .have_ appCmd.new (ascii "\n")]

theorem hasItLines_ok : ∀ l ∈ hasItLines, l.Ok := by
  intro l hl
  simp only [hasItLines, List.mem_cons, List.not_mem_nil, or_false] at hl
  rcases hl with rfl | rfl | rfl
  · exact ⟨appCmd_ok.2.2.1, appCmd_ok.2.2.2.1, ⟨0x20, ascii "multi_ack_detailed side-band-64k\n", by decide, by decide⟩, by decide⟩
  · trivial
  · exact ⟨appCmd_ok.2.2.1, appCmd_ok.2.2.2.1, ⟨10, [], by decide, by simp⟩, by decide⟩

theorem hasItLines_asks : Spec.Asks hasItLines (ascii "multi_ack_detailed") :=
  ⟨ascii " multi_ack_detailed side-band-64k\n", [ascii "multi_ack_detailed", ascii "side-band-64k\n"], rfl, ⟨by decide, by decide, by decide⟩, .inl (by decide)⟩

/-- C103: the commit of `/app` was pushed on SSH connection 0. A client that lists it is told on connection 1 that it is common; a client that lists another one is told that only the one it wants
is. -/
example : ∃ (h' : BothHist) (m : Moment) (out out2 : Bytes) (pkts pkts2 : List Spec.Pkt) (file file2 : Bytes), Spec.Opened demoServer (ascii "/app") 1 h' ∧
    (sshStep polyExt m (runBoth demoServer .empty h').ssh 1 (.data 0 (doneBody hasItLines (ascii "\n") []))).1 = [(0, out)] ∧
    out = Spec.stream pkts ++ sendPack (requestCaps hasItLines) (m.cut file) ∧ appCmd.new ∈ Spec.commonIds pkts ∧
    (sshStep polyExt m (runBoth demoServer .empty h').ssh 1 (.data 0 (doneBody updateLines (ascii "\n") []))).1 = [(0, out2)] ∧
    out2 = Spec.stream pkts2 ++ sendPack (requestCaps updateLines) (m.cut file2) ∧ Hash.toPlainStr srcId ∉ Spec.commonIds pkts2 := by
  obtain ⟨pack, rep, p, h', h1, hdec, h3, hp, hfl, hab, hopen, objs, o, ho⟩ := both_ready
  have find : ∀ m ∈ appObjects, p.result.hashObject m.id = some m := fun m hm => (h3 _ _).2 ⟨hm, rfl⟩
  have hcommit := find (metaOf polyExt (.commit, appCommit.encode)) (by simp [appObjects, appThin])
  obtain ⟨m, hm⟩ : ∃ m : Moment, m = { demoMoment with fuel := (runBoth demoServer .empty h').web.db.nodes.length } := ⟨_, rfl⟩
  have hord : ∀ l x, x ∈ m.ord l ↔ x ∈ l := by rw [hm]; exact fun _ _ => .rfl
  have hcut : Spec.CutOk m.cut := by rw [hm]; exact demoCut_ok
  have hms : m.sql.fold = demoServer.D.fold := by rw [hm]; rfl
  have hfuel : (runBoth demoServer .empty h').web.db.nodes.length ≤ m.fuel := by rw [hm]
  have ans : ∀ ls, (∀ l ∈ ls, l.Ok) → Spec.haveIds ls ≠ [] → Spec.Asks ls (ascii "multi_ack_detailed") → Spec.AsksBand (Spec.askedFor ls) → appCmd.new ∈ Spec.wantIds ls →
      ∃ out, (sshStep polyExt m (runBoth demoServer .empty h').ssh 1 (.data 0 (doneBody ls (ascii "\n") []))).1 = [(0, out)] := by
    intro ls l1 l2 l3 l4 l5
    obtain ⟨out, ids, file, k1, k2, _⟩ := C149_fetched_partial demoServer demoFold_hash (ascii "/app") appCmd appCmd_ok (ascii "report-status") (by decide) (by decide) pack h1 rep demoMoment m
      bothBefore h' [] hp (fun _ _ => rfl) p hdec (by rw [List.append_nil]; exact hfl) hms (by rw [List.append_nil]; exact hab)
      (by rw [List.append_nil]; exact app_unique objs) (by rw [List.append_nil]; exact app_fits objs) (by rw [List.append_nil]; exact hfuel) hord hcut
      ls l1 (ascii "\n") [] (by decide) l2 l3 l4 ⟨metaOf polyExt (.commit, appCommit.encode), hcommit, rfl, l5⟩
    rw [List.append_nil] at k2
    exact ⟨out, k2 1 0 hopen⟩
  obtain ⟨out, ha⟩ := ans hasItLines hasItLines_ok (by simp [hasItLines, Spec.haveIds]) hasItLines_asks update_band (by simp [hasItLines, Spec.wantIds])
  obtain ⟨out2, ha2⟩ := ans updateLines updateLines_ok (by simp [updateLines, Spec.haveIds]) updateLines_asks update_band (by simp [updateLines, Spec.wantIds])
  obtain ⟨p', d1, pkts, file, e1, _, e2⟩ := C103_pushed_both_partial demoServer demoFold_hash bothBefore h' [] appCmd_ok (by decide) (by decide) h1 (fun _ _ => rfl) (fun _ _ => rfl) hp m hms hord
    hasItLines hasItLines_ok (ascii "\n") [] (by decide) hasItLines_asks out (by rw [List.append_nil]; exact .ssh 1 0 hopen ha)
  rw [hdec] at d1
  cases d1
  obtain ⟨pkts2, file2, f1, _, _, _, f2, _⟩ := C103_told_both_partial demoServer demoFold_hash h' m hms hord updateLines updateLines_ok (ascii "\n") [] (by decide) out2 (.ssh 1 0 hopen ha2)
  refine ⟨h', m, out, out2, pkts, pkts2, file, file2, hopen, ha, e1, e2 _ hcommit rfl (by simp [hasItLines, Spec.haveIds, appCmd, metaOf]), ha2, f1, fun hin => ?_⟩
  obtain ⟨r, hr, e⟩ := (f2 srcId hin).2
  exact src_not_stored objs (.commit, r.data) (.inr ⟨r, hr, rfl⟩) e

end Gust

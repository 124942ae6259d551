import Verif.Props.Options
import Verif.Props.PublishBoth
import Verif.Props.FetchBothExamples
import Verif.Props.PublishBothExamples

/-! # C144 over HTTP and SSH together -/

namespace Gust

/-- What is stored after a push, whether it is answered or not. -/
theorem sent_db {P : ServerExt} {u : Bytes} {c : Spec.PushCmd} (hc : c.Ok) {caps : Bytes} (hl : caps.length ≤ 4000) (hx : ∀ x ∈ caps, x.toNat < 128)
    {pack : Bytes} (hp : (ascii "PACK").isPrefixOf pack = true) {m : Moment} {h h' : BothHist} (hsent : Spec.SentAny P u c caps pack m h h') :
    (runBoth P .empty h').web.db = receiveDataDb (mysqlPush P.X m.sql m.fuel)
      { caps := parseCapabilities caps, commands := [RefCommand.new c.old c.new (c.name ++ [0])], path := u, db := (runBoth P .empty h).web.db } pack := by
  cases hsent with
  | http _ g hu hg =>
    rw [runBoth_concat]
    show (serve P m (runBoth P .empty h).web _).2.db = _
    have hroute : route .post (u ++ g ++ ascii "/git-receive-pack") none = .receivePack u := route_push hu hg
    rw [serve_db]
    simp only [Spec.pushReq, hroute]
    exact push_answer_db _ u _ c hc caps hl hx pack hp
  | ssh h0 h1 h2 _ m0 m1 i ch0 ch1 ch hs hb hn1 hn2 hh p hlink =>
    rw [runBoth_concat]
    show (sshLinkStep P.X m (runBoth P .empty h).web.db ((runBoth P .empty h).link i) (.data ch pack)).2.2 = _
    rw [section_sent hc hl hx hs hb hn1 hn2 hh hlink]
    simp only [sshLinkStep, sshData, gitReceiveDb, hp, if_true]

/-- **C144** Neither the options a client asks for nor the protocol it uses make a difference to what a push of one ref does: take two servers with the same database, whatever happened on either before,
and send the same push to each, over HTTP or SSH, with any two lists of options. The databases are the same afterwards; and both pushes are answered and the clients read the same lines in the reports, or
neither is answered. The answers are even the same byte for byte, if the clients ask for a side-band in both cases or in none. -/
theorem C144_push_both_same (P : ServerExt) (u : Bytes) (m : Moment) (c : Spec.PushCmd) (hc : c.Ok)
    (caps caps' : Bytes) (hl : caps.length ≤ 4000) (ha : ∀ x ∈ caps, x.toNat < 128) (hl' : caps'.length ≤ 4000) (ha' : ∀ x ∈ caps', x.toNat < 128)
    (pack : Bytes) (hp : (ascii "PACK").isPrefixOf pack = true) (h h1 k k1 : BothHist) (hdb : (runBoth P .empty h).web.db = (runBoth P .empty k).web.db)
    (hsent : Spec.SentAny P u c caps pack m h h1) (hsent' : Spec.SentAny P u c caps' pack m k k1) :
    (runBoth P .empty h1).web.db = (runBoth P .empty k1).web.db ∧
    ((∃ rep rep' lines, Spec.PushedAny P u c caps pack rep m h h1 ∧ Spec.PushedAny P u c caps' pack rep' m k k1 ∧
        Spec.readReport caps rep = some lines ∧ Spec.readReport caps' rep' = some lines ∧ ((Spec.AsksBand caps ↔ Spec.AsksBand caps') → rep = rep')) ∨
      Spec.LostAny P u c caps pack m h h1 ∧ Spec.LostAny P u c caps' pack m k k1) := by
  constructor
  · rw [sent_db hc hl ha hp hsent, sent_db hc hl' ha' hp hsent', hdb]
    rfl
  have e := push_answer (mysqlPush P.X m.sql m.fuel) u (runBoth P .empty h).web.db c hc caps hl ha pack hp
  have e' := push_answer (mysqlPush P.X m.sql m.fuel) u (runBoth P .empty k).web.db c hc caps' hl' ha' pack hp
  have q := receiveData_caps (mysqlPush P.X m.sql m.fuel) c hc u (runBoth P .empty h).web.db (parseCapabilities caps) (parseCapabilities caps') pack
  simp only at q
  rw [← hdb] at e'
  have ne : ∀ {b : Bool} {rep : Bytes} {l : List Bytes}, Spec.reportLines b rep = some l → rep ≠ [] := by
    rintro b rep l e rfl
    have : ∀ b, Spec.reportLines b [] = none := by decide +kernel
    rw [this] at e
    cases e
  rcases q with ⟨rep, st', rep', st'', lines, e1, e2, e3, e4, e5⟩ | ⟨e1, e2⟩ | ⟨e1, e2⟩
  · rw [e1] at e
    rw [e2, hdb] at e'
    refine .inl ⟨rep, rep', lines, sent_pushed hc hl ha hsent e (ne e3), sent_pushed hc hl' ha' hsent' e' (ne e4), ?_, ?_, fun hb => e5 ?_⟩
    · rw [readReport_eq]; exact e3
    · rw [readReport_eq]; exact e4
    · rw [← asksBand_iff, ← asksBand_iff]; exact hb
  · rw [e1] at e
    rw [e2, hdb] at e'
    exact .inr ⟨sent_lost hc hl ha hsent (.inl e), sent_lost hc hl' ha' hsent' (.inl e')⟩
  · rw [e1] at e
    rw [e2, hdb] at e'
    exact .inr ⟨sent_lost hc hl ha hsent (.inr e), sent_lost hc hl' ha' hsent' (.inr e')⟩

/-- The request is answered with these bytes, over HTTP (whatever form the URL of the repository has) and on every SSH connection that is open for the repository. -/
def Spec.AnsweredBoth (P : ServerExt) (u : Bytes) (h : BothHist) (m : Moment) (body out : Bytes) : Prop :=
  (∀ g, Spec.CleanUrl u → (g = [] ∨ g = ascii ".git") → (serve P m (runBoth P .empty h).web (Spec.fetchReq (u ++ g) body)).1 = .reply (.ok (.bytes out))) ∧
    ∀ i ch, Spec.Opened P u i h → (sshStep P.X m (runBoth P .empty h).ssh i (.data ch body)).1 = [(ch, out)]

/-- The request is not answered: over HTTP the connection is dropped or the request never ends, over SSH nothing is sent. -/
def Spec.UnansweredBoth (P : ServerExt) (u : Bytes) (h : BothHist) (m : Moment) (body : Bytes) : Prop :=
  (∀ g, Spec.CleanUrl u → (g = [] ∨ g = ascii ".git") → (serve P m (runBoth P .empty h).web (Spec.fetchReq (u ++ g) body)).1 = .reply .panic ∨
    (serve P m (runBoth P .empty h).web (Spec.fetchReq (u ++ g) body)).1 = .hang) ∧
    ∀ i ch, Spec.Opened P u i h → (sshStep P.X m (runBoth P .empty h).ssh i (.data ch body)).1 = []

theorem answeredBoth {P : ServerExt} {u : Bytes} {h : BothHist} {m : Moment} (hord : ∀ l x, x ∈ m.ord l ↔ x ∈ l) {ls : List Spec.ReqLine} {t rest out : Bytes}
    (he : httpUploadPack (mysqlFetch P.X m.sql m.fuel (runBoth P .empty h).web.db u) m.ord m.cut (doneBody ls t rest) = .ok out) (hne : out ≠ []) :
    Spec.AnsweredBoth P u h m (doneBody ls t rest) out := by
  refine ⟨fun g hu hg => ?_, fun i ch hop => ?_⟩
  · simp only [serve, Spec.fetchReq, route_fetch hu hg, he, Res.outcome]
  · rw [opened_sent hop (fun l x => (hord l x).1), he]
    exact if_neg hne

theorem unansweredBoth {P : ServerExt} {u : Bytes} {h : BothHist} {m : Moment} (hord : ∀ l x, x ∈ m.ord l ↔ x ∈ l) {ls : List Spec.ReqLine} {t rest : Bytes}
    (he : httpUploadPack (mysqlFetch P.X m.sql m.fuel (runBoth P .empty h).web.db u) m.ord m.cut (doneBody ls t rest) = .panic ∨
      httpUploadPack (mysqlFetch P.X m.sql m.fuel (runBoth P .empty h).web.db u) m.ord m.cut (doneBody ls t rest) = .spin) :
    Spec.UnansweredBoth P u h m (doneBody ls t rest) := by
  refine ⟨fun g hu hg => ?_, fun i ch hop => ?_⟩
  · simp only [serve, Spec.fetchReq, route_fetch hu hg]
    rcases he with he | he <;> rw [he]
    · exact .inl rfl
    · exact .inr rfl
  · rw [opened_sent hop (fun l x => (hord l x).1)]
    rcases he with he | he <;> rw [he] <;> rfl

/-- **C144** Neither the options a client asks for, nor the ids it wants, nor the protocol make a difference to what a clone (a fetch without `have` lines) delivers: after anything anybody has done on both
servers, two such requests for the same repository are both answered with the same pack, in packets or as it is, over HTTP and on every SSH connection open for the repository; or neither is answered,
anywhere. -/
theorem C144_clone_both_same (P : ServerExt) (u : Bytes) (h : BothHist) (m : Moment)
    (hord : ∀ l x, x ∈ m.ord l ↔ x ∈ l) (hcut : Spec.CutOk m.cut) (ls ls' : List Spec.ReqLine) (hls : ∀ l ∈ ls, l.Ok) (hls' : ∀ l ∈ ls', l.Ok) (t t' rest rest' : Bytes)
    (ht : t.length ≤ 65000) (ht' : t'.length ≤ 65000) (hno : Spec.haveIds ls = []) (hno' : Spec.haveIds ls' = []) :
    (∃ file out out', Spec.AnsweredBoth P u h m (doneBody ls t rest) out ∧ Spec.AnsweredBoth P u h m (doneBody ls' t' rest') out' ∧
        Spec.Delivered (Spec.askedFor ls) out file ∧ Spec.Delivered (Spec.askedFor ls') out' file) ∨
      Spec.UnansweredBoth P u h m (doneBody ls t rest) ∧ Spec.UnansweredBoth P u h m (doneBody ls' t' rest') := by
  have k := httpUploadPack_noHave (St := mysqlFetch P.X m.sql m.fuel (runBoth P .empty h).web.db u) hord hcut hls ht rest hno
  have k' := httpUploadPack_noHave (St := mysqlFetch P.X m.sql m.fuel (runBoth P .empty h).web.db u) hord hcut hls' ht' rest' hno'
  have ne : ∀ {a out file}, Spec.Delivered a out file → out ≠ [] := by
    rintro a out file ⟨d1, d2⟩ rfl
    by_cases hb : Spec.AsksBand a
    · have : Spec.readClone [] = none := by decide +kernel
      rw [d1 hb] at this
      cases this
    · have := congrArg List.length (d2 hb)
      rw [List.length_append, List.length_append, show (ascii "0008NAK\n").length = 8 by decide, List.length_nil] at this
      omega
  rcases k with ⟨file, out, a1, a2, a3⟩ | ⟨a1, a2, a3⟩
  · rcases k' with ⟨file', out', b1, b2, b3⟩ | ⟨b1, _⟩
    · rw [a1] at b1
      cases b1
      exact .inl ⟨file, out, out', answeredBoth hord a2 (ne a3), answeredBoth hord b2 (ne b3), a3, b3⟩
    · exact absurd a1 (b1 file)
  · rcases k' with ⟨file', out', b1, _⟩ | ⟨_, b2, b3⟩
    · exact absurd b1 (a1 file')
    · by_cases h : (mysqlFetch P.X m.sql m.fuel (runBoth P .empty h).web.db u).fullPack = .spin
      · exact .inr ⟨unansweredBoth hord (.inr (a3 h)), unansweredBoth hord (.inr (b3 h))⟩
      · exact .inr ⟨unansweredBoth hord (.inl (a2 h)), unansweredBoth hord (.inl (b2 h))⟩

/-- **C144 is false** for fetches of clients that have something already, over HTTP and SSH: without `multi_ack_detailed` among the options, which should change nothing but the lines before the pack, there
is no pack at all. After anything anybody has done, whatever is wanted, the answer is one line that acknowledges an id which the client never named. -/
theorem C144_fetch_both_false (P : ServerExt) (u : Bytes) (h : BothHist) (m : Moment)
    (hord : ∀ l x, x ∈ m.ord l ↔ x ∈ l) (hcut : m.cut [] = []) (ls : List Spec.ReqLine) (hls : ∀ l ∈ ls, l.Ok) (t rest : Bytes) (ht : t.length ≤ 65000) (hhave : Spec.haveIds ls ≠ [])
    (words : List Bytes) (hw : Spec.SpaceSeparated (Spec.askedFor ls) words) (hno : ∀ w ∈ words, ¬ ascii "multi_ack_detailed" <:+: w) :
    Spec.AnsweredBoth P u h m (doneBody ls t rest) (ascii "0032ACK 27dd8d4cf39f3868c6eee38b601bc9e9939304f5 \n0000") :=
  answeredBoth hord (fetch_no_multi hord hcut hls ht hhave hw hno) (by decide)

/-- **C144 is false** for the reports of pushes, over HTTP and SSH: a client that did not ask for a report is sent one all the same. -/
theorem C144_report_both_false (P : ServerExt) (u : Bytes) (m : Moment) (c : Spec.PushCmd) (hc : c.Ok) (pack : Bytes) (hp : (ascii "PACK").isPrefixOf pack = true) (h h' : BothHist)
    (rep : Bytes) (hpush : Spec.PushedAny P u c [] pack rep m h h') : rep ≠ [] ∧ Spec.readReport [] rep ≠ none := by
  obtain ⟨st', e, _⟩ := pushedAny_http hc (by simp) (by simp) hpush
  rw [push_answer _ u _ c hc [] (by simp) (by simp) pack hp] at e
  have e := Res.unwrap_eq_ok.1 e
  rcases receiveData_caps (mysqlPush P.X m.sql m.fuel) c hc u (runBoth P .empty h).web.db (parseCapabilities []) (parseCapabilities []) pack with
    ⟨rep1, _, _, _, lines, e1, _, e3, _⟩ | ⟨e1, _⟩ | ⟨e1, _⟩
  · rw [e] at e1
    cases e1
    rw [← readReport_eq] at e3
    refine ⟨?_, by rw [e3]; simp⟩
    rintro rfl
    rw [readReport_eq] at e3
    have : Spec.reportLines (decide (Capability.sideBand ∈ parseCapabilities [] ∨ Capability.sideBand64k ∈ parseCapabilities [])) [] = none := by decide +kernel
    rw [this] at e3
    cases e3
  · rw [e] at e1
    cases e1
  · rw [e] at e1
    cases e1

/-- C144: the five objects of the examples are pushed on an SSH connection by a client that asks for a report, and over HTTP to another server by one that asks for a report in a side-band and for an atomic
push. They read the same lines, and the same is stored. -/
example : ∃ (pack rep rep' : Bytes) (h' k' : BothHist),
    Spec.PushedAny demoServer (ascii "/app") appCmd (ascii "report-status") pack rep roomMoment bothBefore h' ∧
    Spec.PushedAny demoServer (ascii "/app") appCmd (ascii "report-status side-band-64k atomic") pack rep' roomMoment [] k' ∧
    Spec.readReport (ascii "report-status") rep = some [ascii "unpack ok\n", ascii "ok refs/heads/master" ++ [0]] ∧
    Spec.readReport (ascii "report-status side-band-64k atomic") rep' = some [ascii "unpack ok\n", ascii "ok refs/heads/master" ++ [0]] ∧
    (runBoth demoServer .empty h').web.db = (runBoth demoServer .empty k').web.db := by
  obtain ⟨pack, hpack⟩ := app_packOf demoServer.D.fold (runBoth demoServer .empty bothBefore).web.db
  have hlen : appEntries.length = 5 := objectsAt_length polyExt 12 appObjects
  have hacc : Spec.Accepts roomMoment.sql := ⟨fun _ _ => rfl, fun _ _ => rfl, fun _ _ => rfl, fun _ _ => rfl⟩
  have hsent := bothBefore_sent roomMoment pack
  have hsent' : Spec.SentAny demoServer (ascii "/app") appCmd (ascii "report-status side-band-64k atomic") pack roomMoment []
      ([] ++ [(roomMoment, .http (Spec.pushReq (ascii "/app" ++ []) (Spec.pushBody appCmd [] (ascii "report-status side-band-64k atomic") pack)))]) := .http [] [] app_clean_url (.inl rfl)
  obtain ⟨rep0, hpush, hrep⟩ := C111_both_partial demoServer demoFold_hash (ascii "/app") bothBefore _ roomMoment bothBefore_unique rfl hacc appCmd appCmd_ok (ascii "report-status") (by decide)
    (by decide) (.inl rfl) appEntries pack hpack app_project (by rw [hlen]; decide) hsent
  rw [← readReport_eq, show Spec.statusLine (appCmd.name ++ [0]) none = ascii "ok refs/heads/master" ++ [0] by decide] at hrep
  obtain ⟨p, d1, _⟩ := packOf_read demoFold_hash (both_nodes demoServer bothBefore) bothBefore_unique (E := demoSql) rfl hpack (fuel := 6) (by decide)
  obtain ⟨k1, k2⟩ := C144_push_both_same demoServer (ascii "/app") roomMoment appCmd appCmd_ok (ascii "report-status") (ascii "report-status side-band-64k atomic") (by decide) (by decide)
    (by decide) (by decide) pack (decodePack_magic d1) bothBefore _ [] _ bothBefore_db hsent hsent'
  obtain ⟨st0, a1, _⟩ := pushedAny_http appCmd_ok (by decide) (by decide) hpush
  rcases k2 with ⟨rep, rep', lines, e1, e2, e3, e4, _⟩ | ⟨e1, _⟩
  · obtain ⟨st1, a2, _⟩ := pushedAny_http appCmd_ok (by decide) (by decide) e1
    rw [a1] at a2
    cases a2
    rw [hrep] at e3
    cases e3
    exact ⟨pack, _, rep', _, _, e1, e2, hrep, e4, k1⟩
  · exfalso
    have b := ssh_pushed (P := demoServer) (m := roomMoment) appCmd_ok (by decide) (by decide) 0 bothBefore_push a1 (by
      rintro rfl
      rw [readReport_eq] at hrep
      exact report_ne hrep rfl)
    generalize hh : bothBefore ++ [(roomMoment, Visit.ssh 0 (.data 0 pack))] = h' at e1
    cases e1 with
    | http g ha =>
      have := List.append_cancel_left hh
      cases this
    | ssh i ch ha hl =>
      have := List.append_cancel_left hh
      simp only [List.cons.injEq, Prod.mk.injEq, Visit.ssh.injEq, SshEvent.data.injEq, true_and, and_true] at this
      obtain ⟨rfl, rfl⟩ := this
      have ha' := ha.symm.trans b
      cases ha'

theorem plainLines_ok : ∀ l ∈ plainLines, l.Ok := by
  intro l hl
  simp only [plainLines, List.mem_cons, List.not_mem_nil, or_false] at hl
  rcases hl with rfl | rfl
  · exact ⟨appCmd_ok.2.2.1, appCmd_ok.2.2.2.1, ⟨0x20, ascii "multi_ack ofs-delta\n", by decide, by decide⟩, by decide⟩
  · trivial

/-- C144: after the push of the example repository, a client that asks for a side-band on SSH connection 1 and one that does not get the same pack. -/
example : ∃ (h' : BothHist) (m : Moment) (out file : Bytes), Spec.Opened demoServer (ascii "/app") 1 h' ∧
    (sshStep polyExt m (runBoth demoServer .empty h').ssh 1 (.data 0 (doneBody cloneLines (ascii "\n") []))).1 = [(0, out)] ∧ Spec.readClone out = some file ∧
    (sshStep polyExt m (runBoth demoServer .empty h').ssh 1 (.data 0 (doneBody plainLines (ascii "\n") []))).1 = [(0, ascii "0008NAK\n" ++ file ++ ascii "0000")] := by
  obtain ⟨pack, rep, p, h', h1, hdec, h3, hp, hfl, hab, hopen, objs, _⟩ := both_ready
  obtain ⟨m, hm⟩ : ∃ m : Moment, m = { demoMoment with fuel := (runBoth demoServer .empty h').web.db.nodes.length } := ⟨_, rfl⟩
  have hord : ∀ l x, x ∈ m.ord l ↔ x ∈ l := by rw [hm]; exact fun _ _ => .rfl
  have hcut : Spec.CutOk m.cut := by rw [hm]; exact demoCut_ok
  obtain ⟨out, _, a2⟩ := C115_answered_partial demoServer demoFold_hash (ascii "/app") appCmd appCmd_ok (ascii "report-status") (by decide) (by decide) pack h1 rep demoMoment m bothBefore h' []
    hp (fun _ _ => rfl) p hdec ⟨metaOf polyExt (.commit, appCommit.encode), (h3 _ _).2 ⟨by simp [appObjects, appThin], rfl⟩, rfl⟩ (by rw [List.append_nil]; exact hfl) (by rw [hm]; rfl)
    (by rw [List.append_nil]; exact hab) (by rw [List.append_nil]; exact app_unique objs) (by rw [List.append_nil]; exact app_fits objs) (by rw [List.append_nil, hm]) hord hcut
    cloneLines (ascii "\n") [] cloneLines_ok
  rw [List.append_nil] at a2
  rcases C144_clone_both_same demoServer (ascii "/app") h' m hord hcut cloneLines plainLines cloneLines_ok.ok plainLines_ok (ascii "\n") (ascii "\n") [] [] (by decide) (by decide) rfl rfl with
    ⟨file, o, o', e1, e2, e3, e4⟩ | ⟨e1, _⟩
  · have b := (a2 1 0 hopen).symm.trans (e1.2 1 0 hopen)
    simp only [List.cons.injEq, Prod.mk.injEq, true_and, and_true] at b
    subst b
    refine ⟨h', m, out, file, hopen, e1.2 1 0 hopen, e3.1 ?_, ?_⟩
    · rw [asksBand_iff]
      decide +kernel
    · exact (e2.2 1 0 hopen).trans (by rw [e4.2 (by rw [asksBand_iff]; decide +kernel)])
  · have b := (a2 1 0 hopen).symm.trans (e1.2 1 0 hopen)
    cases b

/-- C144 fails over SSH too: no pack for a client that has the commit of the examples and asks for it again, without `multi_ack_detailed`. -/
example : ∃ h' : BothHist, Spec.Opened demoServer (ascii "/app") 1 h' ∧
    (sshStep polyExt demoMoment (runBoth demoServer .empty h').ssh 1 (.data 0 (doneBody bandLines (ascii "\n") []))).1 =
      [(0, ascii "0032ACK 27dd8d4cf39f3868c6eee38b601bc9e9939304f5 \n0000")] := by
  obtain ⟨_, _, _, h', _, _, _, _, _, _, hopen, _⟩ := both_ready
  refine ⟨h', hopen, (C144_fetch_both_false demoServer (ascii "/app") h' demoMoment (fun _ _ => .rfl) rfl bandLines ?_ (ascii "\n") [] (by decide) (by simp [bandLines, Spec.haveIds])
    [ascii "side-band-64k\n"] ⟨by decide, by decide, by decide⟩ (by decide)).2 1 0 hopen⟩
  intro l hl
  simp only [bandLines, List.mem_cons, List.not_mem_nil, or_false] at hl
  rcases hl with rfl | rfl | rfl
  · exact ⟨appCmd_ok.2.2.1, appCmd_ok.2.2.2.1, ⟨0x20, ascii "side-band-64k\n", by decide, by decide⟩, by decide⟩
  · trivial
  · exact ⟨appCmd_ok.2.2.1, appCmd_ok.2.2.2.1, ⟨10, [], by decide, by simp⟩, by decide⟩

/-- C144 fails for reports over HTTP too: the five objects are pushed without any options, and the client is told that all is well. -/
example : ∃ (pack rep : Bytes) (h' : BothHist), Spec.PushedAny demoServer (ascii "/app") appCmd [] pack rep roomMoment bothBefore h' ∧ rep ≠ [] ∧ Spec.readReport [] rep ≠ none := by
  obtain ⟨pack, hpack⟩ := app_packOf demoServer.D.fold (runBoth demoServer .empty bothBefore).web.db
  have hlen : appEntries.length = 5 := objectsAt_length polyExt 12 appObjects
  have hacc : Spec.Accepts roomMoment.sql := ⟨fun _ _ => rfl, fun _ _ => rfl, fun _ _ => rfl, fun _ _ => rfl⟩
  obtain ⟨rep, hpush, _⟩ := C111_both_partial demoServer demoFold_hash (ascii "/app") bothBefore _ roomMoment bothBefore_unique rfl hacc appCmd appCmd_ok [] (by decide)
    (by decide) (.inl rfl) appEntries pack hpack app_project (by rw [hlen]; decide) (.http bothBefore [] app_clean_url (.inl rfl))
  obtain ⟨p, d1, _⟩ := packOf_read demoFold_hash (both_nodes demoServer bothBefore) bothBefore_unique (E := demoSql) rfl hpack (fuel := 6) (by decide)
  exact ⟨pack, rep, _, hpush, C144_report_both_false demoServer (ascii "/app") roomMoment appCmd appCmd_ok pack (decodePack_magic d1) _ _ rep hpush⟩

end Gust

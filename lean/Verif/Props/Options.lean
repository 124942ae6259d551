import Verif.Props.Tags
import Verif.Props.FetchOverlapExamples

/-! # C144: the options of a request -/

namespace Gust

/-- The client asks for one of the side-band options. -/
def Spec.AsksBand (caps : Bytes) : Prop := ∃ words, Spec.SpaceSeparated caps words ∧ ∃ w ∈ words, ∃ l r, Spec.Ws l ∧ Spec.Ws r ∧ (w = l ++ ascii "side-band" ++ r ∨ w = l ++ ascii "side-band-64k" ++ r)

theorem asksBand_iff (caps : Bytes) : Spec.AsksBand caps ↔ Capability.sideBand ∈ parseCapabilities caps ∨ Capability.sideBand64k ∈ parseCapabilities caps := by
  have key : ∀ words, Spec.SpaceSeparated caps words → ((∃ w ∈ words, ∃ l r, Spec.Ws l ∧ Spec.Ws r ∧ (w = l ++ ascii "side-band" ++ r ∨ w = l ++ ascii "side-band-64k" ++ r)) ↔
      Capability.sideBand ∈ parseCapabilities caps ∨ Capability.sideBand64k ∈ parseCapabilities caps) := by
    intro words hw
    rw [C21_capabilities_iff _ _ hw, C21_capabilities_iff _ _ hw]
    constructor
    · rintro ⟨w, h, l, r, hl, hr, e | e⟩
      · exact .inl ⟨w, h, l, r, hl, hr, e⟩
      · exact .inr ⟨w, h, l, r, hl, hr, e⟩
    · rintro (⟨w, h, l, r, hl, hr, e⟩ | ⟨w, h, l, r, hl, hr, e⟩)
      · exact ⟨w, h, l, r, hl, hr, .inl e⟩
      · exact ⟨w, h, l, r, hl, hr, .inr e⟩
  constructor
  · rintro ⟨words, hw, h⟩
    exact (key words hw).1 h
  · intro h
    exact ⟨_, C21_words_exist caps, (key _ (C21_words_exist caps)).2 h⟩

/-- The lines a client reads in the report of a push, when it asked for these options. -/
noncomputable def Spec.readReport (caps rep : Bytes) : Option (List Bytes) := open Classical in Spec.reportLines (decide (Spec.AsksBand caps)) rep

theorem readReport_eq (caps rep : Bytes) : Spec.readReport caps rep =
    Spec.reportLines (decide (.sideBand ∈ parseCapabilities caps ∨ .sideBand64k ∈ parseCapabilities caps)) rep := by
  unfold Spec.readReport
  congr 1
  exact decide_eq_decide.2 (asksBand_iff caps)

/-- Reports of the same commands. -/
theorem receiveData_caps {σ P : Type} (E : PushEnv σ P) (c : Spec.PushCmd) (hc : c.Ok) (path : Bytes) (db : σ) (k k' : List Capability) (pack : Bytes) :
    let cs := [RefCommand.new c.old c.new (c.name ++ [0])]
    ((∃ rep st' rep' st'' lines, receiveData E { caps := k, commands := cs, path := path, db := db } pack = .ok (rep, st') ∧
        receiveData E { caps := k', commands := cs, path := path, db := db } pack = .ok (rep', st'') ∧
        Spec.reportLines (decide (.sideBand ∈ k ∨ .sideBand64k ∈ k)) rep = some lines ∧ Spec.reportLines (decide (.sideBand ∈ k' ∨ .sideBand64k ∈ k')) rep' = some lines ∧
        (((.sideBand ∈ k ∨ .sideBand64k ∈ k) ↔ (.sideBand ∈ k' ∨ .sideBand64k ∈ k')) → rep = rep')) ∨
      receiveData E { caps := k, commands := cs, path := path, db := db } pack = .panic ∧ receiveData E { caps := k', commands := cs, path := path, db := db } pack = .panic ∨
      receiveData E { caps := k, commands := cs, path := path, db := db } pack = .spin ∧ receiveData E { caps := k', commands := cs, path := path, db := db } pack = .spin) := by
  have hn : c.name.length ≤ 60000 := hc.2.2.2.2.2.1
  have same : ∀ cmds, ((Capability.sideBand ∈ k ∨ .sideBand64k ∈ k) ↔ (Capability.sideBand ∈ k' ∨ .sideBand64k ∈ k')) → pushReport k cmds = pushReport k' cmds := by
    intro cmds h
    simp only [pushReport, buildSideBand, h]
  have rep : ∀ cmd : RefCommand, cmd.refName = c.name ++ [0] → cmd.errorMsg.length ≤ 100 → ∀ k : List Capability,
      Spec.reportLines (decide (.sideBand ∈ k ∨ .sideBand64k ∈ k)) (pushReport k [cmd]) = some [ascii "unpack ok\n", cmd.getStatus] := by
    intro cmd h1 h2 k
    apply report_single
    rw [getStatus_eq, h1]
    cases cmd.ok <;> simp [Spec.statusLine] <;> omega
  simp only [receiveData, List.getLast?_singleton, List.dropLast_singleton, List.nil_append]
  cases E.unpack db pack with
  | ok p =>
    simp only
    rcases E.savePack p path db with ⟨r, db1⟩
    cases r with
    | ok x =>
      simp only
      rcases E.handleRefs { RefCommand.new c.old c.new (c.name ++ [0]) with ok := true } path db1 with ⟨r2, db2⟩
      cases r2 with
      | ok y => exact .inl ⟨_, _, _, _, _, rfl, rfl, rep _ rfl (by simp [RefCommand.new]) k, rep _ rfl (by simp [RefCommand.new]) k', same _⟩
      | err e => exact .inr (.inl ⟨rfl, rfl⟩)
      | panic => exact .inr (.inl ⟨rfl, rfl⟩)
      | spin => exact .inr (.inr ⟨rfl, rfl⟩)
    | err e => exact .inl ⟨_, _, _, _, _, rfl, rfl, rep _ rfl (by simp only; decide) k, rep _ rfl (by simp only; decide) k', same _⟩
    | panic => exact .inr (.inl ⟨rfl, rfl⟩)
    | spin => exact .inr (.inr ⟨rfl, rfl⟩)
  | err e => exact .inr (.inl ⟨rfl, rfl⟩)
  | panic => exact .inr (.inl ⟨rfl, rfl⟩)
  | spin => exact .inr (.inr ⟨rfl, rfl⟩)

/-- **C144** Which options a client asks for makes no difference to what a push of one ref does: in every state of the server, at every moment, with every pack, the state afterwards is the
same; and the client is cut off or kept waiting in both cases, or it is answered in both cases and reads the same lines in the report. The answers are even the same byte for byte, if
the client asks for a side-band in both cases or in none. -/
theorem C144_push_same (P : ServerExt) {u g : Bytes} (hu : Spec.CleanUrl u) (hg : g = [] ∨ g = ascii ".git") (m : Moment) (s : ServerState) (c : Spec.PushCmd) (hc : c.Ok)
    (caps caps' : Bytes) (hl : caps.length ≤ 4000) (ha : ∀ x ∈ caps, x.toNat < 128) (hl' : caps'.length ≤ 4000) (ha' : ∀ x ∈ caps', x.toNat < 128)
    (pack : Bytes) (hp : (ascii "PACK").isPrefixOf pack = true) :
    (serve P m s (Spec.pushReq (u ++ g) (Spec.pushBody c [] caps pack))).2 = (serve P m s (Spec.pushReq (u ++ g) (Spec.pushBody c [] caps' pack))).2 ∧
    ((∃ rep rep' lines, (serve P m s (Spec.pushReq (u ++ g) (Spec.pushBody c [] caps pack))).1 = .reply (.ok (.bytes rep)) ∧
        (serve P m s (Spec.pushReq (u ++ g) (Spec.pushBody c [] caps' pack))).1 = .reply (.ok (.bytes rep')) ∧
        Spec.readReport caps rep = some lines ∧ Spec.readReport caps' rep' = some lines ∧ ((Spec.AsksBand caps ↔ Spec.AsksBand caps') → rep = rep')) ∨
      (serve P m s (Spec.pushReq (u ++ g) (Spec.pushBody c [] caps pack))).1 = .reply .panic ∧ (serve P m s (Spec.pushReq (u ++ g) (Spec.pushBody c [] caps' pack))).1 = .reply .panic ∨
      (serve P m s (Spec.pushReq (u ++ g) (Spec.pushBody c [] caps pack))).1 = .hang ∧ (serve P m s (Spec.pushReq (u ++ g) (Spec.pushBody c [] caps' pack))).1 = .hang) := by
  have hroute : route .post (u ++ g ++ ascii "/git-receive-pack") none = .receivePack u := route_push hu hg
  have k := receiveData_caps (mysqlPush P.X m.sql m.fuel) c hc u s.db (parseCapabilities caps) (parseCapabilities caps') pack
  constructor
  · simp only [serve, Spec.pushReq, hroute]
    rw [push_answer_db _ u s.db c hc caps hl ha pack hp, push_answer_db _ u s.db c hc caps' hl' ha' pack hp]
    rfl
  · simp only [serve, Spec.pushReq, hroute]
    rw [push_answer _ u s.db c hc caps hl ha pack hp, push_answer _ u s.db c hc caps' hl' ha' pack hp]
    rcases k with ⟨rep, st', rep', st'', lines, e1, e2, e3, e4, e5⟩ | ⟨e1, e2⟩ | ⟨e1, e2⟩
    · rw [e1, e2]
      refine .inl ⟨rep, rep', lines, rfl, rfl, ?_, ?_, fun h => e5 ?_⟩
      · rw [readReport_eq]; exact e3
      · rw [readReport_eq]; exact e4
      · rw [← asksBand_iff, ← asksBand_iff]; exact h
    · rw [e1, e2]
      exact .inr (.inl ⟨rfl, rfl⟩)
    · rw [e1, e2]
      exact .inr (.inr ⟨rfl, rfl⟩)

/-- The options in a fetch request: what follows the first id. -/
def Spec.askedFor (ls : List Spec.ReqLine) : Bytes := ((Spec.firstTail ls).getD []).drop 1

theorem requestCaps_asked (ls : List Spec.ReqLine) : requestCaps ls = parseCapabilities (Spec.askedFor ls) := by
  unfold requestCaps Spec.askedFor
  cases Spec.firstTail ls with
  | none => simp only [Option.getD_none, List.drop_nil]; decide +kernel
  | some t => rfl

/-- The client gets this pack: in packets of a side-band, if it asked for that, or as it is. -/
def Spec.Delivered (asked out file : Bytes) : Prop :=
  (Spec.AsksBand asked → Spec.readClone out = some file) ∧ (¬ Spec.AsksBand asked → out = ascii "0008NAK\n" ++ file ++ ascii "0000")

/-- A clone, whatever the options. -/
theorem httpUploadPack_noHave {St : FetchStore} {ord : List Bytes → List Bytes} (hord : ∀ l x, x ∈ ord l ↔ x ∈ l) {cut : Bytes → List Bytes} (hcut : Spec.CutOk cut)
    {ls : List Spec.ReqLine} (hok : ∀ l ∈ ls, l.Ok) {t : Bytes} (ht : t.length ≤ 65000) (rest : Bytes) (hno : Spec.haveIds ls = []) :
    (∃ file out, St.fullPack = .ok file ∧ httpUploadPack St ord cut (doneBody ls t rest) = .ok out ∧ Spec.Delivered (Spec.askedFor ls) out file) ∨
    (∀ file, St.fullPack ≠ .ok file) ∧ (St.fullPack ≠ .spin → httpUploadPack St ord cut (doneBody ls t rest) = .panic) ∧
      (St.fullPack = .spin → httpUploadPack St ord cut (doneBody ls t rest) = .spin) := by
  obtain ⟨s, hw, hh, hc, e⟩ := httpUploadPack_done St ord cut ls hok t rest ht
  have hnil : ord s.have_ = [] := by
    rw [List.eq_nil_iff_forall_not_mem]
    intro x hx
    have := (hh x).1 ((hord _ x).1 hx)
    rw [hno] at this
    cases this
  rw [fetchAnswer, if_pos hnil, hc, requestCaps_asked] at e
  cases hf : St.fullPack with
  | ok file =>
    rw [hf, Res.unwrap_ok, Res.bind_ok, Res.pure_eq, Res.bind_ok] at e
    refine .inl ⟨file, _, rfl, e, fun hb => ?_, fun hb => ?_⟩
    · obtain ⟨c1, _⟩ := C17_sideband (parseCapabilities (Spec.askedFor ls)) ((asksBand_iff _).1 hb) file (cut file) (hcut file).1 (hcut file).2
      obtain ⟨f1, f2⟩ := C15_pkt_format [] (ascii "NAK\n") (sendPack (parseCapabilities (Spec.askedFor ls)) (cut file)) (by decide)
      rw [f1, List.nil_append, Spec.readClone, f2]
      simp only [if_true, c1]
    · rw [asksBand_iff] at hb
      simp only [sendPack, buildSideBand, if_neg hb]
      rw [show addPktLine [] (ascii "NAK\n") = ascii "0008NAK\n" by decide +kernel, show flushPkt = ascii "0000" by decide +kernel, List.flatMap_id', (hcut file).1, List.append_assoc]
  | err x =>
    rw [hf] at e
    exact .inr ⟨by simp, fun _ => e, by simp⟩
  | panic =>
    rw [hf] at e
    exact .inr ⟨by simp, fun _ => e, by simp⟩
  | spin =>
    rw [hf] at e
    exact .inr ⟨by simp, by simp, fun _ => e⟩

/-- **C144** Which options a client asks for, and which ids it wants, makes no difference to what a clone (a fetch without `have` lines) delivers: in every state of the server, at
every moment, two such requests for the same repository are both answered with the same pack, in packets or as it is, or both cut off, or both kept waiting. -/
theorem C144_clone_same (P : ServerExt) {u g : Bytes} (hu : Spec.CleanUrl u) (hg : g = [] ∨ g = ascii ".git") (m : Moment) (s : ServerState)
    (hord : ∀ l x, x ∈ m.ord l ↔ x ∈ l) (hcut : Spec.CutOk m.cut) (ls ls' : List Spec.ReqLine) (hls : ∀ l ∈ ls, l.Ok) (hls' : ∀ l ∈ ls', l.Ok) (t t' rest rest' : Bytes)
    (ht : t.length ≤ 65000) (ht' : t'.length ≤ 65000) (hno : Spec.haveIds ls = []) (hno' : Spec.haveIds ls' = []) :
    (∃ file out out', (serve P m s (Spec.fetchReq (u ++ g) (doneBody ls t rest))).1 = .reply (.ok (.bytes out)) ∧
        (serve P m s (Spec.fetchReq (u ++ g) (doneBody ls' t' rest'))).1 = .reply (.ok (.bytes out')) ∧
        Spec.Delivered (Spec.askedFor ls) out file ∧ Spec.Delivered (Spec.askedFor ls') out' file) ∨
      (serve P m s (Spec.fetchReq (u ++ g) (doneBody ls t rest))).1 = .reply .panic ∧ (serve P m s (Spec.fetchReq (u ++ g) (doneBody ls' t' rest'))).1 = .reply .panic ∨
      (serve P m s (Spec.fetchReq (u ++ g) (doneBody ls t rest))).1 = .hang ∧ (serve P m s (Spec.fetchReq (u ++ g) (doneBody ls' t' rest'))).1 = .hang := by
  have hroute : route .post (u ++ g ++ ascii "/git-upload-pack") none = .uploadPack u := route_fetch hu hg
  simp only [serve, Spec.fetchReq, hroute]
  have k := httpUploadPack_noHave (St := mysqlFetch P.X m.sql m.fuel s.db u) hord hcut hls ht rest hno
  have k' := httpUploadPack_noHave (St := mysqlFetch P.X m.sql m.fuel s.db u) hord hcut hls' ht' rest' hno'
  rcases k with ⟨file, out, a1, a2, a3⟩ | ⟨a1, a2, a3⟩
  · rcases k' with ⟨file', out', b1, b2, b3⟩ | ⟨b1, _⟩
    · rw [a1] at b1
      cases b1
      exact .inl ⟨file, out, out', by rw [a2]; rfl, by rw [b2]; rfl, a3, b3⟩
    · exact absurd a1 (b1 file)
  · rcases k' with ⟨file', out', b1, _⟩ | ⟨_, b2, b3⟩
    · exact absurd b1 (a1 file')
    · by_cases h : (mysqlFetch P.X m.sql m.fuel s.db u).fullPack = .spin
      · exact .inr (.inr ⟨by rw [a3 h]; rfl, by rw [b3 h]; rfl⟩)
      · exact .inr (.inl ⟨by rw [a2 h]; rfl, by rw [b2 h]; rfl⟩)

/-- A fetch of a client that has something and does not ask for `multi_ack_detailed`. -/
theorem fetch_no_multi {St : FetchStore} {ord : List Bytes → List Bytes} (hord : ∀ l x, x ∈ ord l ↔ x ∈ l) {cut : Bytes → List Bytes} (hcut : cut [] = []) {ls : List Spec.ReqLine}
    (hls : ∀ l ∈ ls, l.Ok) {t rest : Bytes} (ht : t.length ≤ 65000) (hhave : Spec.haveIds ls ≠ [])
    {words : List Bytes} (hw : Spec.SpaceSeparated (Spec.askedFor ls) words) (hno : ∀ w ∈ words, ¬ ascii "multi_ack_detailed" <:+: w) :
    httpUploadPack St ord cut (doneBody ls t rest) = .ok (ascii "0032ACK 27dd8d4cf39f3868c6eee38b601bc9e9939304f5 \n0000") := by
  obtain ⟨f, h1, h2, h3, e⟩ := httpUploadPack_done St ord cut ls hls t rest ht
  have hne : ord f.have_ ≠ [] := by
    intro e0
    apply hhave
    rw [List.eq_nil_iff_forall_not_mem] at e0 ⊢
    exact fun x hx => e0 x ((hord _ x).2 ((h2 x).2 hx))
  have hcap : Capability.multiAckDetailed ∉ f.caps := by
    rw [h3, requestCaps_asked, C21_capabilities_iff _ _ hw]
    rintro ⟨w, hw, l, r, _, _, e⟩
    exact hno w hw ⟨l, r, e.symm⟩
  rw [fetchAnswer, if_neg hne, if_neg hcap, Res.pure_eq, Res.bind_ok, hcut] at e
  rw [e]
  congr 1
  simp only [sendPack, List.flatMap_nil, List.nil_append]
  decide +kernel

/-- **C144 is false** for fetches of clients that have something already: without `multi_ack_detailed` among the options, which should change nothing but the lines before the pack, there
is no pack at all. In every state of the server, whatever is wanted, the answer is one line that acknowledges an id which the client never named. -/
theorem C144_fetch_false (P : ServerExt) {u g : Bytes} (hu : Spec.CleanUrl u) (hg : g = [] ∨ g = ascii ".git") (m : Moment) (s : ServerState)
    (hord : ∀ l x, x ∈ m.ord l ↔ x ∈ l) (hcut : m.cut [] = []) (ls : List Spec.ReqLine) (hls : ∀ l ∈ ls, l.Ok) (t rest : Bytes) (ht : t.length ≤ 65000) (hhave : Spec.haveIds ls ≠ [])
    (words : List Bytes) (hw : Spec.SpaceSeparated (Spec.askedFor ls) words) (hno : ∀ w ∈ words, ¬ ascii "multi_ack_detailed" <:+: w) :
    (serve P m s (Spec.fetchReq (u ++ g) (doneBody ls t rest))).1 = .reply (.ok (.bytes (ascii "0032ACK 27dd8d4cf39f3868c6eee38b601bc9e9939304f5 \n0000"))) := by
  have hroute : route .post (u ++ g ++ ascii "/git-upload-pack") none = .uploadPack u := route_fetch hu hg
  simp only [serve, Spec.fetchReq, hroute, fetch_no_multi (St := mysqlFetch P.X m.sql m.fuel s.db u) hord hcut hls ht hhave hw hno, Res.outcome]

/-- **C144 is false** for the reports of pushes: a client that did not ask for a report is sent one all the same. -/
theorem C144_report_false (P : ServerExt) {u g : Bytes} (hu : Spec.CleanUrl u) (hg : g = [] ∨ g = ascii ".git") (m : Moment) (s : ServerState) (c : Spec.PushCmd) (hc : c.Ok)
    (pack : Bytes) (hp : (ascii "PACK").isPrefixOf pack = true) (out : Bytes)
    (h : (serve P m s (Spec.pushReq (u ++ g) (Spec.pushBody c [] [] pack))).1 = .reply (.ok (.bytes out))) : out ≠ [] ∧ Spec.readReport [] out ≠ none := by
  obtain ⟨_, ⟨rep, rep', lines, e1, e2, e3, e4, _⟩ | ⟨e1, _⟩ | ⟨e1, _⟩⟩ := C144_push_same P hu hg m s c hc [] [] (by simp) (by simp) (by simp) (by simp) pack hp
  · rw [h] at e1
    cases e1
    refine ⟨?_, by rw [e3]; simp⟩
    rintro rfl
    rw [readReport_eq] at e3
    have : Spec.reportLines (decide (Capability.sideBand ∈ parseCapabilities [] ∨ Capability.sideBand64k ∈ parseCapabilities [])) [] = none := by decide +kernel
    rw [this] at e3
    cases e3
  · rw [h] at e1
    cases e1
  · rw [h] at e1
    cases e1

/-- C144: the five objects of the examples are pushed to an empty server, by a client that asks for a report in a side-band and for an atomic push, and by one that asks for silence. They
read the same lines in the report, and the server is afterwards in the same state. -/
example : ∃ (m : Moment) (pack rep rep' : Bytes) (s : ServerState),
    serve demoServer m .empty (Spec.pushReq (ascii "/app" ++ []) (Spec.pushBody appCmd [] (ascii "report-status side-band-64k atomic") pack)) = (.reply (.ok (.bytes rep)), s) ∧
    serve demoServer m .empty (Spec.pushReq (ascii "/app" ++ []) (Spec.pushBody appCmd [] (ascii "quiet") pack)) = (.reply (.ok (.bytes rep')), s) ∧
    Spec.readReport (ascii "report-status side-band-64k atomic") rep = some [ascii "unpack ok\n", ascii "ok refs/heads/master" ++ [0]] ∧
    Spec.readReport (ascii "quiet") rep' = some [ascii "unpack ok\n", ascii "ok refs/heads/master" ++ [0]] := by
  obtain ⟨pack, hpack⟩ := app_packOf demoServer.D.fold Db.empty
  obtain ⟨m, hm⟩ : ∃ m : Moment, m = { demoMoment with fuel := 6 } := ⟨_, rfl⟩
  have hlen : appEntries.length = 5 := objectsAt_length polyExt 12 appObjects
  have hsql : m.sql = demoSql := by rw [hm]; rfl
  have hun0 : UniqueIds polyExt (runServer demoServer .empty []).db := by
    intro a b ha
    rcases ha with ⟨n, hn, _⟩ | ⟨n, hn, _⟩ <;> cases hn
  obtain ⟨p, d1, _⟩ := packOf_decodes demoServer demoFold_hash hun0 (E := m.sql) (by rw [hsql]; rfl) hpack (fuel := m.fuel) (by rw [hm]; decide)
  obtain ⟨rep0, r1, r2⟩ := C111_accepted_partial demoServer demoFold_hash (ascii "/app") [] app_clean_url (.inl rfl) [] m hun0 (by rw [hsql]; rfl)
    (by rw [hsql]; exact ⟨fun _ _ => rfl, fun _ _ => rfl, fun _ _ => rfl, fun _ _ => rfl⟩) appCmd appCmd_ok
    (ascii "quiet") (by decide) (by decide) (.inl rfl) appEntries pack hpack app_project (by rw [hlen, hm]; decide)
  rw [← readReport_eq, show Spec.statusLine (appCmd.name ++ [0]) none = ascii "ok refs/heads/master" ++ [0] by decide] at r2
  obtain ⟨k1, ⟨rep, rep', lines, e1, e2, e3, e4, _⟩ | ⟨_, e2⟩ | ⟨_, e2⟩⟩ := C144_push_same demoServer (u := ascii "/app") (g := []) app_clean_url (.inl rfl) m .empty appCmd appCmd_ok
    (ascii "report-status side-band-64k atomic") (ascii "quiet") (by decide) (by decide) (by decide) (by decide) pack (decodePack_magic d1)
  · have : rep0 = rep' := by
      have := r1.symm.trans e2
      injection this with this
      injection this with this
      injection this
    subst this
    rw [r2] at e4
    cases e4
    exact ⟨m, pack, rep, rep0, (serve demoServer m .empty (Spec.pushReq (ascii "/app" ++ []) (Spec.pushBody appCmd [] (ascii "quiet") pack))).2, Prod.ext e1 k1, Prod.ext e2 rfl, e3, r2⟩
  · have := r1.symm.trans e2
    cases this
  · have := r1.symm.trans e2
    cases this

/-- A clone without side-band. -/
def plainLines : List Spec.ReqLine := [.want appCmd.new (ascii " multi_ack ofs-delta\n"), .flush]

/-- C144: whenever the clone of the examples is answered, so is one without a side-band, and the pack is the same. -/
example (s : ServerState) (out : Bytes) (h : (serve demoServer demoMoment s (Spec.fetchReq (ascii "/app" ++ []) (doneBody cloneLines (ascii "\n") []))).1 = .reply (.ok (.bytes out))) :
    ∃ file, Spec.readClone out = some file ∧
      (serve demoServer demoMoment s (Spec.fetchReq (ascii "/app" ++ []) (doneBody plainLines (ascii "\n") []))).1 = .reply (.ok (.bytes (ascii "0008NAK\n" ++ file ++ ascii "0000"))) := by
  have hok : ∀ l ∈ plainLines, l.Ok := by
    intro l hl
    simp only [plainLines, List.mem_cons, List.not_mem_nil, or_false] at hl
    rcases hl with rfl | rfl
    · exact ⟨appCmd_ok.2.2.1, appCmd_ok.2.2.2.1, ⟨0x20, ascii "multi_ack ofs-delta\n", by decide, by decide⟩, by decide⟩
    · trivial
  rcases C144_clone_same demoServer (u := ascii "/app") (g := []) app_clean_url (.inl rfl) demoMoment s (fun _ _ => .rfl) demoCut_ok cloneLines plainLines cloneLines_ok.ok hok (ascii "\n") (ascii "\n")
    [] [] (by decide) (by decide) rfl rfl with ⟨file, o, o', e1, e2, e3, e4⟩ | ⟨e1, _⟩ | ⟨e1, _⟩
  · rw [h] at e1
    cases e1
    refine ⟨file, e3.1 ?_, ?_⟩
    · rw [asksBand_iff]
      decide +kernel
    · rw [e2, e4.2 (by rw [asksBand_iff]; decide +kernel)]
  · rw [h] at e1
    cases e1
  · rw [h] at e1
    cases e1

/-- A client that has the commit of the examples and asks for it again, without `multi_ack_detailed`. -/
def bandLines : List Spec.ReqLine := [.want appCmd.new (ascii " side-band-64k\n"), .flush, .have_ appCmd.new (ascii "\n")]

/-- C144 fails: no pack. -/
example (s : ServerState) : (serve demoServer demoMoment s (Spec.fetchReq (ascii "/app" ++ []) (doneBody bandLines (ascii "\n") []))).1 =
    .reply (.ok (.bytes (ascii "0032ACK 27dd8d4cf39f3868c6eee38b601bc9e9939304f5 \n0000"))) := by
  refine C144_fetch_false demoServer (u := ascii "/app") (g := []) app_clean_url (.inl rfl) _ s (fun _ _ => .rfl) rfl bandLines ?_ (ascii "\n") [] (by decide) (by simp [bandLines, Spec.haveIds])
    [ascii "side-band-64k\n"] ⟨by decide, by decide, by decide⟩ (by decide)
  intro l hl
  simp only [bandLines, List.mem_cons, List.not_mem_nil, or_false] at hl
  rcases hl with rfl | rfl | rfl
  · exact ⟨appCmd_ok.2.2.1, appCmd_ok.2.2.2.1, ⟨0x20, ascii "side-band-64k\n", by decide, by decide⟩, by decide⟩
  · trivial
  · exact ⟨appCmd_ok.2.2.1, appCmd_ok.2.2.2.1, ⟨10, [], by decide, by simp⟩, by decide⟩

/-- C144 fails: the report of the second push above is `unpack ok` and `ok refs/heads/master`, and nobody asked for it. -/
example (s : ServerState) (pack out : Bytes) (hp : (ascii "PACK").isPrefixOf pack = true)
    (h : (serve demoServer demoMoment s (Spec.pushReq (ascii "/app" ++ []) (Spec.pushBody appCmd [] [] pack))).1 = .reply (.ok (.bytes out))) : out ≠ [] :=
  (C144_report_false demoServer (u := ascii "/app") (g := []) app_clean_url (.inl rfl) demoMoment s appCmd appCmd_ok pack hp out h).1

end Gust

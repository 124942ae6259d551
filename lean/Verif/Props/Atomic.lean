import Verif.Props.Several
import Verif.Props.Again
import Verif.Props.Rounds
import Verif.Props.PublishBothExamples

/-! # C163: atomic pushes

The server offers `atomic` to everybody who is going to push. A client that takes the offer asks that the server changes all the refs the push names, or none of them. The server never
looks for the word (`CommonCapability` has no such value; `parseCapabilities` drops it). Over HTTP it changes none, because pushes of several refs are lost as a whole
(`C24_several_server`); over SSH it changes the first. -/

namespace Gust

/-! ## Spec -/

/-- The rows a push asks to create. -/
def Spec.created (u : Bytes) (cs : List Spec.PushCmd) : List RefRow := cs.map (fun c => { repoPath := u, refName := c.name ++ [0], refGitId := c.new })

/-- All or none: a push that creates branches has added all of them to the refs, or nothing. -/
def Spec.AllOrNone (u : Bytes) (cs : List Spec.PushCmd) (before after : List RefRow) : Prop := after = before ∨ after = before ++ Spec.created u cs

/-- After `h` a client has opened connection `i` for pushing to `u` and sent the command section of a push of the refs `cs`. -/
structure Spec.Section (u : Bytes) (cs : List Spec.PushCmd) (caps : Bytes) (i : Nat) (h : BothHist) : Prop where
  noSpace : (0x20 : UInt8) ∉ u
  text : isBoundary u 0 = true
  sent : ∃ (h0 h1 h2 : BothHist) (m0 m1 : Moment) (ch0 ch1 : Nat) (c : Spec.PushCmd) (cs' : List Spec.PushCmd), cs = c :: cs' ∧ Spec.NotOn i h1 ∧ Spec.NotOn i h2 ∧
    h = h0 ++ (m0, .ssh i (.exec ch0 (Spec.sshAsk .receivePack u))) :: (h1 ++ (m1, .ssh i (.data ch1 (Spec.pushBody c cs' caps []))) :: h2)

/-! ## Lemmas -/

/-- **C163** What is offered: whoever asks for the refs before a push over HTTP and is shown anything finds `atomic` among the capabilities. -/
theorem C163_offered {out head : Bytes} {refs : List (Bytes × Bytes)} (h : Spec.Shows .receivePack out head refs) : Spec.Offers out (ascii "atomic") := by
  obtain ⟨pkts, h1, first, lines, h2, h3, _⟩ := h
  have hw : Spec.SpaceSeparated (capList .receivePack) [ascii "report-status", ascii "report-status-v2", ascii "delete-refs", ascii "quiet", ascii "atomic",
      ascii "side-band-64k", ascii "ofs-delta", ascii "object-format=sha1"] := ⟨by simp, by decide +kernel, by decide +kernel⟩
  rw [h2] at h1
  exact ⟨_, _, _, _, _, _, _, h1, h3, hw, by simp⟩

/-- **C163 is false** over SSH whatever the commands are, to create, move or delete refs: after a command section with several commands, whatever has been done before and is done later on both servers, everything is as if the
client had named the first ref only. -/
theorem C163_rest_false {P : ServerExt} {u : Bytes} (hs : (0x20 : UInt8) ∉ u) (hb : isBoundary u 0 = true) {c : Spec.PushCmd} (hc : c.Ok) {caps : Bytes} (hl : caps.length ≤ 4000)
    (hx : ∀ x ∈ caps, x.toNat < 128) (cs : List Spec.PushCmd) (h0 : BothHist) {h1 : BothHist} (h2 : BothHist) (m0 m1 : Moment) {i : Nat} (ch0 ch1 : Nat) (hn1 : Spec.NotOn i h1) :
    runBoth P .empty (h0 ++ (m0, .ssh i (.exec ch0 (Spec.sshAsk .receivePack u))) :: (h1 ++ (m1, .ssh i (.data ch1 (Spec.pushBody c cs caps []))) :: h2)) =
    runBoth P .empty (h0 ++ (m0, .ssh i (.exec ch0 (Spec.sshAsk .receivePack u))) :: (h1 ++ (m1, .ssh i (.data ch1 (Spec.pushBody c [] caps []))) :: h2)) := by
  cases cs with
  | nil => rfl
  | cons c2 cs =>
    simp only [runBoth_append, runBoth_cons]
    congr 1
    have e : (runBoth P (bothStep P m0 (runBoth P .empty h0) (.ssh i (.exec ch0 (Spec.sshAsk .receivePack u)))) h1).link i =
        (sshLinkStep P.X m0 (runBoth P .empty h0).web.db ((runBoth P .empty h0).link i) (.exec ch0 (Spec.sshAsk .receivePack u))).2.1 := by
      rw [runBoth_elsewhere P h1 _ hn1, bothStep_link]
    generalize runBoth P (bothStep P m0 (runBoth P .empty h0) (.ssh i (.exec ch0 (Spec.sshAsk .receivePack u)))) h1 = s at e ⊢
    have key : (sshStep P.X m1 s.ssh i (.data ch1 (Spec.pushBody c (c2 :: cs) caps []))).2 = (sshStep P.X m1 s.ssh i (.data ch1 (Spec.pushBody c [] caps []))).2 := by
      rcases ask_link (X := P.X) (m := m0) (db := (runBoth P .empty h0).web.db) (l := (runBoth P .empty h0).link i) (ch := ch0) (t := .receivePack) hs hb with q | q
      · exact (C24_ssh_first_only (s := s.ssh) (e.trans q) c c2 hc caps hl hx cs).2.1
      · rw [← e] at q
        have d : ∀ ev, sshLinkStep P.X m1 s.web.db (s.link i) ev = ([], s.link i, s.web.db) := fun ev => dead_link q ev
        unfold sshStep
        show (_ : SshState) = _
        simp only [Both.ssh, d]
    simp only [bothStep]
    rw [key]

/-! ## C163 -/

/-- **C163 (partial)** Over HTTP every push that names at least two refs is all or nothing, whatever has been done on both servers before, whatever the commands, the options and the pack are: it changes none of them.
(Missing from the full claim: pushes over SSH, where it is false, see `C163_ssh_false`. For pushes of one ref there is nothing to show.) -/
theorem C163_http_partial (P : ServerExt) (u g : Bytes) (hu : Spec.CleanUrl u) (hg : g = [] ∨ g = ascii ".git") (h : BothHist) (m : Moment) (c c2 : Spec.PushCmd) (cs : List Spec.PushCmd)
    (hc : c.Ok) (hc2 : c2.Ok) (caps : Bytes) (hcaps : caps.length ≤ 4000) (hascii : ∀ x ∈ caps, x.toNat < 128) (pack : Bytes) :
    Spec.AllOrNone u (c :: c2 :: cs) (runBoth P .empty h).web.db.refs
      (runBoth P .empty (h ++ [(m, .http (Spec.pushReq (u ++ g) (Spec.pushBody c (c2 :: cs) caps pack)))])).web.db.refs := by
  left
  rw [runBoth_concat]
  simp only [bothStep]
  rw [(C24_several_server m (runBoth P .empty h).web hu hg c c2 hc hc2 caps hcaps hascii cs pack).1]

/-- **C163 is false** over SSH for every push of at least two branches that works at all. After anything anybody has done on both servers, a client on connection `i` sends a command section that creates the branches
`c`, `c2` and `cs`, and then the pack of a complete project. The server answers `ok` for the first branch and does not mention the others. The first branch has been created, and no other
one: some of the refs have changed and not all of them. This is so whatever options the client sends, `atomic` among them. -/
theorem C163_ssh_false (P : ServerExt) (hfold : ∀ a b : Hash, P.D.fold (Hash.toPlainStr a) = P.D.fold (Hash.toPlainStr b) → a = b)
    (u : Bytes) (h : BothHist) (m : Moment) (hun : UniqueIds P.X (runBoth P .empty h).web.db) (hm : m.sql.fold = P.D.fold) (hacc : Spec.Accepts m.sql)
    (c c2 : Spec.PushCmd) (cs : List Spec.PushCmd) (hc : c.Ok) (hcreate : c.old = zeroId) (hnew : c.new ≠ zeroId) (caps : Bytes) (hcaps : caps.length ≤ 4000) (hascii : ∀ x ∈ caps, x.toNat < 128)
    (i ch : Nat) (hsec : Spec.Section u (c :: c2 :: cs) caps i h) (p : Option SshProto) (hl : (runBoth P .empty h).link i = .ready p)
    (os : List (Nat × Spec.Obj)) (pack : Bytes) (hpack : Spec.PackOf P.X P.D.fold (runBoth P .empty h).web.db pack os) (hproj : Spec.Project P.X os) (hfuel : os.length < m.fuel) :
    (∃ rep, (sshStep P.X m (runBoth P .empty h).ssh i (.data ch pack)).1 = [(ch, rep)] ∧
      Spec.reportLines (decide (.sideBand ∈ parseCapabilities caps ∨ .sideBand64k ∈ parseCapabilities caps)) rep =
        some [ascii "unpack ok\n", Spec.statusLine (c.name ++ [0]) none]) ∧
    (runBoth P .empty (h ++ [(m, .ssh i (.data ch pack))])).web.db.refs = (runBoth P .empty h).web.db.refs ++ Spec.created u [c] ∧
    ¬ Spec.AllOrNone u (c :: c2 :: cs) (runBoth P .empty h).web.db.refs (runBoth P .empty (h ++ [(m, .ssh i (.data ch pack))])).web.db.refs := by
  obtain ⟨h0, h1, h2, m0, m1, ch0, ch1, c', cs', ecs, hn1, hn2, hh⟩ := hsec.sent
  cases ecs
  have same := C163_rest_false (P := P) hsec.noSpace hsec.text hc hcaps hascii (c2 :: cs) h0 h2 m0 m1 ch0 ch1 hn1
  rw [← hh] at same
  obtain ⟨k, hk⟩ : ∃ k : BothHist, k = h0 ++ (m0, .ssh i (.exec ch0 (Spec.sshAsk .receivePack u))) :: (h1 ++ (m1, .ssh i (.data ch1 (Spec.pushBody c [] caps []))) :: h2) := ⟨_, rfl⟩
  rw [← hk] at same
  have hsent : Spec.SentAny P u c caps pack m k (k ++ [(m, .ssh i (.data ch pack))]) :=
    .ssh h0 h1 h2 k m0 m1 i ch0 ch1 ch hsec.noSpace hsec.text hn1 hn2 hk p (by rw [← same]; exact hl)
  rw [same] at hun hpack
  obtain ⟨rep, r1, r2⟩ := C111_both_partial P hfold u k _ m hun hm hacc c hc caps hcaps hascii (.inl hcreate) os pack hpack hproj hfuel hsent
  obtain ⟨q, d1, _⟩ := packOf_read hfold (both_nodes P k) hun hm hpack (fuel := m.fuel) (by omega)
  have hrefs : (runBoth P .empty (k ++ [(m, .ssh i (.data ch pack))])).web.db.refs = (runBoth P .empty k).web.db.refs ++ Spec.created u [c] := by
    rcases pushedAny_refs hc hnew hcaps hascii (decodePack_magic d1) r1 hm hacc.refs with ⟨_, e⟩ | ⟨ho, _⟩
    · exact e
    · exact absurd hcreate ho
  rw [runBoth_concat, ← same, ← runBoth_concat] at hrefs
  refine ⟨⟨rep, ?_, r2⟩, hrefs, ?_⟩
  · obtain ⟨st', e1, _⟩ := pushedAny_http hc hcaps hascii r1
    exact ssh_pushed (P := P) hc hcaps hascii ch (by rw [same]; exact section_sent hc hcaps hascii hsec.noSpace hsec.text hn1 hn2 hk (by rw [← same]; exact hl))
      (by rw [same]; exact e1) (report_ne r2)
  · rw [hrefs]
    rintro (e | e)
    · have := congrArg List.length e
      simp [Spec.created] at this
    · have := congrArg List.length e
      simp [Spec.created] at this

/-! ## A run -/

/-- Connection 0 is opened for pushing to `/app`; the client asks for two new branches, all or none. -/
def atomicBefore : BothHist :=
  [(demoMoment, .ssh 0 logIn), (demoMoment, .ssh 0 (askFor .receivePack 0 (ascii "/app"))), (demoMoment, .ssh 0 (.data 0 (Spec.pushBody appCmd [devCmd] (ascii "report-status atomic") [])))]

theorem atomicBefore_db : (runBoth demoServer .empty atomicBefore).web.db = Db.empty := by decide +kernel

theorem atomicBefore_link : (runBoth demoServer .empty atomicBefore).link 0 =
    .ready (some { service := .receivePack, path := ascii "/app", caps := parseCapabilities (ascii "report-status atomic"), commands := [RefCommand.new appCmd.old appCmd.new (appCmd.name ++ [0])] }) := by decide +kernel

theorem atomicBefore_section : Spec.Section (ascii "/app") [appCmd, devCmd] (ascii "report-status atomic") 0 atomicBefore :=
  ⟨by decide, by decide, [(demoMoment, .ssh 0 logIn)], [], [], demoMoment, demoMoment, 0, 0, appCmd, [devCmd], rfl, (fun _ h => nomatch h), (fun _ h => nomatch h), rfl⟩

/-- **C163 is false**: a client logs in to a server without repositories and asks to push to `/app`; among the capabilities it is told of is `atomic`. It asks for two new branches, all or none, and sends the pack.
It is told that all is well with the first branch; this one is there and the other one is not. -/
theorem C163_offered_false : ∃ (adv first caps pack rep : Bytes) (words : List Bytes),
    (sshStep polyExt demoMoment (runBoth demoServer .empty [(demoMoment, .ssh 0 logIn)]).ssh 0 (askFor .receivePack 0 (ascii "/app"))).1 = [(0, adv)] ∧
    Spec.readPkts adv = some [.line first, .flush] ∧ (∃ head name, Spec.parseFirstLine first = some (head, name, caps)) ∧ Spec.SpaceSeparated caps words ∧ ascii "atomic" ∈ words ∧
    (sshStep polyExt roomMoment (runBoth demoServer .empty atomicBefore).ssh 0 (.data 0 pack)).1 = [(0, rep)] ∧
    Spec.reportLines false rep = some [ascii "unpack ok\n", ascii "ok refs/heads/master" ++ [0]] ∧
    (runBoth demoServer .empty (atomicBefore ++ [(roomMoment, .ssh 0 (.data 0 pack))])).web.db.refs =
      [{ repoPath := ascii "/app", refName := ascii "refs/heads/master" ++ [0], refGitId := appCmd.new }] := by
  obtain ⟨pack, hpack⟩ := app_packOf demoServer.D.fold (runBoth demoServer .empty atomicBefore).web.db
  have hlen : appEntries.length = 5 := objectsAt_length polyExt 12 appObjects
  have hun : UniqueIds polyExt (runBoth demoServer .empty atomicBefore).web.db := by
    rw [atomicBefore_db]
    intro a b ha
    rcases ha with ⟨n, hn, _⟩ | ⟨n, hn, _⟩ <;> cases hn
  obtain ⟨⟨rep, r1, r2⟩, r3, _⟩ := C163_ssh_false demoServer demoFold_hash (ascii "/app") atomicBefore roomMoment hun rfl ⟨fun _ _ => rfl, fun _ _ => rfl, fun _ _ => rfl, fun _ _ => rfl⟩ appCmd devCmd [] appCmd_ok rfl
    (by decide +kernel) (ascii "report-status atomic") (by decide) (by decide) 0 0 atomicBefore_section _ atomicBefore_link appEntries pack hpack app_project (by rw [hlen]; decide)
  rw [show decide (Capability.sideBand ∈ parseCapabilities (ascii "report-status atomic") ∨ Capability.sideBand64k ∈ parseCapabilities (ascii "report-status atomic")) = false by
    decide +kernel] at r2
  rw [atomicBefore_db] at r3
  have hw : Spec.SpaceSeparated (capList .receivePack) [ascii "report-status", ascii "report-status-v2", ascii "delete-refs", ascii "quiet", ascii "atomic",
      ascii "side-band-64k", ascii "ofs-delta", ascii "object-format=sha1"] := ⟨by simp, by decide +kernel, by decide +kernel⟩
  refine ⟨gitInfoRefs .ssh .receivePack zeroId [], (zeroId ++ [0x20] ++ ascii "capabilities^{}" ++ [0] ++ capList .receivePack ++ [0x0a]), capList .receivePack, pack, rep, _, ?_, ?_, ?_, hw, by simp, r1, r2, r3⟩
  · decide +kernel
  · decide +kernel
  · exact ⟨zeroId, ascii "capabilities^{}", by decide +kernel⟩

/-- C163: the same push over HTTP changes nothing. -/
example (pack : Bytes) : (runBoth demoServer .empty (atomicBefore ++ [(roomMoment, .http (Spec.pushReq (ascii "/app" ++ []) (Spec.pushBody appCmd [devCmd] (ascii "report-status atomic") pack)))])).web.db.refs = [] ∨
    (runBoth demoServer .empty (atomicBefore ++ [(roomMoment, .http (Spec.pushReq (ascii "/app" ++ []) (Spec.pushBody appCmd [devCmd] (ascii "report-status atomic") pack)))])).web.db.refs =
      Spec.created (ascii "/app") [appCmd, devCmd] := by
  have := C163_http_partial demoServer (ascii "/app") [] app_clean_url (.inl rfl) atomicBefore roomMoment appCmd devCmd [] appCmd_ok devCmd_ok (ascii "report-status atomic") (by decide) (by decide) pack
  unfold Spec.AllOrNone at this
  rw [atomicBefore_db] at this
  exact this

end Gust

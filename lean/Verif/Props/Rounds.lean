import Verif.Props.Answered
import Verif.Props.Both
import Verif.Props.BothConfined
import Verif.Props.RefsShown
import Verif.Props.BothExamples

/-! # C127, C128: requests in several rounds, requests with a depth -/

namespace Gust

/-- The lines that name what is wanted: the first with the capabilities the client chose. -/
def Spec.wantLines (caps : Bytes) (w : Hash) (ws : List Hash) : List Spec.ReqLine :=
  .want (Hash.toPlainStr w) (0x20 :: caps ++ [0x0a]) :: ws.map (fun x => .want (Hash.toPlainStr x) [0x0a])

/-- One batch of commits the client has, ended by a flush packet (git's pack-protocol: the client then waits for the server's `NAK` or `ACK`s). -/
def Spec.haveLines (hs : List Hash) : List Spec.ReqLine := hs.map (fun x => .have_ (Hash.toPlainStr x) [0x0a]) ++ [.flush]

/-- The first message of a fetch in several rounds: what is wanted, a flush packet, the first batch. -/
def Spec.roundMsg (caps : Bytes) (w : Hash) (ws hs : List Hash) : Bytes :=
  Spec.stream ((Spec.wantLines caps w ws ++ [Spec.ReqLine.flush] ++ Spec.haveLines hs).map Spec.ReqLine.pkt)

/-- The first message of a fetch with a depth: what is wanted, `deepen`, a flush packet (the client then waits for the server's `shallow` lines). -/
def Spec.depthMsg (caps : Bytes) (w : Hash) (ws : List Hash) (digits : Bytes) : Bytes :=
  Spec.stream ((Spec.wantLines caps w ws ++ [Spec.ReqLine.other (ascii "deepen " ++ digits), .flush]).map Spec.ReqLine.pkt)

theorem wantLines_ok {caps : Bytes} (hl : caps.length ≤ 4000) (ha : ∀ x ∈ caps, x.toNat < 128) (w : Hash) (ws : List Hash) : ∀ l ∈ Spec.wantLines caps w ws, l.Ok := by
  intro l hl'
  rcases List.mem_cons.1 hl' with rfl | h
  · refine ⟨Hash.toPlainStr_length w, toPlainStr_hex w, ⟨0x20, caps ++ [0x0a], rfl, fun x hx => ?_⟩, ?_⟩
    · rcases List.mem_append.1 hx with h | h
      · exact ha x h
      · rw [List.mem_singleton.1 h]; decide
    · simp only [List.length_append, List.length_cons, List.length_nil]; omega
  · obtain ⟨x, _, rfl⟩ := List.mem_map.1 h
    exact ⟨Hash.toPlainStr_length x, toPlainStr_hex x, ⟨0x0a, [], rfl, fun y hy => by cases hy⟩, by simp⟩

theorem haveLines_ok (hs : List Hash) : ∀ l ∈ Spec.haveLines hs, l.Ok := by
  intro l hl
  rcases List.mem_append.1 hl with h | h
  · obtain ⟨x, _, rfl⟩ := List.mem_map.1 h
    exact ⟨Hash.toPlainStr_length x, toPlainStr_hex x, ⟨0x0a, [], rfl, fun y hy => by cases hy⟩, by simp⟩
  · rw [List.mem_singleton.1 h]; trivial

theorem deepen_ok {digits : Bytes} (hd : digits.length ≤ 100) : (Spec.ReqLine.other (ascii "deepen " ++ digits)).Ok := by
  have e : (ascii "deepen " ++ digits).take 4 = ascii "deep" := by
    rw [show ascii "deepen " = ascii "deep" ++ ascii "en " from by decide, List.append_assoc]
    rfl
  have hlen : (ascii "deepen " ++ digits).length = 7 + digits.length := by rw [List.length_append]; rfl
  exact ⟨by omega, by omega, by rw [e]; decide, by rw [e]; decide, by rw [e]; decide⟩

/-- An SSH message with a request that is not finished: nothing is sent, and the connection is stuck. -/
theorem unfinished_ssh {X : Ext} {m : Moment} {db : Db} {p : SshProto} (hp : p.service = .uploadPack) (ch : Nat) {body : Bytes} (hun : Spec.Unfinished true body) :
    sshLinkStep X m db (.ready (some p)) (.data ch body) = ([], .hung, db) := by
  have h := (spins_exact _ { want := [], have_ := [], caps := p.caps, firstLine := true } body (Nat.le_refl _)).2 hun (body.length + 1)
  simp only [sshLinkStep, sshData, hp, sshUploadPack, h]
  rfl

/-- A request that is not finished is never answered, over HTTP or SSH, whatever has happened before. -/
theorem unfinished_unanswered {P : ServerExt} {u body out : Bytes} {m : Moment} {h : BothHist} (hun : Spec.Unfinished true body) : ¬ Spec.FetchedAny P u body out m h := by
  intro hf
  cases hf with
  | http g hu hg ha =>
    rw [C92_fetch_false P _ m hu hg body hun] at ha
    cases ha
  | ssh i ch ho ha =>
    have hl := opened_link ho
    have e : (sshStep P.X m (runBoth P .empty h).ssh i (.data ch body)).1 = (sshLinkStep P.X m (runBoth P .empty h).web.db ((runBoth P .empty h).link i) (.data ch body)).1 := rfl
    rw [e, hl, unfinished_ssh rfl ch hun] at ha
    cases ha

/-- A connection that is stuck stays so, whatever happens on both servers. -/
theorem both_stuck {P : ServerExt} {i : Nat} : ∀ (h : BothHist) (s : Both), s.link i = .hung → (runBoth P s h).link i = .hung
  | [], _, e => e
  | (m, v) :: h, s, e => by
    refine both_stuck h (bothStep P m s v) ?_
    cases v with
    | http r => exact e
    | ssh j ev =>
      by_cases hj : i = j
      · subst hj
        rw [bothStep_link, e, dead_link (.inl rfl)]
      · show (if i = j then _ else s.link i) = _
        rw [if_neg hj, e]

/-- After an unfinished request on a connection the client is never sent anything on it again. -/
theorem unfinished_silent {P : ServerExt} {u body : Bytes} {m m' : Moment} {i ch : Nat} {h h2 : BothHist} (hun : Spec.Unfinished true body) (ho : Spec.Opened P u i h) (e : SshEvent) :
    (sshStep P.X m' (runBoth P .empty (h ++ (m, .ssh i (.data ch body)) :: h2)).ssh i e).1 = [] := by
  have hl : (runBoth P .empty (h ++ (m, .ssh i (.data ch body)) :: h2)).link i = .hung := by
    rw [runBoth_append, runBoth_cons]
    refine both_stuck h2 _ ?_
    rw [bothStep_link, opened_link ho, unfinished_ssh rfl ch hun]
  show (sshLinkStep P.X m' _ ((runBoth P .empty (h ++ (m, .ssh i (.data ch body)) :: h2)).link i) e).1 = []
  rw [hl, dead_link (.inl rfl)]

theorem roundMsg_unfinished {caps : Bytes} (hl : caps.length ≤ 4000) (ha : ∀ x ∈ caps, x.toNat < 128) (w : Hash) (ws hs : List Hash) :
    Spec.Unfinished true (Spec.roundMsg caps w ws hs) := by
  refine lines_unfinished _ fun l hm => ?_
  rcases List.mem_append.1 hm with h | h
  · rcases List.mem_append.1 h with h | h
    · exact wantLines_ok hl ha w ws l h
    · rw [List.mem_singleton.1 h]; trivial
  · exact haveLines_ok hs l h

theorem depthMsg_unfinished {caps : Bytes} (hl : caps.length ≤ 4000) (ha : ∀ x ∈ caps, x.toNat < 128) (w : Hash) (ws : List Hash) {digits : Bytes} (hd : digits.length ≤ 100) :
    Spec.Unfinished true (Spec.depthMsg caps w ws digits) := by
  refine lines_unfinished _ fun l hm => ?_
  rcases List.mem_append.1 hm with h | h
  · exact wantLines_ok hl ha w ws l h
  · rcases List.mem_cons.1 h with rfl | h
    · exact deepen_ok hd
    · rw [List.mem_singleton.1 h]; trivial

/-! ## C127 -/

/-- **C127 is false**: a client that sends the commits it has in batches, as git does when it has more than a few, gets no answer to the first batch, over HTTP or SSH, whatever is wanted, whatever the
client has and whatever happened before; and on SSH it is never sent anything on that connection again. -/
theorem C127_rounds_false (P : ServerExt) (u : Bytes) (caps : Bytes) (hl : caps.length ≤ 4000) (ha : ∀ x ∈ caps, x.toNat < 128) (w : Hash) (ws hs : List Hash) (m : Moment) (h : BothHist) :
    (∀ out, ¬ Spec.FetchedAny P u (Spec.roundMsg caps w ws hs) out m h) ∧
    (∀ g, Spec.CleanUrl u → (g = [] ∨ g = ascii ".git") → (serve P m (runBoth P .empty h).web (Spec.fetchReq (u ++ g) (Spec.roundMsg caps w ws hs))).1 = .hang) ∧
    ∀ (i ch : Nat) (m' : Moment) (h2 : BothHist) (e : SshEvent), Spec.Opened P u i h →
      (sshStep P.X m' (runBoth P .empty (h ++ (m, .ssh i (.data ch (Spec.roundMsg caps w ws hs))) :: h2)).ssh i e).1 = [] :=
  have hun := roundMsg_unfinished hl ha w ws hs
  ⟨fun _ => unfinished_unanswered hun, fun _ hu hg => C92_fetch_false P _ m hu hg _ hun, fun _ _ _ _ e ho => unfinished_silent hun ho e⟩

/-! ## C128 -/

/-- **C128 is false**: a client that asks for a depth gets no answer, over HTTP or SSH, whatever is wanted and whatever happened before; and on SSH it is never sent anything on that connection again. -/
theorem C128_depth_false (P : ServerExt) (u : Bytes) (caps : Bytes) (hl : caps.length ≤ 4000) (ha : ∀ x ∈ caps, x.toNat < 128) (w : Hash) (ws : List Hash) (digits : Bytes) (hd : digits.length ≤ 100)
    (m : Moment) (h : BothHist) :
    (∀ out, ¬ Spec.FetchedAny P u (Spec.depthMsg caps w ws digits) out m h) ∧
    (∀ g, Spec.CleanUrl u → (g = [] ∨ g = ascii ".git") → (serve P m (runBoth P .empty h).web (Spec.fetchReq (u ++ g) (Spec.depthMsg caps w ws digits))).1 = .hang) ∧
    ∀ (i ch : Nat) (m' : Moment) (h2 : BothHist) (e : SshEvent), Spec.Opened P u i h →
      (sshStep P.X m' (runBoth P .empty (h ++ (m, .ssh i (.data ch (Spec.depthMsg caps w ws digits))) :: h2)).ssh i e).1 = [] :=
  have hun := depthMsg_unfinished hl ha w ws hd
  ⟨fun _ => unfinished_unanswered hun, fun _ hu hg => C92_fetch_false P _ m hu hg _ hun, fun _ _ _ _ e ho => unfinished_silent hun ho e⟩

/-- Lines that say what is wanted or what the client has. -/
def Spec.ReqLine.counts : Spec.ReqLine → Bool
  | .want _ _ => true
  | .have_ _ _ => true
  | _ => false

theorem foldl_counts : ∀ (ls : List Spec.ReqLine) (s : FetchState), (ls.filter Spec.ReqLine.counts).foldl reqStep s = ls.foldl reqStep s
  | [], _ => rfl
  | .want a b :: ls, s => foldl_counts ls (reqStep s (.want a b))
  | .have_ a b :: ls, s => foldl_counts ls (reqStep s (.have_ a b))
  | .flush :: ls, s => foldl_counts ls s
  | .other _ :: ls, s => foldl_counts ls s

theorem loop_counts {ls : List Spec.ReqLine} (hok : ∀ l ∈ ls, l.Ok) {t : Bytes} (ht : t.length ≤ 65000) (rest : Bytes) (s : FetchState) :
    fetchLoop ((doneBody ls t rest).length + 1) s (doneBody ls t rest) =
      fetchLoop ((doneBody (ls.filter Spec.ReqLine.counts) t rest).length + 1) s (doneBody (ls.filter Spec.ReqLine.counts) t rest) := by
  have key : ∀ l : List Spec.ReqLine, (∀ x ∈ l, x.Ok) → fetchLoop ((doneBody l t rest).length + 1) s (doneBody l t rest) = .ok (l.foldl reqStep s, rest) := by
    intro l hl
    have hlen := doneBody_length l t rest
    obtain ⟨k, hk⟩ : ∃ k, (doneBody l t rest).length + 1 = l.length + (k + 1) := ⟨(doneBody l t rest).length - l.length, by omega⟩
    rw [hk, fetchLoop_done l hl t rest ht]
  rw [key ls hok, key _ (fun x hx => hok x (List.mem_of_mem_filter hx)), foldl_counts]

/-- **C128 is false** also for clients that say `done` at once: the answer is the same as without a depth (and without any other line that says neither what is wanted nor what the client has: `shallow`,
`deepen`, `deepen-since`, `deepen-not`, `filter`), over HTTP and SSH, whatever happened before. -/
theorem C128_ignored_false (P : ServerExt) (u : Bytes) (ls : List Spec.ReqLine) (hok : ∀ l ∈ ls, l.Ok) (t rest : Bytes) (ht : t.length ≤ 65000) (m : Moment) (h : BothHist) (out : Bytes) :
    Spec.FetchedAny P u (doneBody ls t rest) out m h ↔ Spec.FetchedAny P u (doneBody (ls.filter Spec.ReqLine.counts) t rest) out m h := by
  have web : ∀ g, Spec.CleanUrl u → (g = [] ∨ g = ascii ".git") → (serve P m (runBoth P .empty h).web (Spec.fetchReq (u ++ g) (doneBody ls t rest))).1 =
      (serve P m (runBoth P .empty h).web (Spec.fetchReq (u ++ g) (doneBody (ls.filter Spec.ReqLine.counts) t rest))).1 := by
    intro g hu hg
    have hroute := route_fetch hu hg
    simp only [serve, Spec.fetchReq, hroute, httpUploadPack, loop_counts hok ht rest]
  have ssh : ∀ i ch, Spec.Opened P u i h → (sshStep P.X m (runBoth P .empty h).ssh i (.data ch (doneBody ls t rest))).1 =
      (sshStep P.X m (runBoth P .empty h).ssh i (.data ch (doneBody (ls.filter Spec.ReqLine.counts) t rest))).1 := by
    intro i ch ho
    show (sshLinkStep P.X m (runBoth P .empty h).web.db ((runBoth P .empty h).link i) _).1 = (sshLinkStep P.X m (runBoth P .empty h).web.db ((runBoth P .empty h).link i) _).1
    rw [opened_link ho]
    simp only [sshLinkStep, sshData, sshUploadPack, loop_counts hok ht rest]
  constructor
  · rintro (⟨g, hu, hg, ha⟩ | ⟨i, ch, ho, ha⟩)
    · exact .http g hu hg ((web g hu hg).symm.trans ha)
    · exact .ssh i ch ho ((ssh i ch ho).symm.trans ha)
  · rintro (⟨g, hu, hg, ha⟩ | ⟨i, ch, ho, ha⟩)
    · exact .http g hu hg ((web g hu hg).trans ha)
    · exact .ssh i ch ho ((ssh i ch ho).trans ha)

/-- **C127 (partial)** A request in one round (it says `done` after the only batch) is answered or the connection is dropped, on a server that started empty and has handled any requests over HTTP, once the stack is deep enough. -/
theorem C127_once_partial (P : ServerExt) (hfold : ∀ a b : Hash, P.D.fold (Hash.toPlainStr a) = P.D.fold (Hash.toPlainStr b) → a = b) (h : List (Moment × HttpReq))
    (hag : Spec.PushesAgree P h) (m : Moment) (hm : m.sql.fold = P.D.fold) {u g : Bytes} (hu : Spec.CleanUrl u) (hg : g = [] ∨ g = ascii ".git")
    {caps : Bytes} (hl : caps.length ≤ 4000) (ha : ∀ x ∈ caps, x.toNat < 128) (w : Hash) (ws hs : List Hash) :
    ∃ k, ∀ fuel, k ≤ fuel → (serve P { m with fuel := fuel } (runServer P .empty h)
      (Spec.fetchReq (u ++ g) (Spec.roundMsg caps w ws hs ++ Spec.frame (.line (ascii "done\n"))))).1 ≠ .hang := by
  have hb : Spec.roundMsg caps w ws hs ++ Spec.frame (.line (ascii "done\n")) = doneBody (Spec.wantLines caps w ws ++ [Spec.ReqLine.flush] ++ Spec.haveLines hs) (ascii "\n") [] := by
    unfold Spec.roundMsg doneBody
    rw [List.append_nil]
    rfl
  have hok : ∀ l ∈ Spec.wantLines caps w ws ++ [Spec.ReqLine.flush] ++ Spec.haveLines hs, l.Ok := by
    intro l hm
    rcases List.mem_append.1 hm with h | h
    · rcases List.mem_append.1 h with h | h
      · exact wantLines_ok hl ha w ws l h
      · rw [List.mem_singleton.1 h]; trivial
    · exact haveLines_ok hs l h
  rw [hb]
  refine C92_answered_partial P hfold h hag m hm _ (fun _ _ => done_finished _ hok _ _ (by decide)) fun repo hr => ?_
  have := (route_fetch hu hg).symm.trans hr
  cases this

/-! ## What the server offers -/

/-- A client that reads the answer to its question for the refs finds the word among the capabilities. -/
def Spec.Offers (out word : Bytes) : Prop :=
  ∃ l0 first pkts head name caps words, Spec.readPkts out = some (.line l0 :: .flush :: .line first :: pkts) ∧ Spec.parseFirstLine first = some (head, name, caps) ∧
    Spec.SpaceSeparated caps words ∧ word ∈ words

/-- What is offered to everybody who asks before a fetch. -/
theorem shows_offers {out head : Bytes} {refs : List (Bytes × Bytes)} (h : Spec.Shows .uploadPack out head refs) :
    Spec.Offers out (ascii "shallow") ∧ Spec.Offers out (ascii "multi_ack_detailed") ∧ Spec.Offers out (ascii "deepen-since") := by
  obtain ⟨pkts, h1, first, lines, h2, h3, _⟩ := h
  have hw : Spec.SpaceSeparated (capList .uploadPack) [ascii "shallow", ascii "deepen-since", ascii "deepen-not", ascii "deepen-relative", ascii "multi_ack_detailed", ascii "no-done",
      ascii "side-band-64k", ascii "ofs-delta", ascii "object-format=sha1"] := ⟨by simp, by decide +kernel, by decide +kernel⟩
  rw [h2] at h1
  have mk : ∀ w, w ∈ [ascii "shallow", ascii "deepen-since", ascii "deepen-not", ascii "deepen-relative", ascii "multi_ack_detailed", ascii "no-done",
      ascii "side-band-64k", ascii "ofs-delta", ascii "object-format=sha1"] → Spec.Offers out w := fun w hm => ⟨_, _, _, _, _, _, _, h1, h3, hw, hm⟩
  exact ⟨mk _ (by simp), mk _ (by simp), mk _ (by simp)⟩

/-- A project is pushed; a client asks for the refs and is told that the server can limit the depth and negotiates in rounds. -/
theorem offered_app : ∃ (pack rep out : Bytes) (h : BothHist), h = [(demoMoment, .http (Spec.pushReq (ascii "/app") (Spec.pushBody appCmd [] (ascii "report-status") pack)))] ∧
    (serve demoServer demoMoment .empty (Spec.pushReq (ascii "/app") (Spec.pushBody appCmd [] (ascii "report-status") pack))).1 = .reply (.ok (.bytes rep)) ∧
    (serve demoServer demoMoment (runBoth demoServer .empty h).web (Spec.refsReq (ascii "/app") .uploadPack)).1 = .reply (.ok (.bytes out)) ∧
    Spec.Offers out (ascii "shallow") ∧ Spec.Offers out (ascii "multi_ack_detailed") := by
  obtain ⟨pack, rep, s, h1, h2, h3⟩ := demo_app
  rw [List.append_nil] at h2
  have eat : Spec.refsAt demoServer.D.fold s.db.refs (ascii "/app") = [masterRow] := by rw [h3]; decide +kernel
  obtain ⟨out, r, refs, k1, k2, _⟩ := shown_master (P := demoServer) app_url (by decide) (g := []) (.inl rfl) .uploadPack demoMoment rfl s
    (app_hasMaster h3) (by rw [eat]; simp) (by rw [eat]; intro r hr; rw [List.mem_singleton.1 hr]; exact masterRow_text)
  rw [List.append_nil] at k1
  refine ⟨pack, rep, out, _, rfl, by rw [h2], ?_, (shows_offers k2).1, (shows_offers k2).2.1⟩
  have e : (runBoth demoServer .empty [(demoMoment, .http (Spec.pushReq (ascii "/app") (Spec.pushBody appCmd [] (ascii "report-status") pack)))]).web =
      (serve demoServer demoMoment .empty (Spec.pushReq (ascii "/app") (Spec.pushBody appCmd [] (ascii "report-status") pack))).2 := rfl
  rw [e, h2]
  show (serve demoServer demoMoment s (Spec.refsReq (ascii "/app") .uploadPack)).1 = _
  rw [k1]

/-- **C127, C128 are false**, from the first push on: a project is pushed, the server offers to negotiate in rounds and to limit the depth; clients that take either offer are not answered. -/
theorem C128_offered_false : ∃ (pack rep out : Bytes) (h : BothHist),
    h = [(demoMoment, .http (Spec.pushReq (ascii "/app") (Spec.pushBody appCmd [] (ascii "report-status") pack)))] ∧
    (serve demoServer demoMoment .empty (Spec.pushReq (ascii "/app") (Spec.pushBody appCmd [] (ascii "report-status") pack))).1 = .reply (.ok (.bytes rep)) ∧
    (serve demoServer demoMoment (runBoth demoServer .empty h).web (Spec.refsReq (ascii "/app") .uploadPack)).1 = .reply (.ok (.bytes out)) ∧
    Spec.Offers out (ascii "shallow") ∧ Spec.Offers out (ascii "multi_ack_detailed") ∧
    ∀ (m : Moment) (w : Hash) (hs : List Hash),
      (serve demoServer m (runBoth demoServer .empty h).web (Spec.fetchReq (ascii "/app") (Spec.depthMsg (ascii "shallow side-band-64k") w [] (ascii "1")))).1 = .hang ∧
      (serve demoServer m (runBoth demoServer .empty h).web (Spec.fetchReq (ascii "/app") (Spec.roundMsg (ascii "multi_ack_detailed side-band-64k") w [] hs))).1 = .hang := by
  obtain ⟨pack, rep, out, h, h1, h2, h3, h4, h5⟩ := offered_app
  refine ⟨pack, rep, out, h, h1, h2, h3, h4, h5, fun m w hs => ⟨?_, ?_⟩⟩
  · have := (C128_depth_false demoServer (ascii "/app") (ascii "shallow side-band-64k") (by decide) (by decide) w [] (ascii "1") (by decide) m h).2.1 [] app_url (.inl rfl)
    rwa [List.append_nil] at this
  · have := (C127_rounds_false demoServer (ascii "/app") (ascii "multi_ack_detailed side-band-64k") (by decide) (by decide) w [] hs m h).2.1 [] app_url (.inl rfl)
    rwa [List.append_nil] at this

/-- A client that has named the repository `app` over SSH and sends twenty commits it has is never sent anything again. -/
example (w x : Hash) (h2 : BothHist) (e : SshEvent) : Spec.Opened demoServer (ascii "app") 1 bothAsked ∧
    (sshStep polyExt demoMoment (runBoth demoServer .empty
      (bothAsked ++ (demoMoment, .ssh 1 (.data 0 (Spec.roundMsg (ascii "multi_ack_detailed") w [] (List.replicate 20 x)))) :: h2)).ssh 1 e).1 = [] := by
  have ho : Spec.Opened demoServer (ascii "app") 1 bothAsked :=
    ⟨[(demoMoment, .ssh 1 logIn)], [], demoMoment, 0, (by intro _ h; cases h), by decide, by decide, rfl,
      some { service := .uploadPack, path := ascii "app", caps := [], commands := [] }, by decide +kernel⟩
  exact ⟨ho, (C127_rounds_false demoServer (ascii "app") (ascii "multi_ack_detailed") (by decide) (by decide) w [] _ demoMoment bothAsked).2.2 1 0 demoMoment h2 e ho⟩

/-- A clone with depth 1 that says `done` is answered like a clone, after any history. -/
example (w : Hash) (m : Moment) (h : BothHist) (out : Bytes) :
    Spec.FetchedAny demoServer (ascii "/app") (doneBody [.want (Hash.toPlainStr w) (ascii " side-band-64k\n"), .other (ascii "deepen 1"), .flush] (ascii "\n") []) out m h ↔
    Spec.FetchedAny demoServer (ascii "/app") (doneBody [.want (Hash.toPlainStr w) (ascii " side-band-64k\n")] (ascii "\n") []) out m h := by
  refine C128_ignored_false demoServer (ascii "/app") [.want (Hash.toPlainStr w) (ascii " side-band-64k\n"), .other (ascii "deepen 1"), .flush] (fun l hl => ?_) _ _ (by decide) m h out
  simp only [List.mem_cons, List.not_mem_nil, or_false] at hl
  rcases hl with rfl | rfl | rfl
  · exact wantLines_ok (caps := ascii "side-band-64k") (by decide) (by decide) w [] _ (.head _)
  · exact deepen_ok (digits := ascii "1") (by decide)
  · trivial

end Gust

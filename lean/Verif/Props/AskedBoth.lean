import Verif.Props.Asked
import Verif.Props.RefsBoth

/-! # C99 over both servers: asking for the refs of a repository -/

namespace Gust

/-! ## What the tables and the sessions hold is text -/

/-- A command of a push is text: UTF-8, the name without line breaks. -/
def CmdText (c : RefCommand) : Prop := utf8Valid c.refName = true ∧ utf8Valid c.newId = true ∧ (0x0a : UInt8) ∉ c.refName

/-- The stored refs are text. -/
def RefsText (db : Db) : Prop := ∀ r ∈ db.refs, utf8Valid r.refName = true ∧ utf8Valid r.refGitId = true ∧ (0x0a : UInt8) ∉ r.refName

theorem untilWs_no_lf : ∀ s : Bytes, (0x0a : UInt8) ∉ (untilWs s).1
  | [] => by simp [untilWs]
  | c :: s => by
    unfold untilWs
    split
    · simp
    · rename_i h
      intro hm
      rcases List.mem_cons.1 hm with e | e
      · rw [← e] at h
        exact h (by decide)
      · exact untilWs_no_lf s e

theorem readUntilWhiteSpace_text {s : Bytes} {r : Bytes × Bytes} (h : readUntilWhiteSpace s = .ok r) : utf8Valid r.1 = true ∧ (0x0a : UInt8) ∉ r.1 := by
  unfold readUntilWhiteSpace at h
  split at h
  · rename_i hv
    cases h
    exact ⟨hv, untilWs_no_lf s⟩
  · cases h

theorem parseRefUpdate_text {line : Bytes} {r : RefCommand × Bytes} (h : parseRefUpdate line = .ok r) : CmdText r.1 := by
  simp only [parseRefUpdate, Res.bind_eq_ok, Res.pure_eq, Res.ok.injEq] at h
  obtain ⟨a, _, b, hb, c, hc, rfl⟩ := h
  exact ⟨(readUntilWhiteSpace_text hc).1, (readUntilWhiteSpace_text hb).1, (readUntilWhiteSpace_text hc).2⟩

theorem gitReceivePack_text {E : PushEnv Db Pack} {st st' : PushState Db} {body out : Bytes} (hs : ∀ c ∈ st.commands, CmdText c)
    (h : gitReceivePack E st body = .ok (out, st')) : ∀ c ∈ st'.commands, CmdText c := by
  unfold gitReceivePack at h
  split at h
  · unfold receiveData at h
    split at h
    · cases h
    · rename_i cmd hcmd
      have hcm : CmdText cmd := hs _ (List.mem_of_getLast? hcmd)
      split at h
      · simp only at h
        split at h
        · split at h
          · cases h
            intro c hc
            rcases List.mem_append.1 hc with hc | hc
            · exact hs _ (List.mem_of_mem_dropLast hc)
            · rw [List.mem_singleton.1 hc]
              exact hcm
          · cases h
          · cases h
        · cases h
          intro c hc
          rcases List.mem_append.1 hc with hc | hc
          · exact hs _ (List.mem_of_mem_dropLast hc)
          · rw [List.mem_singleton.1 hc]
            exact hcm
        · cases h
        · cases h
      · cases h
      · cases h
  · simp only [receiveCommand, Res.bind_eq_ok] at h
    obtain ⟨⟨⟨n, line⟩, rest⟩, _, h⟩ := h
    simp only at h
    split at h
    · cases h
      exact hs
    · simp only [Res.bind_eq_ok] at h
      obtain ⟨⟨cmd, caps⟩, hp, h⟩ := h
      simp only at h
      split at h
      · simp only [Res.bind_eq_ok, Res.pure_eq, Res.ok.injEq, Prod.mk.injEq] at h
        obtain ⟨o, _, _, rfl⟩ := h
        intro c hc
        rcases List.mem_append.1 hc with hc | hc
        · exact hs c hc
        · rw [List.mem_singleton.1 hc]
          exact parseRefUpdate_text hp
      · cases h

theorem handleRefs_text {E : SqlExt} {cmd : RefCommand} {a : Bytes} {db : Db} (hc : CmdText cmd) (hd : RefsText db) : RefsText (handleRefs E cmd a db).2 := by
  intro r h
  unfold handleRefs at h
  split at h
  · rcases insertRefs_mem E _ _ r h with h | ⟨b, hb, h⟩
    · exact hd r h
    · rw [mem_chunks_one hb h]
      exact hc
  · exact hd r h
  · unfold updateRefs at h
    split at h
    · split at h
      · simp only at h
        obtain ⟨k, hk, e⟩ := List.mem_iff_getElem.1 h
        rw [List.getElem_modify] at e
        rw [List.length_modify] at hk
        have hg := hd _ (List.getElem_mem hk)
        rw [← e]
        split
        · exact ⟨hg.1, hc.2.1, hg.2.2⟩
        · exact hg
      · exact hd r h
    · exact hd r h

theorem toPlainStr_valid (h : Hash) : utf8Valid (Hash.toPlainStr h) = true :=
  utf8Valid_ascii _ (fun x hx => by rcases Hash.toPlainStr_range h x hx with h | h <;> omega)

theorem generateChild_text {X : Ext} {E : SqlExt} {ref : RefRow} {path : Bytes} {db : Db} (hr : ref ∈ db.refs) (hd : RefsText db) :
    RefsText (generateChild X E ref path db).2 := by
  intro r h
  unfold generateChild at h
  split at h
  · exact hd r h
  · split at h
    · split at h
      · rcases insertRefs_mem E _ _ r h with h | ⟨b, hb, h⟩
        · unfold saveCommits at h
          rw [insertCommits_refs] at h
          exact hd r h
        · rw [mem_chunks_one hb h]
          exact ⟨(hd ref hr).1, toPlainStr_valid _, (hd ref hr).2.2⟩
      · exact hd r h
      · exact hd r h
    · exact hd r h
    · exact hd r h
    · exact hd r h

theorem getHead_text {X : Ext} {E : SqlExt} {path : Bytes} {db : Db} (hd : RefsText db) : RefsText (getHeadObjectId X E db path).2 := by
  unfold getHeadObjectId
  split
  · exact hd
  · split
    · rename_i r h
      exact generateChild_text (mem_searchRefs.1 (List.mem_of_find?_eq_some h)).1 hd
    · exact hd

theorem head_text {X : Ext} {E : SqlExt} {path id : Bytes} {db : Db} (hd : RefsText db) (h : (getHeadObjectId X E db path).1 = .ok id) : utf8Valid id = true := by
  rcases hh : getHeadObjectId X E db path with ⟨a, db'⟩
  rw [hh] at h
  simp only at h
  subst h
  rcases getHead_ok hh with ⟨r, h1, _, rfl, _⟩ | ⟨_, ⟨r, _, _, hg⟩ | ⟨_, rfl, _⟩⟩
  · exact (hd r (mem_searchRefs.1 h1).1).2.1
  · rcases generateChild_ok hg with ⟨⟨g⟩⟩ | ⟨_, rfl, _⟩
    · rw [g.id_eq]
      exact toPlainStr_valid _
    · decide +kernel
  · decide +kernel

theorem receiveDb_text {X : Ext} {E : SqlExt} {fuel : Nat} {st : PushState Db} {data : Bytes} (hs : ∀ c ∈ st.commands, CmdText c) (hd : RefsText st.db) :
    RefsText (gitReceiveDb (mysqlPush X E fuel) st data) := by
  unfold gitReceiveDb
  split
  · unfold receiveDataDb
    split
    · exact hd
    · rename_i cmd hcmd
      simp only [mysqlPush]
      split
      · rename_i p hp
        have hp : RefsText (savePackfile E fuel p st.path st.db).2 := by
          unfold RefsText
          rw [savePackfile_refs]
          exact hd
        split
        · rename_i db1 he
          rw [he] at hp
          have hcm : CmdText cmd := hs cmd (List.mem_of_getLast? hcmd)
          exact handleRefs_text (cmd := { cmd with ok := true }) hcm hp
        · rename_i db1 _ he
          rw [he] at hp
          exact hp
      · exact hd
  · exact hd

/-- What holds in every state that the two servers reach. -/
structure TextInv (s : Both) : Prop where
  refs : RefsText s.web.db
  links : ∀ i p, s.link i = .ready (some p) → ∀ c ∈ p.commands, CmdText c

theorem serve_text {P : ServerExt} {m : Moment} {s : ServerState} {r : HttpReq} (hd : RefsText s.db) : RefsText (serve P m s r).2.db := by
  rw [serve_db]
  cases h : route r.method r.path r.service <;> simp only <;> (try exact hd)
  · exact getHead_text hd
  · unfold httpReceiveDb
    split
    · rename_i out st1 he
      refine receiveDb_text (gitReceivePack_text (by intro c hc; cases hc) he) ?_
      have := gitReceiveDb_ok he
      rw [← this]
      exact receiveDb_text (by intro c hc; cases hc) hd
    · exact receiveDb_text (by intro c hc; cases hc) hd

theorem sshLink_text {X : Ext} {m : Moment} {db : Db} {l : SshLink} {e : SshEvent} (hl : ∀ p, l = .ready (some p) → ∀ c ∈ p.commands, CmdText c) (hd : RefsText db) :
    RefsText (sshLinkStep X m db l e).2.2 ∧ ∀ p, (sshLinkStep X m db l e).2.1 = .ready (some p) → ∀ c ∈ p.commands, CmdText c := by
  cases l with
  | fresh =>
    cases e with
    | auth u s =>
      refine ⟨hd, fun p h => ?_⟩
      simp only [sshLinkStep] at h
      split at h <;> cases h
    | _ => exact ⟨hd, fun p h => by cases h⟩
  | hung => exact ⟨hd, fun p h => by cases h⟩
  | closed => exact ⟨hd, fun p h => by cases h⟩
  | ready q =>
    cases e with
    | auth u s => exact ⟨hd, hl⟩
    | exec ch command =>
      simp only [sshLinkStep]
      cases hc : sshCommand command with
      | ok r =>
        obtain ⟨path, t⟩ := r
        refine ⟨?_, fun p h => ?_⟩
        · simp only [sshExec, hc, advertise_db]
          exact getHead_text hd
        · have := sshExec_ready hc h
          cases this
          intro c hc
          cases hc
      | _ =>
        simp only [sshExec, hc]
        exact ⟨hd, fun p h => by cases h⟩
    | data ch bytes =>
      cases q with
      | none => exact ⟨hd, fun p h => by cases h⟩
      | some q =>
        simp only [sshLinkStep, sshData]
        cases hs : q.service with
        | uploadPack =>
          refine ⟨hd, fun p h => ?_⟩
          simp only at h
          revert h
          generalize sshUploadPack _ _ _ _ _ = r
          cases r <;> intro h <;> simp only [Res.link, SshLink.ready.injEq, reduceCtorEq] at h
          cases h
          exact hl q rfl
        | receivePack =>
          refine ⟨receiveDb_text (hl q rfl) hd, fun p h => ?_⟩
          simp only at h
          cases hr : sshReceivePack (mysqlPush X m.sql m.fuel) { caps := q.caps, commands := q.commands, path := q.path, db := db } bytes with
          | ok a =>
            rw [hr] at h
            simp only [Res.link, SshLink.ready.injEq, Option.some.injEq] at h
            subst h
            exact gitReceivePack_text (hl q rfl) (Res.unwrap_eq_ok.1 hr)
          | _ =>
            rw [hr] at h
            cases h

theorem bothStep_text {P : ServerExt} {m : Moment} {s : Both} {v : Visit} (hs : TextInv s) : TextInv (bothStep P m s v) := by
  cases v with
  | http r => exact ⟨serve_text hs.refs, hs.links⟩
  | ssh i e =>
    obtain ⟨h1, h2⟩ := sshLink_text (X := P.X) (m := m) (e := e) (hs.links i) hs.refs
    refine ⟨h1, fun j p h => ?_⟩
    by_cases hj : j = i
    · have : (if j = i then (sshLinkStep P.X m s.web.db (s.link i) e).2.1 else s.link j) = .ready (some p) := h
      rw [if_pos hj] at this
      exact h2 p this
    · have : (if j = i then (sshLinkStep P.X m s.web.db (s.link i) e).2.1 else s.link j) = .ready (some p) := h
      rw [if_neg hj] at this
      exact hs.links j p this

theorem runBoth_text (P : ServerExt) : ∀ (h : BothHist) (s : Both), TextInv s → TextInv (runBoth P s h)
  | [], _, hs => hs
  | (m, v) :: h, s, hs => by
    rw [runBoth_cons]
    exact runBoth_text P h _ (bothStep_text hs)

theorem empty_text : TextInv .empty := ⟨(by intro r h; cases h), (by intro i p h; cases h)⟩

/-! ## Reading -/

theorem effect_readable {X : Ext} {E : SqlExt} {fuel : Nat} {a : Bytes} {S : Bytes → Prop} {db db' : Db} (h : DbEffect X E fuel a S db db') (hr : Readable db) : Readable db' := by
  have push : ∀ (file : Bytes) (p : Pack), decodePack X (getHashObject X E db) fuel file = .ok p → Readable (savePackfile E fuel p a db).2 := by
    intro file p hd
    obtain ⟨rows, h1, h2, _, h4⟩ := push_effect hd E fuel a db
    refine ⟨?_, ?_⟩
    · intro n hn
      rw [h1] at hn
      rcases List.mem_append.1 hn with hn | hn
      · exact hr.nodes n hn
      · obtain ⟨o, _, _, e, _⟩ := h2 n hn
        exact ⟨_, e⟩
    · intro c hc
      rcases h4 c hc with hc | ⟨_, _, o, c', _, _, e, e2, _⟩
      · exact hr.commits c hc
      · exact ⟨c', by rw [e, e2]⟩
  cases h with
  | same => exact hr
  | head => exact getHead_readable hr
  | push file p _ hd => exact push file p hd
  | pushRef file p cmd _ hd =>
    obtain ⟨k1, k2⟩ := handleRefs_only E cmd a (savePackfile E fuel p a db).2
    exact ⟨by rw [k1]; exact (push file p hd).nodes, by rw [k2]; exact (push file p hd).commits⟩

theorem runBoth_readable (P : ServerExt) : ∀ (h : BothHist) (s : Both), Readable s.web.db → Readable (runBoth P s h).web.db
  | [], _, hr => hr
  | (m, v) :: h, s, hr => by
    rw [runBoth_cons]
    refine runBoth_readable P h _ ?_
    rcases both_effect P m s v with e | ⟨a, _, e⟩
    · rw [e]
      exact hr
    · exact effect_readable e hr

/-! ## The theorems -/

/-- **C99 (partial)** The same over both servers. After anything anybody has done on them, with any bodies, a client that asks for the refs of a repository is answered, over HTTP and on every SSH
connection that is ready, which stays ready, if for every repository above it in the directory tree that has a master, this master names a stored commit and the path asked for ends in a name. (Missing: the
other cases, where the handler crashes, see `C99_crash` and `C99_crash_ssh`.) -/
theorem C99_both_partial {P : ServerExt} (h : BothHist) (m : Moment) {u : Bytes} (t : ServiceType)
    (hc : ∀ r ∈ (runBoth P .empty h).web.db.refs, Spec.isMaster m.sql.fold r → r.repoPath ≠ u → Spec.DirAbove r.repoPath u →
      Spec.lastName u ≠ none ∧ ∃ c ∈ (runBoth P .empty h).web.db.commits, m.sql.fold c.gitId = m.sql.fold r.refGitId) :
    (∀ g, Spec.CleanUrl u → (g = [] ∨ g = ascii ".git") → ∃ out, (serve P m (runBoth P .empty h).web (Spec.refsReq (u ++ g) t)).1 = .reply (.ok (.bytes out))) ∧
      ∀ i ch p, (0x20 : UInt8) ∉ u → isBoundary u 0 = true → (runBoth P .empty h).link i = .ready p →
        ∃ out p', (sshStep P.X m (runBoth P .empty h).ssh i (.exec ch (Spec.sshAsk t u))).1 = [(ch, out)] ∧
          (sshStep P.X m (runBoth P .empty h).ssh i (.exec ch (Spec.sshAsk t u))).2.link i = .ready p' := by
  have hr : Readable (runBoth P .empty h).web.db := runBoth_readable P h .empty ⟨(by intro n h; cases h), (by intro n h; cases h)⟩
  have ht := (runBoth_text P h _ empty_text).refs
  obtain ⟨id, hid⟩ := getHead_answers (X := P.X) hr hc
  refine ⟨fun g hu hg => ?_, fun i ch p hs hb hl => ?_⟩
  · obtain ⟨out, ho⟩ := advertise_answers (t := t) hid
    exact ⟨out, by rw [asked hu hg, ho]; rfl⟩
  · have hcmd : sshCommand (Spec.sshAsk t u) = .ok (u, t) := C56_ssh_partial t u hs hb
    have hid' := head_text ht hid
    have ht' := getHead_text (X := P.X) (E := m.sql) (path := u) ht
    rcases hh : getHeadObjectId P.X m.sql (runBoth P .empty h).web.db u with ⟨a, db'⟩
    rw [hh] at hid ht'
    simp only at hid ht'
    subst hid
    have hv : utf8Valid (gitInfoRefs .ssh t id (getRefObjectId m.sql db' u)) = true := by
      refine gitInfoRefs_valid hid' ?_
      intro p hp
      obtain ⟨x, hx, e1, e2⟩ := getRefObjectId_from p hp
      rw [← e1, ← e2]
      exact ⟨(ht' x (refsAt_mem.1 hx).1).2.1, (ht' x (refsAt_mem.1 hx).1).1⟩
    refine ⟨gitInfoRefs .ssh t id (getRefObjectId m.sql db' u), some { service := t, path := u, caps := [], commands := [] }, ?_, ?_⟩
    · show (sshLinkStep P.X m (runBoth P .empty h).web.db ((runBoth P .empty h).link i) (.exec ch (Spec.sshAsk t u))).1 = _
      simp only [hl, sshLinkStep, sshExec, hcmd, advertise, hh, Res.bind_ok, hv, if_true, Res.sent, _root_.id, gitInfoRefs_ne_nil, if_false]
    · show (if i = i then (sshLinkStep P.X m (runBoth P .empty h).web.db ((runBoth P .empty h).link i) (.exec ch (Spec.sshAsk t u))).2.1 else _) = _
      simp only [hl, sshLinkStep, sshExec, hcmd, advertise, hh, Res.bind_ok, hv, if_true, Res.link]

/-- **C99** Exactly then: over SSH the client is not answered and the connection is cut off, in every state of the servers. -/
theorem C99_crash_ssh {P : ServerExt} (s : Both) (m : Moment) {u : Bytes} (hs : (0x20 : UInt8) ∉ u) (hu : isBoundary u 0 = true) (t : ServiceType)
    (hown : ∀ r ∈ s.web.db.refs, Spec.isMaster m.sql.fold r → r.repoPath ≠ u)
    (hb : ∃ r ∈ s.web.db.refs, Spec.isMaster m.sql.fold r ∧ (∃ tail, u = r.repoPath ++ 0x2f :: tail) ∧ (0x5c : UInt8) ∉ r.repoPath)
    (hc : Spec.lastName u = none ∨ ∀ r ∈ s.web.db.refs, Spec.isMaster m.sql.fold r → Spec.DirAbove r.repoPath u →
      ∀ c ∈ s.web.db.commits, m.sql.fold c.gitId ≠ m.sql.fold r.refGitId)
    (i ch : Nat) (p : Option SshProto) (hl : s.link i = .ready p) :
    (sshStep P.X m s.ssh i (.exec ch (Spec.sshAsk t u))).1 = [] ∧ (sshStep P.X m s.ssh i (.exec ch (Spec.sshAsk t u))).2.link i = .closed := by
  have hp := getHead_panics (X := P.X) hown hb hc
  have hcmd : sshCommand (Spec.sshAsk t u) = .ok (u, t) := C56_ssh_partial t u hs hu
  rcases hh : getHeadObjectId P.X m.sql s.web.db u with ⟨a, db'⟩
  rw [hh] at hp
  simp only at hp
  subst hp
  constructor
  · show (sshLinkStep P.X m s.web.db (s.link i) (.exec ch (Spec.sshAsk t u))).1 = _
    simp only [hl, sshLinkStep, sshExec, hcmd, advertise, hh]
    rfl
  · show (if i = i then (sshLinkStep P.X m s.web.db (s.link i) (.exec ch (Spec.sshAsk t u))).2.1 else _) = _
    simp only [hl, sshLinkStep, sshExec, hcmd, advertise, hh, if_true]
    rfl

/-- Somebody pushes master to `/app` over HTTP, then somebody connects over SSH. -/
def askedHist (pack : Bytes) : BothHist :=
  [(demoMoment, .http (Spec.pushReq (ascii "/app" ++ []) (Spec.pushBody appCmd [] (ascii "report-status") pack))), (demoMoment, .ssh 3 (.auth [] []))]

theorem askedHist_state : ∃ pack s, runBoth demoServer .empty (askedHist pack) = s ∧ s.web.db.refs = [masterRow] ∧ s.link 3 = .ready none ∧ ∃ c ∈ s.web.db.commits, c.gitId = appCmd.new := by
  obtain ⟨pack, rep, s, _, h2, h3, _, x, hx, ex⟩ := demo_create_rows app_url (.inl rfl) .empty appCmd appCmd_ok rfl
  have e : bothStep demoServer demoMoment .empty (.http (Spec.pushReq (ascii "/app" ++ []) (Spec.pushBody appCmd [] (ascii "report-status") pack))) = { web := s, link := fun _ => .fresh } := by
    show Both.mk (serve demoServer demoMoment .empty _).2 _ = _
    rw [h2]
    rfl
  refine ⟨pack, bothStep demoServer demoMoment { web := s, link := fun _ => .fresh } (.ssh 3 (.auth [] [])), ?_, h3, rfl, x, hx, ex⟩
  rw [askedHist, runBoth_cons, e]
  rfl

/-- C99 over both servers: after this the refs of `/app/x` are told over HTTP and on the SSH connection. -/
example : ∃ (pack out out' : Bytes) (p' : Option SshProto),
    (serve demoServer demoMoment (runBoth demoServer .empty (askedHist pack)).web (Spec.refsReq (ascii "/app/x" ++ []) .uploadPack)).1 = .reply (.ok (.bytes out)) ∧
    (sshStep polyExt demoMoment (runBoth demoServer .empty (askedHist pack)).ssh 3 (.exec 0 (Spec.sshAsk .uploadPack (ascii "/app/x")))).1 = [(0, out')] ∧
    (sshStep polyExt demoMoment (runBoth demoServer .empty (askedHist pack)).ssh 3 (.exec 0 (Spec.sshAsk .uploadPack (ascii "/app/x")))).2.link 3 = .ready p' := by
  obtain ⟨pack, s, hs, h1, h2, x, hx, ex⟩ := askedHist_state
  have key := C99_both_partial (P := demoServer) (askedHist pack) demoMoment (u := ascii "/app/x") .uploadPack
  rw [hs] at key
  refine ⟨pack, ?_⟩
  rw [hs]
  obtain ⟨k1, k2⟩ := key (by
    rw [h1]
    intro r hr _ _ _
    rw [List.mem_singleton.1 hr]
    exact ⟨by decide +kernel, x, hx, by rw [ex]; rfl⟩)
  obtain ⟨out, ho⟩ := k1 [] ⟨by decide, by decide, by decide, by decide⟩ (.inl rfl)
  obtain ⟨out', p', h3, h4⟩ := k2 3 0 none (by decide) (by decide +kernel) h2
  exact ⟨out, out', p', ho, h3, h4⟩

/-- And whoever asks for the refs of `/app/..` there is cut off. -/
example : ∃ pack : Bytes, (sshStep polyExt demoMoment (runBoth demoServer .empty (askedHist pack)).ssh 3 (.exec 0 (Spec.sshAsk .uploadPack (ascii "/app/..")))).1 = [] ∧
    (sshStep polyExt demoMoment (runBoth demoServer .empty (askedHist pack)).ssh 3 (.exec 0 (Spec.sshAsk .uploadPack (ascii "/app/..")))).2.link 3 = .closed := by
  obtain ⟨pack, s, hs, h1, h2, _⟩ := askedHist_state
  refine ⟨pack, ?_⟩
  rw [hs]
  refine C99_crash_ssh (P := demoServer) _ demoMoment (by decide) (by decide +kernel) .uploadPack ?_ ?_ (.inl (by decide +kernel)) 3 0 none h2
  · rw [h1]
    intro r hr _
    rw [List.mem_singleton.1 hr]
    decide
  · exact ⟨masterRow, by rw [h1]; simp, by unfold Spec.isMaster; decide +kernel, ⟨ascii "..", by decide⟩, by decide⟩

end Gust

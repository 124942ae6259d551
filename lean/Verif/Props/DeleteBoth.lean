import Verif.Props.PublishBoth
import Verif.Props.RefsKept
import Verif.Props.BothExamples
import Verif.Base.Tactics

/-! # C89 on both servers -/

namespace Gust

/-- Connection `i` has been opened for pushing to the repository `u`, is alive, and the client has not sent anything since. -/
def Spec.OpenedPush (P : ServerExt) (u : Bytes) (i : Nat) (h : BothHist) : Prop :=
  ∃ (h0 h1 : BothHist) (m0 : Moment) (ch0 : Nat), Spec.NotOn i h1 ∧ (0x20 : UInt8) ∉ u ∧ isBoundary u 0 = true ∧
    h = h0 ++ (m0, .ssh i (.exec ch0 (Spec.sshAsk .receivePack u))) :: h1 ∧ ∃ p, (runBoth P .empty h).link i = .ready p

theorem openedPush_link {P : ServerExt} {u : Bytes} {i : Nat} {h : BothHist} (ho : Spec.OpenedPush P u i h) :
    (runBoth P .empty h).link i = .ready (some { service := .receivePack, path := u, caps := [], commands := [] }) := by
  obtain ⟨h0, h1, m0, ch0, hn, hs, hb, hh, p, hp⟩ := ho
  have e : (runBoth P .empty h).link i =
      (sshLinkStep P.X m0 (runBoth P .empty h0).web.db ((runBoth P .empty h0).link i) (.exec ch0 (Spec.sshAsk .receivePack u))).2.1 := by
    rw [hh, runBoth_append, runBoth_cons, runBoth_elsewhere P h1 _ hn, bothStep_link]
  rcases ask_link (X := P.X) (m := m0) (db := (runBoth P .empty h0).web.db) (l := (runBoth P .empty h0).link i) (ch := ch0) (t := .receivePack) hs hb with q | q
  · rw [e, q]
  · rw [hp] at e
    rcases q with q | q <;> rw [q] at e <;> cases e

/-- **C89 is false** over SSH: a deletion, as git sends it, without a pack, to any repository, after anything anybody has done over HTTP and SSH, is not answered at all: nothing is sent, the connection
stays open, and everything that is stored stays, also the ref that was to be deleted. -/
theorem C89_ssh_false (P : ServerExt) (u : Bytes) (i ch : Nat) (h : BothHist) (ho : Spec.OpenedPush P u i h) (m : Moment) (c : Spec.PushCmd) (hc : c.Ok)
    (caps : Bytes) (hl : caps.length ≤ 4000) (ha : ∀ x ∈ caps, x.toNat < 128) :
    (sshStep P.X m (runBoth P .empty h).ssh i (.data ch (Spec.pushBody c [] caps []))).1 = [] ∧
    (∃ p, (runBoth P .empty (h ++ [(m, .ssh i (.data ch (Spec.pushBody c [] caps [])))])).link i = .ready p) ∧
    (runBoth P .empty (h ++ [(m, .ssh i (.data ch (Spec.pushBody c [] caps [])))])).web = (runBoth P .empty h).web := by
  have key := receive_section (mysqlPush P.X m.sql m.fuel) u (runBoth P .empty h).web.db hc hl ha []
  have hd : gitReceiveDb (mysqlPush P.X m.sql m.fuel) { caps := [], commands := [], path := u, db := (runBoth P .empty h).web.db } (Spec.pushBody c [] caps []) =
      (runBoth P .empty h).web.db := gitReceiveDb_ok key
  have step : sshLinkStep P.X m (runBoth P .empty h).web.db ((runBoth P .empty h).link i) (.data ch (Spec.pushBody c [] caps [])) =
      ([], .ready (some { service := .receivePack, path := u, caps := parseCapabilities caps, commands := [RefCommand.new c.old c.new (c.name ++ [0])] }),
        (runBoth P .empty h).web.db) := by
    rw [openedPush_link ho]
    simp only [sshLinkStep, sshData, sshReceivePack, key, hd, Res.unwrap_ok, Res.link, Res.sent, if_true]
  refine ⟨?_, ?_, ?_⟩
  · show (sshLinkStep P.X m (runBoth P .empty h).web.db ((runBoth P .empty h).link i) _).1 = []
    rw [step]
  · rw [runBoth_concat, bothStep_link, step]
    exact ⟨_, rfl⟩
  · rw [runBoth_concat]
    have e : (sshStep P.X m (runBoth P .empty h).ssh i (.data ch (Spec.pushBody c [] caps []))).2.db = (runBoth P .empty h).web.db := by
      show (sshLinkStep P.X m (runBoth P .empty h).web.db ((runBoth P .empty h).link i) _).2.2 = _
      rw [step]
    simp only [bothStep, e]

/-- What a deletion with a pack leaves of the refs: all of them. -/
theorem delete_pack_refs {X : Ext} {m : Moment} {u : Bytes} {db : Db} {c : Spec.PushCmd} (hd : c.IsDelete) (caps : List Capability) (pack : Bytes) :
    (gitReceiveDb (mysqlPush X m.sql m.fuel) { caps := caps, commands := [RefCommand.new c.old c.new (c.name ++ [0])], path := u, db := db } pack).refs = db.refs := by
  rw [gitReceiveDb]
  split
  · rw [receiveDataDb]
    simp only [List.getLast?_singleton, mysqlPush]
    split
    · rename_i p _
      have h := savePackfile_refs m.sql m.fuel p u db
      split
      · rename_i db1 e
        rw [e] at h
        have k : (handleRefs m.sql { RefCommand.new c.old c.new (c.name ++ [0]) with ok := true } u db1).2 = db1 := by
          unfold handleRefs
          rw [show ({ RefCommand.new c.old c.new (c.name ++ [0]) with ok := true } : RefCommand).commandType = .delete from delete_kind hd _]
        rw [k]
        exact h
      · rename_i e
        rw [e] at h
        exact h
    · rfl
  · rfl

theorem savePackfile_noErr (E : SqlExt) (fuel : Nat) (p : Pack) (path : Bytes) (db : Db) (e : GitErr) (db' : Db) : savePackfile E fuel p path db ≠ (.err e, db') := by
  unfold savePackfile
  repeat' split
  all_goals simp

/-- A deletion with a pack is a crash, or never ends. -/
theorem delete_pack_lost {X : Ext} {m : Moment} {u : Bytes} {db : Db} {c : Spec.PushCmd} (hd : c.IsDelete) (caps : List Capability) {pack : Bytes}
    (hp : (ascii "PACK").isPrefixOf pack = true) :
    (gitReceivePack (mysqlPush X m.sql m.fuel) { caps := caps, commands := [RefCommand.new c.old c.new (c.name ++ [0])], path := u, db := db } pack).unwrap = .panic ∨
    (gitReceivePack (mysqlPush X m.sql m.fuel) { caps := caps, commands := [RefCommand.new c.old c.new (c.name ++ [0])], path := u, db := db } pack).unwrap = .spin := by
  rw [gitReceivePack, if_pos hp, receiveData]
  simp only [List.getLast?_singleton, mysqlPush]
  have k : ∀ db1, handleRefs m.sql { RefCommand.new c.old c.new (c.name ++ [0]) with ok := true } u db1 = (.panic, db1) := by
    intro db1
    unfold handleRefs
    rw [show ({ RefCommand.new c.old c.new (c.name ++ [0]) with ok := true } : RefCommand).commandType = .delete from delete_kind hd _]
  split
  · split
    · simp only [k]; exact .inl rfl
    · rename_i e; exact absurd e (savePackfile_noErr _ _ _ _ _ _ _)
    · exact .inl rfl
    · exact .inr rfl
  · exact .inr rfl
  · exact .inl rfl

/-- **C89 is false** also for a client that sends a pack along, over HTTP or SSH, whatever pack, after anything anybody has done: it gets no answer (the connection is dropped, or the request never ends),
and all refs of all repositories stay as they are, also the one that was to be deleted. -/
theorem C89_both_false (P : ServerExt) (u : Bytes) (c : Spec.PushCmd) (hc : c.Ok) (hd : c.IsDelete) (caps : Bytes) (hl : caps.length ≤ 4000) (hx : ∀ x ∈ caps, x.toNat < 128)
    (pack : Bytes) (hp : (ascii "PACK").isPrefixOf pack = true) (m : Moment) (h h' : BothHist) (hsent : Spec.SentAny P u c caps pack m h h') :
    Spec.LostAny P u c caps pack m h h' ∧ (runBoth P .empty h').web.db.refs = (runBoth P .empty h).web.db.refs := by
  refine ⟨sent_lost hc hl hx hsent ?_, ?_⟩
  · unfold httpReceivePack
    rw [receive_section (mysqlPush P.X m.sql m.fuel) u _ hc hl hx pack, Res.unwrap_ok, Res.bind_ok]
    exact delete_pack_lost hd _ hp
  · cases hsent with
    | http _ g hu hg =>
      rw [runBoth_concat]
      exact delete_refs_same hu hg m _ hc hd hl hx pack
    | ssh h0 h1 h2 _ m0 m1 i ch0 ch1 ch hs hb hn1 hn2 hh p hlink =>
      rw [runBoth_concat]
      show (sshLinkStep P.X m (runBoth P .empty h).web.db ((runBoth P .empty h).link i) (.data ch pack)).2.2.refs = _
      rw [section_sent hc hl hx hs hb hn1 hn2 hh hlink]
      exact delete_pack_refs hd _ pack

/-! ## Concrete runs -/

/-- Somebody logs in and asks for the refs of `/app` to push there. -/
def deleteOpen : BothHist := [(demoMoment, .ssh 2 logIn), (demoMoment, .ssh 2 (.exec 0 (Spec.sshAsk .receivePack (ascii "/app"))))]

theorem deleteOpen_link : (runBoth demoServer .empty deleteOpen).link 2 = .ready (some { service := .receivePack, path := ascii "/app", caps := [], commands := [] }) := by
  decide +kernel

/-- Whatever others do in the meantime, for instance push the branch, the deletion is not answered and nothing changes. -/
example (h : BothHist) (hn : Spec.NotOn 2 h) :
    (sshStep polyExt demoMoment (runBoth demoServer .empty (deleteOpen ++ h)).ssh 2 (.data 0 (Spec.pushBody dropOld [] (ascii "report-status") []))).1 = [] ∧
    (runBoth demoServer .empty (deleteOpen ++ h ++ [(demoMoment, .ssh 2 (.data 0 (Spec.pushBody dropOld [] (ascii "report-status") [])))])).web =
      (runBoth demoServer .empty (deleteOpen ++ h)).web := by
  have key := C89_ssh_false demoServer (ascii "/app") 2 0 (deleteOpen ++ h)
    ⟨[(demoMoment, .ssh 2 logIn)], h, demoMoment, 0, hn, by decide, by decide, rfl, _, by rw [runBoth_append, runBoth_elsewhere demoServer h _ hn]; exact deleteOpen_link⟩
    demoMoment dropOld dropOld_ok (ascii "report-status") (by decide) (by decide)
  exact ⟨key.1, key.2.2⟩

/-- A deletion with a pack over SSH. -/
def deleteSection : BothHist := deleteOpen ++ [(demoMoment, .ssh 2 (.data 0 (Spec.pushBody dropOld [] (ascii "report-status") [])))]

example : Spec.LostAny demoServer (ascii "/app") dropOld (ascii "report-status") (ascii "PACK") demoMoment deleteSection
    (deleteSection ++ [(demoMoment, .ssh 2 (.data 0 (ascii "PACK")))]) :=
  (C89_both_false demoServer (ascii "/app") dropOld dropOld_ok ⟨rfl, by decide⟩ (ascii "report-status") (by decide) (by decide) (ascii "PACK") (by decide) demoMoment _ _
    (.ssh [(demoMoment, .ssh 2 logIn)] [] [] deleteSection demoMoment demoMoment 2 0 0 0 (by decide) (by decide) (fun _ h => nomatch h) (fun _ h => nomatch h) rfl
      (some { service := .receivePack, path := ascii "/app", caps := parseCapabilities (ascii "report-status"),
              commands := [RefCommand.new dropOld.old dropOld.new (dropOld.name ++ [0])] }) (by decide +kernel))).1

end Gust

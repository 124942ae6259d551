import Verif.Props.NoMaster
import Verif.Props.PublishBoth

/-! # C150: the refs of a repository, shown by both servers -/

namespace Gust

open Spec (nodeObj StoreReach commitsAt InRepo)

/-- While `h` goes on (from state `s` of the two servers) nobody pushes to the repository `u`, nor to a path that the database takes for the same: no pack is sent there over HTTP, and
none on an SSH connection on which the last repository named, for pushing, is `u`. -/
def Spec.NoPush (P : ServerExt) (u : Bytes) : Both → BothHist → Prop
  | _, [] => True
  | s, (m, v) :: h => m.sql.fold = P.D.fold ∧
    (match v with
    | .http r => ∀ a, route r.method r.path r.service = .receivePack a → P.D.fold a ≠ P.D.fold u
    | .ssh i (.data _ _) => ∀ p, s.link i = .ready (some p) → p.service = .receivePack → P.D.fold p.path ≠ P.D.fold u
    | .ssh _ _ => True) ∧ Spec.NoPush P u (bothStep P m s v) h

/-- Whoever names the repository `u` writes its path in the same way. -/
def Spec.OneSpelling (fold : Bytes → Bytes) (u : Bytes) (h : BothHist) : Prop := ∀ p ∈ h, ∀ a, p.2.repo = some a → fold a = fold u → a = u

/-- What a git client reads when it asks for the refs of `u` after the history `h`: over HTTP, and over SSH on every connection that is ready, it is answered, and it reads HEAD at `head`, then `refs`. -/
def Spec.ToldBoth (P : ServerExt) (u : Bytes) (t : ServiceType) (m : Moment) (h : BothHist) (head : Bytes) (refs : List (Bytes × Bytes)) : Prop :=
  (∀ g, Spec.CleanUrl u → (g = [] ∨ g = ascii ".git") → ∃ out, (serve P m (runBoth P .empty h).web (Spec.refsReq (u ++ g) t)).1 = .reply (.ok (.bytes out)) ∧
    Spec.clientHttp t out = some ((head, ascii "HEAD") :: refs)) ∧
  ∀ i ch p, (0x20 : UInt8) ∉ u → isBoundary u 0 = true → (runBoth P .empty h).link i = .ready p →
    ∃ out, (sshStep P.X m (runBoth P .empty h).ssh i (.exec ch (Spec.sshAsk t u))).1 = [(ch, out)] ∧ Spec.clientSsh out = some ((head, ascii "HEAD") :: refs)

/-- The refs of a repository that clients can be told of: different ids (C52), none of them zero, names in one line of text. -/
structure Spec.Tellable (fold : Bytes → Bytes) (refs : List RefRow) (u : Bytes) : Prop where
  ids : ((Spec.refsAt fold refs u).map RefRow.refGitId).Nodup
  text : ∀ r ∈ Spec.refsAt fold refs u, Spec.RefText r ∧ utf8Valid r.refName = true ∧ r.refGitId ≠ zeroId

/-! ## Lemmas -/

theorem gitInfoRefs_valid {t : ServiceType} {head : Bytes} {refs : List (Bytes × Bytes)} (hh : utf8Valid head = true)
    (hr : ∀ p ∈ refs, utf8Valid p.1 = true ∧ utf8Valid p.2 = true) : utf8Valid (gitInfoRefs .ssh t head refs) = true := by
  unfold gitInfoRefs buildSmartReply
  simp only [reduceCtorEq, if_false]
  refine utf8Valid_append (foldl_addPktLine_text _ _ rfl ?_) (by decide)
  intro l hl
  rcases List.mem_cons.1 hl with rfl | hl
  · unfold headLine
    refine utf8Valid_append (utf8Valid_append (utf8Valid_append (utf8Valid_append (utf8Valid_append hh (by decide)) ?_) (by decide)) ?_) (by decide)
    · split <;> decide +kernel
    · cases t <;> decide +kernel
  · obtain ⟨p, hp, rfl⟩ := List.mem_map.1 hl
    exact utf8Valid_append (utf8Valid_append (utf8Valid_append (hr p hp).1 (by decide)) (hr p hp).2) (by decide)

theorem gitInfoRefs_text {t : ServiceType} {head : Bytes} {refs : List (Bytes × Bytes)} (hh : ∀ x ∈ head, Spec.IsHexDigit x)
    (hr : ∀ p ∈ refs, (∀ x ∈ p.1, Spec.IsHexDigit x) ∧ utf8Valid p.2 = true) : utf8Valid (gitInfoRefs .ssh t head refs) = true := by
  have hex : ∀ l : Bytes, (∀ x ∈ l, Spec.IsHexDigit x) → utf8Valid l = true := fun l hl => utf8Valid_ascii l (fun x hx => by
    have h : ∀ y ∈ ([48, 49, 50, 51, 52, 53, 54, 55, 56, 57, 97, 98, 99, 100, 101, 102, 65, 66, 67, 68, 69, 70] : Bytes), y.toNat < 128 := by decide
    exact h x (hl x hx))
  exact gitInfoRefs_valid (hex _ hh) (fun p hp => ⟨hex _ (hr p hp).1, (hr p hp).2⟩)

theorem gitReceiveDb_change (X : Ext) (E : SqlExt) (fuel : Nat) (st : PushState Db) (data : Bytes) :
    gitReceiveDb (mysqlPush X E fuel) st data = st.db ∨ ∃ p, gitReceiveDb (mysqlPush X E fuel) st data = (savePackfile E fuel p st.path st.db).2 ∨
      ∃ cmd, gitReceiveDb (mysqlPush X E fuel) st data = (handleRefs E cmd st.path (savePackfile E fuel p st.path st.db).2).2 := by
  unfold gitReceiveDb
  split
  · unfold receiveDataDb
    split
    · exact .inl rfl
    · rename_i cmd hcmd
      simp only [mysqlPush]
      split
      · rename_i p hp
        refine .inr ⟨p, ?_⟩
        split
        · rename_i db1 he
          rw [show db1 = (savePackfile E fuel p st.path st.db).2 by rw [he]]
          exact .inr ⟨_, rfl⟩
        · rename_i db1 _ he
          rw [show db1 = (savePackfile E fuel p st.path st.db).2 by rw [he]]
          exact .inl rfl
      · exact .inl rfl
  · exact .inl rfl

/-- One step, once more: a request that shows refs changes the database only for the path that it names. -/
theorem both_change (P : ServerExt) (m : Moment) (s : Both) (v : Visit) :
    (bothStep P m s v).web.db = s.web.db ∨ (∃ a, v.repo = some a ∧ (bothStep P m s v).web.db = (getHeadObjectId P.X m.sql s.web.db a).2) ∨
      ∃ a file p, Sends s a file v ∧ ((bothStep P m s v).web.db = (savePackfile m.sql m.fuel p a s.web.db).2 ∨
        ∃ cmd, (bothStep P m s v).web.db = (handleRefs m.sql cmd a (savePackfile m.sql m.fuel p a s.web.db).2).2) := by
  cases v with
  | http r =>
    show (serve P m s.web r).2.db = _ ∨ (∃ a, HttpReq.repo r = some a ∧ (serve P m s.web r).2.db = _) ∨ ∃ a file p, _ ∧ ((serve P m s.web r).2.db = _ ∨ ∃ cmd, (serve P m s.web r).2.db = _)
    rw [serve_db]
    unfold HttpReq.repo Sends
    cases h : route r.method r.path r.service <;> simp only <;> (try exact .inl trivial)
    · rename_i repo t
      exact .inr (.inl ⟨repo, rfl, rfl⟩)
    · rename_i repo
      rcases httpReceiveDb_from P.X m.sql m.fuel repo r.body s.web.db with e | ⟨file, p, hf, hd, e | ⟨cmd, e⟩⟩ <;> rw [e]
      · exact .inl rfl
      · exact .inr (.inr ⟨repo, file, p, ⟨h, hf⟩, .inl rfl⟩)
      · exact .inr (.inr ⟨repo, file, p, ⟨h, hf⟩, .inr ⟨cmd, rfl⟩⟩)
  | ssh i e =>
    show (sshLinkStep P.X m s.web.db (s.link i) e).2.2 = _ ∨ (∃ a, _ ∧ (sshLinkStep P.X m s.web.db (s.link i) e).2.2 = _) ∨
      ∃ a file p, _ ∧ ((sshLinkStep P.X m s.web.db (s.link i) e).2.2 = _ ∨ ∃ cmd, (sshLinkStep P.X m s.web.db (s.link i) e).2.2 = _)
    cases hl : s.link i with
    | fresh => cases e <;> exact .inl rfl
    | hung => exact .inl rfl
    | closed => exact .inl rfl
    | ready p =>
      cases e with
      | auth u s => exact .inl rfl
      | exec ch command =>
        simp only [sshLinkStep, sshExec, Visit.repo]
        cases hc : sshCommand command with
        | ok r =>
          obtain ⟨path, t⟩ := r
          refine .inr (.inl ⟨path, rfl, ?_⟩)
          simp only [advertise_db]
        | _ => exact .inl rfl
      | data ch bytes =>
        cases p with
        | none => exact .inl rfl
        | some p =>
          simp only [sshLinkStep, sshData]
          cases hs : p.service with
          | uploadPack => exact .inl rfl
          | receivePack =>
            rcases gitReceiveDb_change P.X m.sql m.fuel { caps := p.caps, commands := p.commands, path := p.path, db := s.web.db } bytes with h | ⟨q, h⟩
            · exact .inl h
            · exact .inr (.inr ⟨p.path, bytes, q, ⟨rfl, p, hl, rfl, hs⟩, h⟩)

theorem noPush_sends {P : ServerExt} {u : Bytes} {s : Both} {m : Moment} {v : Visit} {h : BothHist} (hn : Spec.NoPush P u s ((m, v) :: h)) {a file : Bytes} (hs : Sends s a file v) :
    P.D.fold a ≠ P.D.fold u := by
  obtain ⟨_, h2, _⟩ := hn
  cases v with
  | http r => exact h2 a hs.1
  | ssh i e =>
    cases e with
    | data ch bytes =>
      obtain ⟨_, p, k1, k2, k3⟩ := hs
      rw [← k2]
      exact h2 p k1 k3
    | _ => cases hs

/-- A row of a repository stays while nobody pushes there. -/
theorem runBoth_row {P : ServerExt} {u : Bytes} {r : RefRow} (hr : r.repoPath = u) : ∀ {h : BothHist} {s : Both}, Spec.NoPush P u s h → r ∈ s.web.db.refs →
    r ∈ (runBoth P s h).web.db.refs
  | [], _, _, hm => hm
  | (m, v) :: h, s, hn, hm => by
    rw [runBoth_cons]
    refine runBoth_row hr hn.2.2 ?_
    have hf := hn.1
    rcases both_change P m s v with e | ⟨a, _, e⟩ | ⟨a, file, p, hs, e | ⟨cmd, e⟩⟩ <;> rw [e]
    · exact hm
    · exact (getHead_refsOf _ _ _ _).1 r hm
    · rw [savePackfile_refs]
      exact hm
    · have k := handleRefs_refsAt (E := m.sql) (u := u) (path := a) (by rw [hf]; exact noPush_sends hn hs) cmd (savePackfile m.sql m.fuel p a s.web.db).2
      rw [savePackfile_refs] at k
      have : r ∈ Spec.refsAt m.sql.fold s.web.db.refs u := refsAt_mem.2 ⟨hm, by rw [hr]⟩
      rw [← k] at this
      exact (refsAt_mem.1 this).1

/-- The refs of a repository with a branch master stay while nobody pushes there. -/
theorem runBoth_refsAt {P : ServerExt} {u : Bytes} (hb : (0x5c : UInt8) ∉ u) : ∀ {h : BothHist} {s : Both}, Spec.NoPush P u s h → Spec.OneSpelling P.D.fold u h →
    Spec.HasMaster P.D.fold s.web.db u → Spec.refsAt P.D.fold (runBoth P s h).web.db.refs u = Spec.refsAt P.D.fold s.web.db.refs u
  | [], _, _, _, _ => rfl
  | (m, v) :: h, s, hn, ho, hm => by
    have hf := hn.1
    have one : Spec.refsAt P.D.fold (bothStep P m s v).web.db.refs u = Spec.refsAt P.D.fold s.web.db.refs u := by
      rcases both_change P m s v with e | ⟨a, ha, e⟩ | ⟨a, file, p, hs, e | ⟨cmd, e⟩⟩ <;> rw [e]
      · by_cases e : P.D.fold a = P.D.fold u
        · obtain rfl := ho (m, v) (by simp) a ha e
          obtain ⟨_, _, _, _, e⟩ := getHead_master (X := P.X) (E := m.sql) hb (by rw [hf]; exact hm)
          rw [e]
        · rw [← hf]
          exact getHead_refsAt (by rw [hf]; exact e) _
      · rw [savePackfile_refs]
      · rw [← hf, handleRefs_refsAt (by rw [hf]; exact noPush_sends hn hs), savePackfile_refs]
    rw [runBoth_cons]
    exact (runBoth_refsAt hb hn.2.2 (fun p hp => ho p (by simp [hp])) (hasMaster_refsAt one hm)).trans one

/-- What both servers tell of a repository with a branch master, also if refs of it have the same id. -/
theorem told_any {P : ServerExt} {u : Bytes} (hb : (0x5c : UInt8) ∉ u) (t : ServiceType) (m : Moment) (hf : m.sql.fold = P.D.fold) (h : BothHist)
    (hm : Spec.HasMaster P.D.fold (runBoth P .empty h).web.db u)
    (ht : ∀ r ∈ Spec.refsAt P.D.fold (runBoth P .empty h).web.db.refs u, Spec.RefText r ∧ utf8Valid r.refName = true ∧ r.refGitId ≠ zeroId) :
    ∃ r ∈ (runBoth P .empty h).web.db.refs, r.repoPath = u ∧ Spec.isMaster P.D.fold r ∧
      Spec.ToldBoth P u t m h r.refGitId (getRefObjectId m.sql (runBoth P .empty h).web.db u) := by
  rw [← hf] at hm ht ⊢
  obtain ⟨r, h1, h2, h3, h4⟩ := getHead_master (X := P.X) hb hm
  have hr := ht r (refsAt_mem.2 ⟨h1, by rw [h2]⟩)
  refine ⟨r, h1, h2, h3, ?_, ?_⟩
  · intro g hu hg
    have hroute : route .get (u ++ g ++ ascii "/info/refs") (some t.display) = .infoRefs u t := route_discover hu hg t
    refine ⟨gitInfoRefs .http t r.refGitId (getRefObjectId m.sql (runBoth P .empty h).web.db u), ?_, ?_⟩
    · unfold serve
      simp only [Spec.refsReq, hroute, advertise, h4]
      rfl
    · rw [client_http h4 (fun x hx => (ht x hx).1), if_neg hr.2.2]
  · intro i ch p hs hbd hl
    have hc : sshCommand (Spec.sshAsk t u) = .ok (u, t) := C56_ssh_partial t u hs hbd
    refine ⟨gitInfoRefs .ssh t r.refGitId (getRefObjectId m.sql (runBoth P .empty h).web.db u), ?_, ?_⟩
    · have hv : utf8Valid (gitInfoRefs .ssh t r.refGitId (getRefObjectId m.sql (runBoth P .empty h).web.db u)) = true := by
        refine gitInfoRefs_text hr.1.2.1 ?_
        intro p hp
        obtain ⟨x, hx, e1, e2⟩ := getRefObjectId_from p hp
        rw [← e1, ← e2]
        exact ⟨(ht x hx).1.2.1, (ht x hx).2.1⟩
      show (sshLinkStep P.X m (runBoth P .empty h).web.db ((runBoth P .empty h).link i) (.exec ch (Spec.sshAsk t u))).1 = _
      simp only [hl, sshLinkStep, sshExec, hc, advertise, h4, Res.bind_ok, hv, if_true, Res.sent, id, gitInfoRefs_ne_nil, if_false]
    · rw [client_ssh h4 (fun x hx => (ht x hx).1), if_neg hr.2.2]

/-- The same if the refs have different ids: each is told once. -/
theorem told_both {P : ServerExt} {u : Bytes} (hb : (0x5c : UInt8) ∉ u) (t : ServiceType) (m : Moment) (hf : m.sql.fold = P.D.fold) (h : BothHist)
    (hm : Spec.HasMaster P.D.fold (runBoth P .empty h).web.db u) (htell : Spec.Tellable P.D.fold (runBoth P .empty h).web.db.refs u) :
    ∃ r refs, Spec.ToldBoth P u t m h r.refGitId refs ∧ r ∈ (runBoth P .empty h).web.db.refs ∧ r.repoPath = u ∧ Spec.isMaster P.D.fold r ∧
      refs.Perm ((Spec.refsAt P.D.fold (runBoth P .empty h).web.db.refs u).map (fun r => (r.refGitId, r.refName))) := by
  obtain ⟨r, h1, h2, h3, h4⟩ := told_any hb t m hf h hm htell.text
  refine ⟨r, _, h4, h1, h2, h3, ?_⟩
  rw [← hf]
  exact getRefObjectId_perm m.sql (runBoth P .empty h).web.db u (by rw [hf]; exact htell.ids)

/-- What a push that is answered does to the refs. -/
theorem pushedAny_refs {P : ServerExt} {u : Bytes} {c : Spec.PushCmd} (hc : c.Ok) (hnew : c.new ≠ zeroId) {caps : Bytes} (hcaps : caps.length ≤ 4000) (hascii : ∀ x ∈ caps, x.toNat < 128)
    {pack : Bytes} (hpack : (ascii "PACK").isPrefixOf pack = true) {rep : Bytes} {m : Moment} {h h' : BothHist} (hpush : Spec.PushedAny P u c caps pack rep m h h')
    (hf : m.sql.fold = P.D.fold) (hacc : ∀ n rows, m.sql.acceptRefs n rows = true) :
    (c.old = zeroId ∧ (runBoth P .empty h').web.db.refs = (runBoth P .empty h).web.db.refs ++ [{ repoPath := u, refName := c.name ++ [0], refGitId := c.new }]) ∨
      c.old ≠ zeroId ∧ ∃ pre r post, (runBoth P .empty h).web.db.refs = pre ++ r :: post ∧ P.D.fold r.repoPath = P.D.fold u ∧ P.D.fold r.refGitId = P.D.fold c.old ∧
        (runBoth P .empty h').web.db.refs = pre ++ { r with refGitId := c.new } :: post := by
  obtain ⟨st', hp, hdb, _⟩ := pushedAny_http hc hcaps hascii hpush
  rw [hdb]
  rw [push_answer _ u _ c hc caps hcaps hascii pack hpack] at hp
  obtain ⟨p, db1, k1, k2, k3, _⟩ := receiveData_ok rfl (Res.unwrap_eq_ok.1 hp)
  simp only at k1 k2 k3
  have hrefs : db1.refs = (runBoth P .empty h).web.db.refs := by
    have := savePackfile_refs m.sql m.fuel p u (runBoth P .empty h).web.db
    rw [show savePackfile m.sql m.fuel p u (runBoth P .empty h).web.db = (.ok (), db1) from k2] at this
    exact this
  have k3' : handleRefs m.sql { RefCommand.new c.old c.new (c.name ++ [0]) with ok := true } u db1 = (.ok (), st'.db) := k3
  by_cases e : c.old = zeroId
  · refine .inl ⟨e, ?_⟩
    have hk : (RefCommand.new c.old c.new (c.name ++ [0])).commandType = .create := by
      simp only [RefCommand.new, e, if_true]
    simp only [handleRefs, hk, Prod.mk.injEq, true_and] at k3'
    rw [← k3', saveRefs, chunks_one]
    simp only [insertRefs, hacc, if_true]
    simp [RefCommand.new, hrefs]
  · refine .inr ⟨e, ?_⟩
    have hk : (RefCommand.new c.old c.new (c.name ++ [0])).commandType = .update := by
      simp only [RefCommand.new]
      rw [if_neg (fun h => e h.symm), if_neg (fun h => hnew h.symm)]
    rcases C53_update_scope_partial m.sql { RefCommand.new c.old c.new (c.name ++ [0]) with ok := true } u db1 hk with
      ⟨pre, r, post, q1, q2, q3, q4⟩ | ⟨_, q⟩
    · rw [k3'] at q4
      have q5 := (Prod.mk.inj q4).2
      rw [hf] at q2 q3
      refine ⟨pre, r, post, by rw [← hrefs, q1], q2, by simpa [RefCommand.new] using q3, ?_⟩
      rw [q5]
      simp [RefCommand.new]
    · rw [k3'] at q
      exact absurd (Prod.mk.inj q).1 (by simp)

/-! ## The theorems -/

/-- **C150 (partial)** After anything anybody has done on the two servers, a push that creates a branch, or moves the only one at its old id, is answered over HTTP or SSH; then anything happens on both
servers except a push to the repository. Whoever asks for the refs now, over HTTP or on any SSH connection, is answered and reads the same list from both: all refs of the repository, the pushed id under
the pushed name (with a NUL byte appended, `C150_name_false`) among them, and as HEAD if it is the only master. (Missing from the full claim: the name; repositories without a branch master, see C122, and
with branches at the same commit, see C52; inserts of refs that fail, see C117.) -/
theorem C150_shown_partial (P : ServerExt) (u : Bytes) (hb : (0x5c : UInt8) ∉ u) (c : Spec.PushCmd) (hc : c.Ok) (hnew : c.new ≠ zeroId)
    (caps : Bytes) (hcaps : caps.length ≤ 4000) (hascii : ∀ x ∈ caps, x.toNat < 128) (pack : Bytes) (hpack : (ascii "PACK").isPrefixOf pack = true) (rep : Bytes)
    (m1 m2 : Moment) (hf1 : m1.sql.fold = P.D.fold) (hf2 : m2.sql.fold = P.D.fold) (hacc : ∀ n rows, m1.sql.acceptRefs n rows = true) (h h' h2 : BothHist)
    (hkind : c.old = zeroId ∨ ∀ r ∈ (runBoth P .empty h).web.db.refs, P.D.fold r.repoPath = P.D.fold u → P.D.fold r.refGitId = P.D.fold c.old →
      r = { repoPath := u, refName := c.name ++ [0], refGitId := c.old })
    (hpush : Spec.PushedAny P u c caps pack rep m1 h h') (hno : Spec.NoPush P u (runBoth P .empty h') h2)
    (hm : Spec.HasMaster P.D.fold (runBoth P .empty (h' ++ h2)).web.db u) (htell : Spec.Tellable P.D.fold (runBoth P .empty (h' ++ h2)).web.db.refs u) (t : ServiceType) :
    ∃ head refs, Spec.ToldBoth P u t m2 (h' ++ h2) head refs ∧ (c.new, c.name ++ [0]) ∈ refs ∧
      refs.Perm ((Spec.refsAt P.D.fold (runBoth P .empty (h' ++ h2)).web.db.refs u).map (fun r => (r.refGitId, r.refName))) ∧
      ((∀ r ∈ (runBoth P .empty (h' ++ h2)).web.db.refs, r.repoPath = u → Spec.isMaster P.D.fold r → r.refName = c.name ++ [0]) →
        (∀ r ∈ (runBoth P .empty (h' ++ h2)).web.db.refs, r.repoPath = u → r.refName = c.name ++ [0] → r.refGitId = c.new) → head = c.new) := by
  have hrow : ({ repoPath := u, refName := c.name ++ [0], refGitId := c.new } : RefRow) ∈ (runBoth P .empty h').web.db.refs := by
    rcases pushedAny_refs hc hnew hcaps hascii hpack hpush hf1 hacc with ⟨_, e⟩ | ⟨ho, pre, r, post, e1, e2, e3, e4⟩
    · rw [e]; simp
    · rcases hkind with hk | hk
      · exact absurd hk ho
      · have := hk r (by rw [e1]; simp) e2 e3
        rw [e4, this]
        simp
  have hrow2 := runBoth_row (P := P) (u := u) rfl hno hrow
  rw [← runBoth_append] at hrow2
  obtain ⟨r, refs, k1, k2, k3, k4, k5⟩ := told_both hb t m2 hf2 (h' ++ h2) hm htell
  refine ⟨r.refGitId, refs, k1, k5.mem_iff.2 (List.mem_map.2 ⟨_, refsAt_mem.2 ⟨hrow2, rfl⟩, rfl⟩), k5, fun a b => b r k2 k3 (a r k2 k3 k4)⟩

/-- **C150 (partial)** Whatever is done on the two servers except pushing to a repository, clients are shown the same refs before and after, over HTTP and over SSH, and the same HEAD if there is
one master. (As above; everybody writes the path of the repository in the same way, see `C97_case_false`.) -/
theorem C150_unaffected_partial (P : ServerExt) (u : Bytes) (hb : (0x5c : UInt8) ∉ u) (h h2 : BothHist) (hm : Spec.HasMaster P.D.fold (runBoth P .empty h).web.db u)
    (htell : Spec.Tellable P.D.fold (runBoth P .empty h).web.db.refs u) (hno : Spec.NoPush P u (runBoth P .empty h) h2) (hone : Spec.OneSpelling P.D.fold u h2)
    (t t' : ServiceType) (m m' : Moment) (hf : m.sql.fold = P.D.fold) (hf' : m'.sql.fold = P.D.fold) :
    ∃ head head' refs refs', Spec.ToldBoth P u t m h head refs ∧ Spec.ToldBoth P u t' m' (h ++ h2) head' refs' ∧ refs.Perm refs' ∧
      ((∀ r ∈ (runBoth P .empty h).web.db.refs, ∀ r' ∈ (runBoth P .empty h).web.db.refs, r.repoPath = u → r'.repoPath = u → Spec.isMaster P.D.fold r →
        Spec.isMaster P.D.fold r' → r = r') → head = head') := by
  have e := runBoth_refsAt hb hno hone hm
  obtain ⟨r, refs, a1, a2, a3, a4, a5⟩ := told_both hb t m hf h hm htell
  have hm' : Spec.HasMaster P.D.fold (runBoth P .empty (h ++ h2)).web.db u := by rw [runBoth_append]; exact hasMaster_refsAt e hm
  have e' : Spec.refsAt P.D.fold (runBoth P .empty (h ++ h2)).web.db.refs u = Spec.refsAt P.D.fold (runBoth P .empty h).web.db.refs u := by rw [runBoth_append]; exact e
  obtain ⟨r', refs', b1, b2, b3, b4, b5⟩ := told_both hb t' m' hf' (h ++ h2) hm' ⟨by rw [e']; exact htell.ids, by rw [e']; exact htell.text⟩
  refine ⟨_, _, refs, refs', a1, b1, a5.trans (by rw [← e']; exact b5.symm), fun hu => ?_⟩
  have k : r' ∈ Spec.refsAt P.D.fold (runBoth P .empty h).web.db.refs u := by rw [← e']; exact refsAt_mem.2 ⟨b2, by rw [b3]⟩
  rw [hu r a2 r' (refsAt_mem.1 k).1 a3 b3 a4 b4]

/-- **C150 is false** as far as the name goes, on both servers and after every history: if no ref of the repository had the pushed name before, none has it after the push is answered, and no client is
shown it until somebody pushes again. -/
theorem C150_name_false (P : ServerExt) (u : Bytes) (hb : (0x5c : UInt8) ∉ u) (c : Spec.PushCmd) (hc : c.Ok) (hnew : c.new ≠ zeroId)
    (caps : Bytes) (hcaps : caps.length ≤ 4000) (hascii : ∀ x ∈ caps, x.toNat < 128) (pack : Bytes) (hpack : (ascii "PACK").isPrefixOf pack = true) (rep : Bytes)
    (m1 m2 : Moment) (hf1 : m1.sql.fold = P.D.fold) (hf2 : m2.sql.fold = P.D.fold) (hacc : ∀ n rows, m1.sql.acceptRefs n rows = true) (h h' h2 : BothHist)
    (hold : ∀ r ∈ Spec.refsAt P.D.fold (runBoth P .empty h).web.db.refs u, r.refName ≠ c.name)
    (hpush : Spec.PushedAny P u c caps pack rep m1 h h') (hno : Spec.NoPush P u (runBoth P .empty h') h2) (hone : Spec.OneSpelling P.D.fold u h2)
    (hm : Spec.HasMaster P.D.fold (runBoth P .empty h').web.db u) (htell : Spec.Tellable P.D.fold (runBoth P .empty h').web.db.refs u) (t : ServiceType) :
    ∃ head refs, Spec.ToldBoth P u t m2 (h' ++ h2) head refs ∧ ∀ p ∈ refs, p.2 ≠ c.name := by
  have e := runBoth_refsAt hb hno hone hm
  rw [← runBoth_append] at e
  have hm' : Spec.HasMaster P.D.fold (runBoth P .empty (h' ++ h2)).web.db u := hasMaster_refsAt e hm
  obtain ⟨r, refs, k1, _, _, _, k5⟩ := told_both hb t m2 hf2 (h' ++ h2) hm' ⟨by rw [e]; exact htell.ids, by rw [e]; exact htell.text⟩
  refine ⟨_, refs, k1, fun p hp => ?_⟩
  obtain ⟨x, hx, rfl⟩ := List.mem_map.1 (k5.mem_iff.1 hp)
  rw [e] at hx
  obtain ⟨hx1, hx2⟩ := refsAt_mem.1 hx
  rcases pushedAny_refs hc hnew hcaps hascii hpack hpush hf1 hacc with ⟨_, e1⟩ | ⟨_, pre, r0, post, e1, e2, e3, e4⟩
  · rw [e1] at hx1
    rcases List.mem_append.1 hx1 with hx1 | hx1
    · exact hold x (refsAt_mem.2 ⟨hx1, hx2⟩)
    · rw [List.mem_singleton.1 hx1]
      simp
  · rw [e4] at hx1
    rcases List.mem_append.1 hx1 with hx1 | hx1
    · exact hold x (refsAt_mem.2 ⟨by rw [e1]; simp [hx1], hx2⟩)
    · rcases List.mem_cons.1 hx1 with rfl | hx1
      · exact hold r0 (refsAt_mem.2 ⟨by rw [e1]; simp, e2⟩)
      · exact hold x (refsAt_mem.2 ⟨by rw [e1]; simp [hx1], hx2⟩)

/-! ## C77, C88: both servers -/

/-- **C77 (partial)** The same for any history of both servers: every commit stored for a path can be read, and everything reachable from it is stored, readable and under its own id. -/
theorem C77_both_partial (P : ServerExt) (path : Bytes) (h : BothHist) (hf : Spec.SameFoldAny P.D.fold h) (hab : Spec.NoneAboveAny P.D.fold path h)
    (hu : UniqueIds P.X (runBoth P .empty h).web.db) :
    ∀ r ∈ commitsAt P.D.fold (runBoth P .empty h).web.db.commits path, ∃ c, Commit.decode r.data = .ok c ∧
      (∃ n ∈ (runBoth P .empty h).web.db.nodes, n.gitId = Hash.toPlainStr c.treeId ∧ n.nodeType = ascii "tree") ∧
      ∀ x, StoreReach (runBoth P .empty h).web.db.nodes c.treeId x → ∃ n ∈ (runBoth P .empty h).web.db.nodes, n.gitId = Hash.toPlainStr x ∧
        idOf P.X (nodeObj n) = x ∧ (n.nodeType = ascii "tree" ∧ (∃ items, decodeTree n.data = .ok items) ∨ n.nodeType = ascii "blob") :=
  C71_complete (runBoth_inv P path h hf hab).2.2 hu

/-- **C88** Over both servers at once, in any state: every ref that was there is there afterwards, at its place and under its path and name. -/
theorem C88_both (P : ServerExt) : ∀ (h : BothHist) (s : Both), Spec.refNames s.web.db <+: Spec.refNames (runBoth P s h).web.db
  | [], _ => List.prefix_refl _
  | (m, v) :: h, s => by
    rw [runBoth_cons]
    refine List.IsPrefix.trans ?_ (C88_both P h _)
    rcases both_change P m s v with e | ⟨a, _, e⟩ | ⟨a, file, p, _, e | ⟨cmd, e⟩⟩ <;> rw [e]
    · exact getHead_names _ _ _ _
    · rw [savePackfile_names]
    · have h := handleRefs_names m.sql cmd a (savePackfile m.sql m.fuel p a s.web.db).2
      rw [savePackfile_names] at h
      exact h

end Gust

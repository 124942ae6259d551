import Verif.Spec.Both
import Verif.Props.Ssh

/-! # Lemmas about both servers on one database -/

namespace Gust

open Spec (nodeObj StoreReach commitsAt InRepo)

theorem runBoth_append (P : ServerExt) (s : Both) (h1 h2 : BothHist) : runBoth P s (h1 ++ h2) = runBoth P (runBoth P s h1) h2 := List.foldl_append

theorem runBoth_concat (P : ServerExt) (s : Both) (h : BothHist) (m : Moment) (v : Visit) : runBoth P s (h ++ [(m, v)]) = bothStep P m (runBoth P s h) v := by
  rw [runBoth_append]; rfl

theorem runBoth_cons (P : ServerExt) (s : Both) (h : BothHist) (m : Moment) (v : Visit) : runBoth P s ((m, v) :: h) = runBoth P (bothStep P m s v) h := rfl

/-- What can happen to the database: one of these, for the repository `a`, where `S` says what packs are sent. -/
inductive DbEffect (X : Ext) (E : SqlExt) (fuel : Nat) (a : Bytes) (S : Bytes → Prop) (db : Db) : Db → Prop
  | same : DbEffect X E fuel a S db db
  | head : DbEffect X E fuel a S db (getHeadObjectId X E db a).2
  | push (file : Bytes) (p : Pack) : S file → decodePack X (getHashObject X E db) fuel file = .ok p → DbEffect X E fuel a S db (savePackfile E fuel p a db).2
  | pushRef (file : Bytes) (p : Pack) (cmd : RefCommand) : S file → decodePack X (getHashObject X E db) fuel file = .ok p →
      DbEffect X E fuel a S db (handleRefs E cmd a (savePackfile E fuel p a db).2).2

theorem DbEffect.weaken {X : Ext} {E : SqlExt} {fuel : Nat} {a : Bytes} {S S' : Bytes → Prop} {db db' : Db} (h : DbEffect X E fuel a S db db') (hs : ∀ f, S f → S' f) :
    DbEffect X E fuel a S' db db' := by
  cases h with
  | same => exact .same
  | head => exact .head
  | push file p h1 h2 => exact .push file p (hs _ h1) h2
  | pushRef file p cmd h1 h2 => exact .pushRef file p cmd (hs _ h1) h2

theorem effect_paths {X : Ext} {E : SqlExt} {fuel : Nat} {a : Bytes} {S : Bytes → Prop} {db db' : Db} (h : DbEffect X E fuel a S db db') :
    ∀ x ∈ db'.refs, x.repoPath = a ∨ ∃ x' ∈ db.refs, x'.repoPath = x.repoPath := by
  intro x hx
  cases h with
  | same => exact .inr ⟨x, hx, rfl⟩
  | head => exact getHead_paths _ _ _ _ x hx
  | push file p _ hd =>
    rw [savePackfile_refs] at hx
    exact .inr ⟨x, hx, rfl⟩
  | pushRef file p cmd _ hd =>
    rcases handleRefs_paths _ _ _ _ x hx with h | ⟨x', h1, h2⟩
    · exact .inl h
    · rw [savePackfile_refs] at h1
      exact .inr ⟨x', h1, h2⟩

theorem effect_extends {X : Ext} {E : SqlExt} {fuel : Nat} {a : Bytes} {S : Bytes → Prop} {db db' : Db} (h : DbEffect X E fuel a S db db') : Extends db db' := by
  cases h with
  | same => exact ⟨fun _ h => h, fun _ h => h⟩
  | head =>
    obtain ⟨h1, h2, _⟩ := getHead_only X E a db
    exact ⟨fun n hn => by rw [h1]; exact hn, h2⟩
  | push file p _ hd =>
    obtain ⟨rows, h1, _, h3, _⟩ := push_effect hd E fuel a db
    exact ⟨fun n hn => by rw [h1]; exact List.mem_append_left _ hn, h3⟩
  | pushRef file p cmd _ hd =>
    obtain ⟨rows, h1, _, h3, _⟩ := push_effect hd E fuel a db
    obtain ⟨k1, k2⟩ := handleRefs_only E cmd a (savePackfile E fuel p a db).2
    exact ⟨fun n hn => by rw [k1, h1]; exact List.mem_append_left _ hn, fun c hc => by rw [k2]; exact h3 c hc⟩

theorem effect_step {X : Ext} {E : SqlExt} {fuel : Nat} {a path : Bytes} {S : Bytes → Prop} {db db' : Db} (h : DbEffect X E fuel a S db db') {fold : Bytes → Bytes}
    (hrun : StoreRun X fold path db) (hf : E.fold = fold)
    (hh : fold a = fold path → ∀ x ∈ db.refs, pathStartsWith a x.repoPath = true → x.repoPath = a) : StoreRun X fold path db' := by
  cases h with
  | same => exact hrun
  | head =>
    refine .head E a db hrun hf ?_
    by_cases he : fold a = fold path
    · exact .inr (getHead_same _ _ _ _ (hh he))
    · exact .inl he
  | push file p _ hd => exact .push E fuel file p a db hrun hf hd
  | pushRef file p cmd _ hd => exact .ref E cmd a _ (.push E fuel file p a db hrun hf hd) hf

theorem advertise_db (X : Ext) (E : SqlExt) (pr : Protocol) (t : ServiceType) (db : Db) (path : Bytes) :
    (advertise X E pr t db path).2 = (getHeadObjectId X E db path).2 := by
  unfold advertise
  rcases getHeadObjectId X E db path with ⟨r, db⟩
  cases r <;> rfl

theorem gitReceiveDb_effect (X : Ext) (E : SqlExt) (fuel : Nat) (st : PushState Db) (data : Bytes) :
    DbEffect X E fuel st.path (· = data) st.db (gitReceiveDb (mysqlPush X E fuel) st data) := by
  unfold gitReceiveDb
  split
  · unfold receiveDataDb
    split
    · exact .same
    · rename_i cmd hcmd
      simp only [mysqlPush]
      split
      · rename_i p hp
        split
        · rename_i db1 he
          rw [show db1 = (savePackfile E fuel p st.path st.db).2 by rw [he]]
          exact .pushRef data p _ rfl hp
        · rename_i db1 _ he
          rw [show db1 = (savePackfile E fuel p st.path st.db).2 by rw [he]]
          exact .push data p rfl hp
      · exact .same
  · exact .same

/-- One request over HTTP. -/
theorem http_effect (P : ServerExt) (m : Moment) (s : ServerState) (r : HttpReq) :
    (serve P m s r).2.db = s.db ∨ ∃ a, r.repo = some a ∧
      DbEffect P.X m.sql m.fuel a (fun file => route r.method r.path r.service = .receivePack a ∧ file = Spec.packPart r.body) s.db (serve P m s r).2.db := by
  rw [serve_db]
  unfold HttpReq.repo
  cases h : route r.method r.path r.service <;> simp only <;> (try exact .inl trivial)
  · rename_i repo t
    exact .inr ⟨repo, rfl, .head⟩
  · rename_i repo
    rcases httpReceiveDb_from P.X m.sql m.fuel repo r.body s.db with e | ⟨file, p, hf, hd, e | ⟨cmd, e⟩⟩ <;> rw [e]
    · exact .inl rfl
    · exact .inr ⟨repo, rfl, .push file p ⟨rfl, hf⟩ hd⟩
    · exact .inr ⟨repo, rfl, .pushRef file p cmd ⟨rfl, hf⟩ hd⟩

/-- One message over SSH: for the repository that it names, or for the one of the session. -/
theorem ssh_effect (X : Ext) (m : Moment) (db : Db) (l : SshLink) (e : SshEvent) :
    (sshLinkStep X m db l e).2.2 = db ∨ ∃ a, ((∃ p, l = .ready (some p) ∧ p.path = a) ∨ ∀ i, (Visit.ssh i e).repo = some a) ∧
      DbEffect X m.sql m.fuel a (fun file => (∃ p, l = .ready (some p) ∧ p.path = a ∧ p.service = .receivePack) ∧ ∃ ch, e = .data ch file) db (sshLinkStep X m db l e).2.2 := by
  cases l with
  | fresh => cases e <;> exact .inl rfl
  | hung => exact .inl rfl
  | closed => exact .inl rfl
  | ready p =>
    cases e with
    | auth u s => exact .inl rfl
    | exec ch command =>
      simp only [sshLinkStep, sshExec, Visit.repo]
      cases hc : sshCommand command with
      | ok r =>
        obtain ⟨path, t⟩ := r
        refine .inr ⟨path, .inr (fun _ => rfl), ?_⟩
        simp only [advertise_db]
        exact .head
      | _ => exact .inl rfl
    | data ch bytes =>
      cases p with
      | none => exact .inl rfl
      | some p =>
        simp only [sshLinkStep, sshData]
        cases hs : p.service with
        | uploadPack => exact .inl rfl
        | receivePack =>
          refine .inr ⟨p.path, .inl ⟨p, rfl, rfl⟩, ?_⟩
          exact (gitReceiveDb_effect X m.sql m.fuel { caps := p.caps, commands := p.commands, path := p.path, db := db } bytes).weaken
            (fun file hf => ⟨⟨p, rfl, rfl, hs⟩, ch, by rw [hf]⟩)

/-- The repository of a session was named by a message on its connection. -/
theorem ssh_session (X : Ext) (m : Moment) (db : Db) (l : SshLink) (e : SshEvent) (p : SshProto) (h : (sshLinkStep X m db l e).2.1 = .ready (some p)) :
    (∃ q, l = .ready (some q) ∧ q.path = p.path) ∨ ∀ i, (Visit.ssh i e).repo = some p.path := by
  cases l with
  | fresh =>
    cases e with
    | auth u s =>
      simp only [sshLinkStep] at h
      split at h <;> cases h
    | _ => cases h
  | hung => cases h
  | closed => cases h
  | ready q =>
    cases e with
    | auth u s =>
      cases h
      exact .inl ⟨p, rfl, rfl⟩
    | exec ch command =>
      simp only [sshLinkStep] at h
      simp only [Visit.repo]
      cases hc : sshCommand command with
      | ok r =>
        obtain ⟨path, t⟩ := r
        have := sshExec_ready hc h
        cases this
        exact .inr (fun _ => rfl)
      | _ =>
        simp only [sshExec, hc] at h
        cases h
    | data ch bytes =>
      cases q with
      | none => cases h
      | some q =>
        refine .inl ⟨q, rfl, ?_⟩
        simp only [sshLinkStep, sshData] at h
        cases hs : q.service with
        | uploadPack =>
          rw [hs] at h
          simp only at h
          revert h
          generalize sshUploadPack _ _ _ _ _ = r
          cases r <;> intro h <;> simp only [Res.link, SshLink.ready.injEq, reduceCtorEq] at h
          cases h
          rfl
        | receivePack =>
          rw [hs] at h
          simp only at h
          revert h
          generalize sshReceivePack _ _ _ = r
          cases r <;> intro h <;> simp only [Res.link, SshLink.ready.injEq, reduceCtorEq] at h
          cases h
          rfl

/-- The pack that a step carries, for the repository `a`. -/
def Sends (s : Both) (a file : Bytes) : Visit → Prop
  | .http r => route r.method r.path r.service = .receivePack a ∧ file = Spec.packPart r.body
  | .ssh i (.data _ bytes) => file = bytes ∧ ∃ p, s.link i = .ready (some p) ∧ p.path = a ∧ p.service = .receivePack
  | .ssh _ _ => False

/-- One step, whichever server takes it. -/
theorem both_effect (P : ServerExt) (m : Moment) (s : Both) (v : Visit) :
    (bothStep P m s v).web.db = s.web.db ∨ ∃ a, ((∃ i p, s.link i = .ready (some p) ∧ p.path = a) ∨ v.repo = some a) ∧
      DbEffect P.X m.sql m.fuel a (fun file => Sends s a file v) s.web.db (bothStep P m s v).web.db := by
  cases v with
  | http r =>
    rcases http_effect P m s.web r with h | ⟨a, h1, h2⟩
    · exact .inl h
    · exact .inr ⟨a, .inr h1, h2⟩
  | ssh i e =>
    rcases ssh_effect P.X m s.web.db (s.link i) e with h | ⟨a, h1, h2⟩
    · exact .inl h
    · refine .inr ⟨a, ?_, h2.weaken ?_⟩
      rotate_left
      · rintro file ⟨hp, ch, rfl⟩
        exact ⟨rfl, hp⟩
      rcases h1 with ⟨p, h1, h3⟩ | h1
      · exact .inl ⟨i, p, h1, h3⟩
      · exact .inr (h1 i)

theorem both_extends (P : ServerExt) (m : Moment) (s : Both) (v : Visit) : Extends s.web.db (bothStep P m s v).web.db := by
  rcases both_effect P m s v with h | ⟨a, _, h⟩
  · rw [h]; exact ⟨fun _ h => h, fun _ h => h⟩
  · exact effect_extends h

theorem runBoth_extends (P : ServerExt) : ∀ (h : BothHist) (s : Both), Extends s.web.db (runBoth P s h).web.db
  | [], _ => ⟨fun _ h => h, fun _ h => h⟩
  | (m, v) :: h, s => (both_extends P m s v).trans (runBoth_extends P h _)

/-- The names of the history. -/
def NamedAny (h : BothHist) (a : Bytes) : Prop := ∃ p ∈ h, p.2.repo = some a

/-- What holds after any history: the paths of the stored refs and of the sessions have been named, and the database is as requests leave it. -/
theorem runBoth_inv (P : ServerExt) (path : Bytes) (h : BothHist) (hf : Spec.SameFoldAny P.D.fold h) (hab : Spec.NoneAboveAny P.D.fold path h) :
    (∀ x ∈ (runBoth P .empty h).web.db.refs, NamedAny h x.repoPath) ∧ (∀ i p, (runBoth P .empty h).link i = .ready (some p) → NamedAny h p.path) ∧
      StoreRun P.X P.D.fold path (runBoth P .empty h).web.db := by
  induction hn : h.length generalizing h with
  | zero =>
    have : h = [] := List.length_eq_zero_iff.1 hn
    subst this
    exact ⟨(by intro x hx; cases hx), (by intro i p hp; cases hp), .empty⟩
  | succ n ih =>
    have hne : h ≠ [] := by rintro rfl; cases hn
    obtain ⟨h', ⟨m, v⟩, rfl⟩ : ∃ h' q, h = h' ++ [q] := ⟨h.dropLast, h.getLast hne, (List.dropLast_append_getLast hne).symm⟩
    obtain ⟨i1, i2, i3⟩ := ih h' (fun p hp => hf p (by simp [hp])) (fun p hp q hq => hab p (by simp [hp]) q (by simp [hq])) (by simpa using hn)
    rw [runBoth_concat]
    have up : ∀ {a}, NamedAny h' a → NamedAny (h' ++ [(m, v)]) a := by
      rintro a ⟨p, hp, e⟩
      exact ⟨p, by simp [hp], e⟩
    have last : ∀ {a}, v.repo = some a → NamedAny (h' ++ [(m, v)]) a := fun e => ⟨(m, v), by simp, e⟩
    refine ⟨?_, ?_, ?_⟩
    · intro x hx
      rcases both_effect P m (runBoth P .empty h') v with h | ⟨a, ha, he⟩
      · rw [h] at hx
        exact up (i1 x hx)
      · rcases effect_paths he x hx with e | ⟨x', h1, h2⟩
        · rcases ha with ⟨i, p, h1, h2⟩ | ha
          · rw [e, ← h2]
            exact up (i2 i p h1)
          · rw [e]
            exact last ha
        · rw [← h2]
          exact up (i1 x' h1)
    · intro i p hp
      cases v with
      | http r => exact up (i2 i p hp)
      | ssh j e =>
        by_cases hij : i = j
        · subst hij
          rw [show (bothStep P m (runBoth P .empty h') (.ssh i e)).link i = (sshStep P.X m (runBoth P .empty h').ssh i e).2.link i from rfl, sshStep_self] at hp
          rcases ssh_session _ _ _ _ _ _ hp with ⟨q, h1, h2⟩ | h1
          · rw [← h2]
            exact up (i2 i q h1)
          · exact last (h1 i)
        · rw [show (bothStep P m (runBoth P .empty h') (.ssh j e)).link i = (sshStep P.X m (runBoth P .empty h').ssh j e).2.link i from rfl, sshStep_other hij] at hp
          exact up (i2 i p hp)
    · rcases both_effect P m (runBoth P .empty h') v with h | ⟨a, ha, he⟩
      · rw [h]
        exact i3
      · refine effect_step he i3 (hf (m, v) (by simp)) ?_
        intro hfa x hx hp
        obtain ⟨p, hp1, hp2⟩ := up (i1 x hx)
        obtain ⟨q, hq1, hq2⟩ : NamedAny (h' ++ [(m, v)]) a := by
          rcases ha with ⟨i, p, h1, h2⟩ | ha
          · rw [← h2]
            exact up (i2 i p h1)
          · exact last ha
        exact hab p hp1 q hq1 _ _ hp2 hq2 hfa hp

/-- What happens elsewhere leaves a connection as it is. -/
theorem runBoth_elsewhere (P : ServerExt) {i : Nat} : ∀ (h : BothHist) (s : Both), Spec.NotOn i h → (runBoth P s h).link i = s.link i
  | [], _, _ => rfl
  | (m, v) :: h, s, hn => by
    rw [runBoth_cons, runBoth_elsewhere P h _ (fun p hp => hn p (.tail _ hp))]
    cases v with
    | http r => rfl
    | ssh j e =>
      have hij : i ≠ j := by
        rintro rfl
        exact hn _ (.head _) e rfl
      exact sshStep_other hij

end Gust

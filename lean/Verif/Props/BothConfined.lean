import Verif.Props.BothExamples
import Verif.Props.Confined

/-! # C116: a repository serves, over HTTP and SSH, only what was pushed to it over HTTP or SSH -/

namespace Gust

open Spec (nodeObj StoreReach commitsAt InRepo)

/-! ## What clients have sent -/

/-- What a connection is open for after one more message: a command that names a repository and a service opens it for them. -/
def Spec.reopen (s : Option (Bytes × ServiceType)) : SshEvent → Option (Bytes × ServiceType)
  | .exec _ command =>
    match sshCommand command with
    | .ok a => some a
    | _ => s
  | _ => s

/-- What connection `i` was last opened for. -/
def Spec.openFor (i : Nat) (h : BothHist) : Option (Bytes × ServiceType) :=
  h.foldl (fun s p => match p.2 with
    | .ssh j e => if i = j then Spec.reopen s e else s
    | .http _ => s) none

/-- The request or message `v`, coming after the history `h`, carries the pack `file` to the repository `a`: as the pack in the body of a push over HTTP, or as a message on a connection
opened for pushing to `a`. -/
inductive Spec.Carries (h : BothHist) (a file : Bytes) : Visit → Prop
  | http (r : HttpReq) (hr : route r.method r.path r.service = .receivePack a) (hf : file = Spec.packPart r.body) : Carries h a file (.http r)
  | ssh (i ch : Nat) (ho : Spec.openFor i h = some (a, .receivePack)) : Carries h a file (.ssh i (.data ch file))

/-- A pack that a client sent, over HTTP or SSH, to a path the database takes for `path`, as decoded when it arrived. -/
def Spec.SentPack (P : ServerExt) (path : Bytes) (h : BothHist) (p : Pack) : Prop :=
  ∃ h1 m v h2 a file, h = h1 ++ (m, v) :: h2 ∧ Spec.Carries h1 a file v ∧ P.D.fold a = P.D.fold path ∧
    decodePack P.X (getHashObject P.X m.sql (runBoth P .empty h1).web.db) m.fuel file = .ok p

/-- An object that some client sent to the path, over HTTP or SSH. -/
def Spec.SentTo (P : ServerExt) (path : Bytes) (h : BothHist) (o : Spec.Obj) : Prop :=
  ∃ p, Spec.SentPack P path h p ∧ p.result.hashObject (idOf P.X o) = some (metaOf P.X o)

theorem Spec.SentPack.more {P : ServerExt} {path : Bytes} {h : BothHist} {p : Pack} (hp : Spec.SentPack P path h p) (h' : BothHist) : Spec.SentPack P path (h ++ h') p := by
  obtain ⟨h1, m, v, h2, a, file, e, rest⟩ := hp
  exact ⟨h1, m, v, h2 ++ h', a, file, by rw [e]; simp, rest⟩

/-! ## The session of a connection is what it was last opened for -/

theorem reopen_link (X : Ext) (m : Moment) (db : Db) (l : SshLink) (e : SshEvent) (s : Option (Bytes × ServiceType))
    (hl : ∀ q, l = .ready (some q) → s = some (q.path, q.service)) (p : SshProto) (h : (sshLinkStep X m db l e).2.1 = .ready (some p)) :
    Spec.reopen s e = some (p.path, p.service) := by
  cases l with
  | fresh =>
    cases e with
    | auth u s =>
      simp only [sshLinkStep] at h
      split at h <;> cases h
    | _ => cases h
  | hung => cases h
  | closed => cases h
  | ready q =>
    cases e with
    | auth u s =>
      cases h
      exact hl p rfl
    | exec ch command =>
      simp only [sshLinkStep] at h
      simp only [Spec.reopen]
      cases hc : sshCommand command with
      | ok r =>
        obtain ⟨path, t⟩ := r
        have := sshExec_ready hc h
        cases this
        rfl
      | _ =>
        simp only [sshExec, hc] at h
        cases h
    | data ch bytes =>
      cases q with
      | none => cases h
      | some q =>
        simp only [Spec.reopen]
        rw [hl q rfl]
        simp only [sshLinkStep, sshData] at h
        cases hs : q.service with
        | uploadPack =>
          rw [hs] at h
          simp only at h
          revert h
          generalize sshUploadPack _ _ _ _ _ = r
          cases r <;> intro h <;> simp only [Res.link, SshLink.ready.injEq, reduceCtorEq] at h
          cases h
          exact congrArg some (by rw [← hs])
        | receivePack =>
          rw [hs] at h
          simp only at h
          revert h
          generalize sshReceivePack _ _ _ = r
          cases r <;> intro h <;> simp only [Res.link, SshLink.ready.injEq, reduceCtorEq] at h
          cases h
          exact congrArg some (by rw [← hs])

theorem openFor_link (P : ServerExt) (h : BothHist) : ∀ i p, (runBoth P .empty h).link i = .ready (some p) → Spec.openFor i h = some (p.path, p.service) := by
  induction hn : h.length generalizing h with
  | zero =>
    have : h = [] := List.length_eq_zero_iff.1 hn
    subst this
    intro i p hp
    cases hp
  | succ n ih =>
    have hne : h ≠ [] := by rintro rfl; cases hn
    obtain ⟨h', ⟨m, v⟩, rfl⟩ : ∃ h' q, h = h' ++ [q] := ⟨h.dropLast, h.getLast hne, (List.dropLast_append_getLast hne).symm⟩
    have ih := ih h' (by simpa using hn)
    intro i p hp
    rw [runBoth_concat] at hp
    unfold Spec.openFor
    rw [List.foldl_append]
    simp only [List.foldl_cons, List.foldl_nil]
    cases v with
    | http r => exact ih i p hp
    | ssh j e =>
      by_cases hij : i = j
      · subst hij
        rw [bothStep_link] at hp
        simp only [if_true]
        exact reopen_link P.X m _ _ e _ (fun q hq => ih i q hq) p hp
      · rw [show (bothStep P m (runBoth P .empty h') (.ssh j e)).link i = (sshStep P.X m (runBoth P .empty h').ssh j e).2.link i from rfl, sshStep_other hij] at hp
        simp only [if_neg hij]
        exact ih i p hp

/-! ## Confinement -/

theorem ConfinedIn.mono {X : Ext} {fold : Bytes → Bytes} {path : Bytes} {Q Q' : Pack → Prop} {db db' : Db} (hc : ConfinedIn X fold path Q db) (hQ : ∀ p, Q p → Q' p)
    (hn : ∀ n ∈ db.nodes, n ∈ db'.nodes) {r : CommitRow} (hr : r ∈ commitsAt fold db.commits path) : ∃ p, Q' p ∧
    (∃ o c, p.result.hashObject o.id = some o ∧ o.t = .commit ∧ r.data = o.data ∧ Commit.decode o.data = .ok c) ∧
    ∀ x, Spec.PackReach p.result.hashObject x → ∃ n ∈ db'.nodes, n.gitId = Hash.toPlainStr x ∧ ∃ o, p.result.hashObject o.id = some o ∧ o = metaOf X (nodeObj n) := by
  obtain ⟨p, h1, h2, h3⟩ := hc r hr
  refine ⟨p, hQ p h1, h2, fun x hx => ?_⟩
  obtain ⟨n, hm, rest⟩ := h3 x hx
  exact ⟨n, hn n hm, rest⟩

/-- One effect on the database: what is stored stays confined. -/
theorem effect_confined {X : Ext} {E : SqlExt} {fuel : Nat} {a path : Bytes} {S : Bytes → Prop} {db db' : Db} (h : DbEffect X E fuel a S db db') {fold : Bytes → Bytes}
    {Q Q' : Pack → Prop} (hc : ConfinedIn X fold path Q db) (hQ : ∀ p, Q p → Q' p)
    (hS : fold a = fold path → ∀ file p, S file → decodePack X (getHashObject X E db) fuel file = .ok p → Q' p)
    (hh : fold a = fold path → ∀ x ∈ db.refs, pathStartsWith a x.repoPath = true → x.repoPath = a) : ConfinedIn X fold path Q' db' := by
  have key : ∀ file p, S file → decodePack X (getHashObject X E db) fuel file = .ok p → ConfinedIn X fold path Q' (savePackfile E fuel p a db).2 := by
    intro file p hs hd r hr
    obtain ⟨rows, h1, h2, h3, h4⟩ := push_effect hd E fuel a db
    obtain ⟨g1, g2⟩ := commitsAt_mem.1 hr
    rcases h4 r g1 with g1 | ⟨g3, g4, o, c, g5, g6, g7, g8, _⟩
    · exact hc.mono hQ (fun n hn => by rw [h1]; exact List.mem_append_left _ hn) (commitsAt_mem.2 ⟨g1, g2⟩)
    · refine ⟨p, hS (by rw [← g3]; exact g2) file p hs hd, ⟨o, c, g5, g6, g7, g8⟩, fun x hx => ?_⟩
      obtain ⟨n, hn, e⟩ := g4 x hx
      obtain ⟨o', e1, e2, _⟩ := h2 n hn
      exact ⟨n, by rw [h1]; exact List.mem_append_right _ hn, e, o', e1, e2⟩
  cases h with
  | same => exact fun r hr => hc.mono hQ (fun _ h => h) hr
  | head =>
    obtain ⟨k1, _, k3⟩ := getHead_only X E a db
    by_cases he : fold a = fold path
    · rw [getHead_same _ _ _ _ (hh he)]
      exact fun r hr => hc.mono hQ (fun _ h => h) hr
    · intro r hr
      obtain ⟨h1, h2⟩ := commitsAt_mem.1 hr
      rcases k3 r h1 with h1 | h1
      · exact hc.mono hQ (fun n hn => by rw [k1]; exact hn) (commitsAt_mem.2 ⟨h1, h2⟩)
      · rw [h1] at h2
        exact absurd h2 he
  | push file p hs hd => exact key file p hs hd
  | pushRef file p cmd hs hd =>
    obtain ⟨k1, k2⟩ := handleRefs_only E cmd a (savePackfile E fuel p a db).2
    have := key file p hs hd
    unfold ConfinedIn at this ⊢
    rw [k1, k2]
    exact this

theorem confined_both (P : ServerExt) (path : Bytes) (h : BothHist) (hf : Spec.SameFoldAny P.D.fold h) (hab : Spec.NoneAboveAny P.D.fold path h) :
    ConfinedIn P.X P.D.fold path (Spec.SentPack P path h) (runBoth P .empty h).web.db := by
  induction hn : h.length generalizing h with
  | zero =>
    have : h = [] := List.length_eq_zero_iff.1 hn
    subst this
    intro r hr
    cases hr
  | succ n ih =>
    have hne : h ≠ [] := by rintro rfl; cases hn
    obtain ⟨h', ⟨m, v⟩, rfl⟩ : ∃ h' q, h = h' ++ [q] := ⟨h.dropLast, h.getLast hne, (List.dropLast_append_getLast hne).symm⟩
    have hf' : Spec.SameFoldAny P.D.fold h' := fun p hp => hf p (by simp [hp])
    have hab' : Spec.NoneAboveAny P.D.fold path h' := fun p hp q hq => hab p (by simp [hp]) q (by simp [hq])
    have ih := ih h' hf' hab' (by simpa using hn)
    obtain ⟨i1, i2, _⟩ := runBoth_inv P path h' hf' hab'
    rw [runBoth_concat]
    rcases both_effect P m (runBoth P .empty h') v with e | ⟨a, ha, he⟩
    · rw [e]
      exact fun r hr => ih.mono (fun p hp => hp.more _) (fun _ h => h) hr
    · refine effect_confined he ih (fun p hp => hp.more _) ?_ ?_
      · intro hfa file p hs hd
        refine ⟨h', m, v, [], a, file, rfl, ?_, hfa, hd⟩
        cases v with
        | http r => exact .http r hs.1 hs.2
        | ssh i ev =>
          cases ev with
          | data ch bytes =>
            obtain ⟨rfl, q, q1, rfl, q3⟩ := hs
            refine .ssh i ch ?_
            rw [openFor_link P h' i q q1, q3]
          | _ => exact hs.elim
      · intro hfa x hx hp
        obtain ⟨p, hp1, hp2⟩ := i1 x hx
        have named : ∃ q ∈ h' ++ [(m, v)], q.2.repo = some a := by
          rcases ha with ⟨i, p, h1, h2⟩ | ha
          · obtain ⟨q, q1, q2⟩ := i2 i p h1
            exact ⟨q, by simp [q1], by rw [q2, h2]⟩
          · exact ⟨(m, v), by simp, ha⟩
        obtain ⟨q, hq1, hq2⟩ := named
        exact hab p (by simp [hp1]) q hq1 _ _ hp2 hq2 hfa hp

/-! ## C116 -/

/-- **C116 (partial)** Both servers run on one database that was empty at the start; anybody does anything over HTTP and SSH. Every object of the repository at a path, that is every
object a clone of it contains, is in a pack that some client sent to that path: with a push over HTTP, or on an SSH connection opened for pushing to that path. `hu`: no SHA-1
collision among stored objects. (Missing from the full claim: as in `C90_confined_partial`.) -/
theorem C116_confined_partial (P : ServerExt) (path : Bytes) (h : BothHist) (hf : Spec.SameFoldAny P.D.fold h) (hab : Spec.NoneAboveAny P.D.fold path h)
    (hu : UniqueIds P.X (runBoth P .empty h).web.db) (o : Spec.Obj) (ho : InRepo P.D.fold (runBoth P .empty h).web.db path o) : Spec.SentTo P path h o := by
  refine confinedIn_obj ?_ (storeRun_inv (runBoth_inv P path h hf hab).2.2 hu) hu (confined_both P path h hf hab) ho
  rintro p ⟨_, _, _, _, _, _, _, _, _, hd⟩
  exact ⟨_, _, _, hd⟩

/-- **C116 (partial)** The answer to a fetch, over HTTP or SSH, whatever the request, consists of `ACK` and `NAK` lines with ids the client sent itself, then the pieces of one pack (or
none); the pack contains only objects that some client sent to that path, over HTTP or SSH. -/
theorem C116_fetch_partial (P : ServerExt) (hfold : ∀ a b : Hash, P.D.fold (Hash.toPlainStr a) = P.D.fold (Hash.toPlainStr b) → a = b) (u : Bytes)
    (h : BothHist) (hf : Spec.SameFoldAny P.D.fold h) (hab : Spec.NoneAboveAny P.D.fold u h) (hu : UniqueIds P.X (runBoth P .empty h).web.db)
    (hfit : FitsPack P.X (runBoth P .empty h).web.db) (m : Moment) (hm : m.sql.fold = P.D.fold) (hord : ∀ l x, x ∈ m.ord l ↔ x ∈ l)
    (body out : Bytes) (hout : Spec.FetchedAny P u body out m h) :
    ∃ (lines : List Bytes) (caps : List Capability) (file : Bytes), out = lines.flatMap (fun l => hex4 (l.length + 4) ++ l) ++ sendPack caps (m.cut file) ∧ (∀ l ∈ lines, Spec.AckLine body l) ∧
      (file = [] ∨ ∃ ms, PackHas P.X file ms ∧ ∀ x ∈ ms, ∃ o, Spec.SentTo P u h o ∧ x = metaOf P.X o) :=
  fetch_confined (runBoth_inv P u h hf hab).2.2 hu hfold hfit (C116_confined_partial P u h hf hab hu) hm hord (fetchedAny_http (fun l x => (hord l x).1) hout)

/-- After the push of the example repository on SSH connection 0, the commit is in the repository `/app`, and it is stored because it was sent there; nothing came over HTTP. -/
example : ∃ h : BothHist, InRepo demoFold (runBoth demoServer .empty h).web.db (ascii "/app") (.commit, appCommit.encode) ∧
    Spec.SentTo demoServer (ascii "/app") h (.commit, appCommit.encode) ∧ ∀ m v, (m, v) ∈ h → ∀ r, v ≠ .http r := by
  obtain ⟨pack, rep, p, h1, h2, h3, _, hp, _⟩ := both_pushed
  have objs := both_objs h1 h2 h3 hp
  have names : ∀ x ∈ bothBefore ++ [(demoMoment, .ssh 0 (.data 0 pack))], x.1.sql.fold = demoFold ∧ ∀ a, x.2.repo = some a → a = ascii "/app" := by
    intro x hx
    rcases List.mem_append.1 hx with hx | hx
    · exact bothBefore_names x hx
    · cases List.mem_singleton.1 hx
      exact ⟨rfl, fun _ e => nomatch e⟩
  have hab : Spec.NoneAboveAny demoFold (ascii "/app") (bothBefore ++ [(demoMoment, .ssh 0 (.data 0 pack))]) := by
    intro a ha b hb x y hx hy _ _
    rw [(names a ha).2 x hx, (names b hb).2 y hy]
  have hin : InRepo demoFold (runBoth demoServer .empty (bothBefore ++ [(demoMoment, .ssh 0 (.data 0 pack))])).web.db (ascii "/app") (.commit, appCommit.encode) := by
    obtain ⟨st', e1, e2, _⟩ := pushedAny_http appCmd_ok (by decide) (by decide) hp
    rw [bothBefore_db] at e1
    obtain ⟨p', d1, d2, _⟩ := pushed_inRepo (P := demoServer) appCmd_ok (by decide) (by decide) h1 .empty rfl (fun _ _ => rfl) e1 (db' := st'.db) ⟨fun _ h => h, fun _ h => h⟩
      (by rw [← e2]; exact app_unique objs)
    have : p' = p := Res.ok.inj (d1.symm.trans h2)
    subst this
    have hcommit : p'.result.hashObject (idOf polyExt (.commit, appCommit.encode)) = some (metaOf polyExt (.commit, appCommit.encode)) :=
      (h3 _ _).2 ⟨by simp [appObjects, appThin], rfl⟩
    obtain ⟨x, x1, x2⟩ := d2 (metaOf polyExt (.commit, appCommit.encode)) hcommit (.inl rfl)
    have ex : x = (.commit, appCommit.encode) := by
      have e3 : x.1 = .commit := (congrArg MetaData.t x2).symm
      have e4 : x.2 = appCommit.encode := (congrArg MetaData.data x2).symm
      exact Prod.ext e3 e4
    rw [e2, ← ex]
    exact x1
  refine ⟨_, hin, C116_confined_partial demoServer (ascii "/app") _ (fun x hx => (names x hx).1) hab (app_unique objs) _ hin, ?_⟩
  intro m v hv r
  simp only [bothBefore, List.cons_append, List.nil_append, List.mem_cons, List.not_mem_nil, or_false, Prod.mk.injEq] at hv
  rcases hv with ⟨_, rfl⟩ | ⟨_, rfl⟩ | ⟨_, rfl⟩ | ⟨_, rfl⟩ | ⟨_, rfl⟩ | ⟨_, rfl⟩ <;> simp [askFor, logIn]

end Gust

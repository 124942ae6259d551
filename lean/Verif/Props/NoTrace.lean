import Verif.Props.Restart
import Verif.Props.RefsBothExamples

/-! # C162: whoever only reads leaves no trace -/

namespace Gust

/-- What clients send that clone and fetch: over HTTP requests for the refs (of either service) and for a pack, over SSH everything on the connections `C`. -/
def Spec.OnlyLooks (C : Nat → Prop) : Visit → Prop
  | .http r => (∃ a t, route r.method r.path r.service = .infoRefs a t) ∨ ∃ a, route r.method r.path r.service = .uploadPack a
  | .ssh i _ => C i

/-- Nobody asks for a push on the connections `C`. -/
def Spec.NoPushOn (C : Nat → Prop) (h : BothHist) : Prop :=
  ∀ p ∈ h, ∀ i ch cmd, C i → p.2 = .ssh i (.exec ch cmd) → ¬ ascii "git-receive-pack" <+: cmd

/-- What is read does not lie in a directory that somebody else uses as a repository. -/
def Spec.NotInside (C : Nat → Prop) (h : BothHist) : Prop :=
  ∀ p ∈ h, ∀ q ∈ h, ∀ a b, ¬ Spec.OnlyLooks C p.2 → Spec.OnlyLooks C q.2 → p.2.repo = some a → q.2.repo = some b → pathStartsWith b a = true → a = b

/-- The states of the servers with and without the readers. `N`: the paths that others name. -/
structure Alike (C : Nat → Prop) (N : Bytes → Prop) (s t : Both) : Prop where
  web : s.web = t.web
  link : ∀ j, ¬ C j → s.link j = t.link j
  rows : ∀ x ∈ s.web.db.refs, N x.repoPath
  paths : ∀ j p, ¬ C j → s.link j = .ready (some p) → N p.path
  quiet : ∀ j p, C j → s.link j = .ready (some p) → p.service = .uploadPack

theorem splitOn_head_prefix (c : UInt8) (l w : Bytes) (h : (splitOn c l)[0]? = some w) : w <+: l := by
  have e := splitOn_intercalate c l
  cases hs : splitOn c l with
  | nil => rw [hs] at h; cases h
  | cons x xs =>
    rw [hs] at h e
    cases h
    cases xs with
    | nil => exact ⟨[], by rw [← e]; simp⟩
    | cons y ys => exact ⟨c :: [c].intercalate (y :: ys), by rw [← e]; simp [List.intercalate]⟩

theorem sshCommand_word {cmd a : Bytes} {t : ServiceType} (h : sshCommand cmd = .ok (a, t)) (ht : t ≠ .uploadPack) : ascii "git-receive-pack" <+: cmd := by
  simp only [sshCommand, Res.bind_eq_ok, Res.unwrapOpt_eq_ok] at h
  obtain ⟨path, _, h⟩ := h
  split at h
  · cases h
  · simp only [Res.bind_eq_ok, Res.unwrapOpt_eq_ok, Res.pure_eq, Res.ok.injEq, Prod.mk.injEq] at h
    obtain ⟨_, _, name, hn, s, hs, _, rfl⟩ := h
    have e : name = ascii "git-receive-pack" := by
      unfold ServiceType.fromStr at hs
      split at hs
      · exact absurd (Option.some.inj hs).symm ht
      · split at hs
        · assumption
        · cases hs
    rw [← e]
    exact splitOn_head_prefix _ _ _ hn

/-- A request that reads changes nothing. -/
theorem reads_web (P : ServerExt) (m : Moment) (s : ServerState) (r : HttpReq) (h : (∃ a t, route r.method r.path r.service = .infoRefs a t) ∨ ∃ a, route r.method r.path r.service = .uploadPack a)
    (hn : ∀ b, r.repo = some b → ∀ x ∈ s.db.refs, pathStartsWith b x.repoPath = true → x.repoPath = b) : (serve P m s r).2 = s := by
  rcases h with ⟨a, t, h⟩ | ⟨a, h⟩
  · exact (C79_discovery_partial P m s r a t h).2.2.2.2.2.2.2 (hn a (by unfold HttpReq.repo; rw [h]; rfl))
  · unfold serve
    rw [h]

theorem alike_read (P : ServerExt) {C : Nat → Prop} {N : Bytes → Prop} {s t : Both} (h : Alike C N s t) (m : Moment) (v : Visit) (hv : Spec.OnlyLooks C v)
    (hp : ∀ i ch cmd, v = .ssh i (.exec ch cmd) → ¬ ascii "git-receive-pack" <+: cmd) (hn : ∀ a b, N a → v.repo = some b → pathStartsWith b a = true → a = b) : Alike C N (bothStep P m s v) t := by
  cases v with
  | http r =>
    have e : bothStep P m s (.http r) = s := by
      show { s with web := (serve P m s.web r).2 } = s
      rw [reads_web P m s.web r hv (fun b hb x hx hs => hn _ b (h.rows x hx) hb hs)]
    rw [e]
    exact h
  | ssh i e =>
    have hC : C i := hv
    have hdb : (sshStep P.X m s.ssh i e).2.db = s.web.db := by
      show (sshLinkStep P.X m s.web.db (s.link i) e).2.2 = s.web.db
      cases hl : s.link i with
      | fresh => cases e <;> rfl
      | hung => rfl
      | closed => rfl
      | ready p =>
        cases e with
        | auth u w => rfl
        | exec ch cmd =>
          simp only [sshLinkStep, sshExec]
          cases hc : sshCommand cmd with
          | ok r =>
            obtain ⟨path, t⟩ := r
            simp only [advertise_db]
            exact getHead_same _ _ _ _ (fun x hx hs => hn _ path (h.rows x hx) (by simp only [Visit.repo, hc]) hs)
          | _ => rfl
        | data ch bytes =>
          cases p with
          | none => rfl
          | some p =>
            simp only [sshLinkStep, sshData, h.quiet i p hC hl]
    refine ⟨?_, fun j hj => ?_, fun x hx => ?_, fun j p hj hl => ?_, fun j p hj hl => ?_⟩
    · show { s.web with db := (sshStep P.X m s.ssh i e).2.db } = t.web
      rw [hdb]
      exact h.web
    · have hij : j ≠ i := fun e => hj (e ▸ hC)
      show (sshStep P.X m s.ssh i e).2.link j = t.link j
      rw [sshStep_other hij]
      exact h.link j hj
    · have hx : x ∈ (sshStep P.X m s.ssh i e).2.db.refs := hx
      rw [hdb] at hx
      exact h.rows x hx
    · have hij : j ≠ i := fun e => hj (e ▸ hC)
      have hl : (sshStep P.X m s.ssh i e).2.link j = .ready (some p) := hl
      rw [sshStep_other hij] at hl
      exact h.paths j p hj hl
    · have hl : (sshStep P.X m s.ssh i e).2.link j = .ready (some p) := hl
      by_cases hij : j = i
      · subst hij
        rw [sshStep_self] at hl
        have hl : (sshLinkStep P.X m s.web.db (s.link j) e).2.1 = .ready (some p) := hl
        cases hk : s.link j with
        | fresh =>
          rw [hk] at hl
          cases e with
          | auth u w =>
            simp only [sshLinkStep] at hl
            split at hl <;> cases hl
          | _ => cases hl
        | hung => rw [hk] at hl; cases hl
        | closed => rw [hk] at hl; cases hl
        | ready q =>
          rw [hk] at hl
          cases e with
          | auth u w =>
            cases hl
            exact h.quiet j p hC hk
          | exec ch cmd =>
            simp only [sshLinkStep] at hl
            cases hc : sshCommand cmd with
            | ok r =>
              obtain ⟨path, t⟩ := r
              have := sshExec_ready hc hl
              cases this
              by_contra ht
              exact hp j ch cmd rfl (sshCommand_word hc ht)
            | _ =>
              simp only [sshExec, hc] at hl
              cases hl
          | data ch bytes =>
            cases q with
            | none => cases hl
            | some q =>
              have hq := h.quiet j q hC hk
              simp only [sshLinkStep, sshData, hq] at hl
              revert hl
              generalize sshUploadPack _ _ _ _ _ = r
              cases r <;> intro hl <;> simp only [Res.link, SshLink.ready.injEq, reduceCtorEq] at hl
              cases hl
              rfl
      · rw [sshStep_other hij] at hl
        exact h.quiet j p hj hl

theorem alike_other (P : ServerExt) {C : Nat → Prop} {N : Bytes → Prop} {s t : Both} (h : Alike C N s t) (m : Moment) (v : Visit) (hv : ¬ Spec.OnlyLooks C v)
    (hn : ∀ a, v.repo = some a → N a) : Alike C N (bothStep P m s v) (bothStep P m t v) := by
  cases v with
  | http r =>
    refine ⟨?_, h.link, fun x hx => ?_, h.paths, h.quiet⟩
    · show (serve P m s.web r).2 = (serve P m t.web r).2
      rw [h.web]
    · have hx : x ∈ (serve P m s.web r).2.db.refs := hx
      rcases http_effect P m s.web r with e | ⟨a, ha, he⟩
      · rw [e] at hx
        exact h.rows x hx
      · rcases effect_paths he x hx with e | ⟨x', h1, h2⟩
        · rw [e]
          exact hn a ha
        · rw [← h2]
          exact h.rows x' h1
  | ssh i e =>
    have hC : ¬ C i := hv
    have hstep : sshLinkStep P.X m s.web.db (s.link i) e = sshLinkStep P.X m t.web.db (t.link i) e := by rw [h.web, h.link i hC]
    refine ⟨?_, fun j hj => ?_, fun x hx => ?_, fun j p hj hl => ?_, fun j p hj hl => ?_⟩
    · show { s.web with db := (sshLinkStep P.X m s.web.db (s.link i) e).2.2 } = { t.web with db := (sshLinkStep P.X m t.web.db (t.link i) e).2.2 }
      rw [hstep, h.web]
    · show (if j = i then (sshLinkStep P.X m s.web.db (s.link i) e).2.1 else s.link j) = if j = i then (sshLinkStep P.X m t.web.db (t.link i) e).2.1 else t.link j
      rw [hstep, h.link j hj]
    · have hx : x ∈ (sshLinkStep P.X m s.web.db (s.link i) e).2.2.refs := hx
      rcases ssh_effect P.X m s.web.db (s.link i) e with e' | ⟨a, ha, he⟩
      · rw [e'] at hx
        exact h.rows x hx
      · rcases effect_paths he x hx with e' | ⟨x', h1, h2⟩
        · rw [e']
          rcases ha with ⟨p, h1, rfl⟩ | ha
          · exact h.paths i p hC h1
          · exact hn a (ha i)
        · rw [← h2]
          exact h.rows x' h1
    · have hl : (sshStep P.X m s.ssh i e).2.link j = .ready (some p) := hl
      by_cases hij : j = i
      · subst hij
        rw [sshStep_self] at hl
        rcases ssh_session _ _ _ _ _ _ hl with ⟨q, h1, h2⟩ | h1
        · rw [← h2]
          exact h.paths j q hj h1
        · exact hn _ (h1 j)
      · rw [sshStep_other hij] at hl
        exact h.paths j p hj hl
    · have hl : (sshStep P.X m s.ssh i e).2.link j = .ready (some p) := hl
      have hij : j ≠ i := fun e => hC (e ▸ hj)
      rw [sshStep_other hij] at hl
      exact h.quiet j p hj hl

/-- `k` is the history `h` without the visits in `K`. -/
inductive Spec.LeftOut (K : Visit → Prop) : BothHist → BothHist → Prop
  | nil : LeftOut K [] []
  | out (m : Moment) (v : Visit) (h k : BothHist) : K v → LeftOut K h k → LeftOut K ((m, v) :: h) k
  | keep (m : Moment) (v : Visit) (h k : BothHist) : ¬ K v → LeftOut K h k → LeftOut K ((m, v) :: h) ((m, v) :: k)

theorem alike_run (P : ServerExt) {C : Nat → Prop} {N : Bytes → Prop} {h k : BothHist} (hk : Spec.LeftOut (Spec.OnlyLooks C) h k) : ∀ (s t : Both), Alike C N s t → Spec.NoPushOn C h →
    (∀ p ∈ h, ¬ Spec.OnlyLooks C p.2 → ∀ a, p.2.repo = some a → N a) → (∀ p ∈ h, Spec.OnlyLooks C p.2 → ∀ a b, N a → p.2.repo = some b → pathStartsWith b a = true → a = b) →
    Alike C N (runBoth P s h) (runBoth P t k) := by
  induction hk with
  | nil => exact fun s t hst _ _ _ => hst
  | out m v h k hv _ ih =>
    intro s t hst h1 h2 h3
    rw [runBoth_cons]
    refine ih _ t (alike_read P hst m v hv ?_ (h3 (m, v) List.mem_cons_self hv)) (fun p hp => h1 p (List.mem_cons_of_mem _ hp)) (fun p hp => h2 p (List.mem_cons_of_mem _ hp))
      (fun p hp => h3 p (List.mem_cons_of_mem _ hp))
    rintro i ch cmd rfl
    exact h1 _ List.mem_cons_self i ch cmd hv rfl
  | keep m v h k hv _ ih =>
    intro s t hst h1 h2 h3
    rw [runBoth_cons, runBoth_cons]
    exact ih _ _ (alike_other P hst m v hv (h2 (m, v) List.mem_cons_self hv)) (fun p hp => h1 p (List.mem_cons_of_mem _ hp)) (fun p hp => h2 p (List.mem_cons_of_mem _ hp))
      (fun p hp => h3 p (List.mem_cons_of_mem _ hp))

/-- **C162** Clients that only clone and fetch, over HTTP and on the SSH connections `C`, and whatever they send there (except the beginning of a push), leave no trace: after any history of both
servers everything stored is as if they had not been there, and every request and every message of anybody else is answered as if they had not been there. (What they read does not lie inside a
repository that others use, see `C79_discovery_false`.) -/
theorem C162_unnoticed (P : ServerExt) (C : Nat → Prop) (h k : BothHist) (hk : Spec.LeftOut (Spec.OnlyLooks C) h k) (hp : Spec.NoPushOn C h) (hn : Spec.NotInside C h) :
    (runBoth P .empty h).web = (runBoth P .empty k).web ∧
    ∀ (m : Moment) (v : Visit), ¬ Spec.OnlyLooks C v ∨ (∃ r, v = .http r) → replyTo P m (runBoth P .empty h) v = replyTo P m (runBoth P .empty k) v := by
  have e := alike_run P (N := fun a => ∃ p ∈ h, ¬ Spec.OnlyLooks C p.2 ∧ p.2.repo = some a) hk .empty .empty
    ⟨rfl, fun _ _ => rfl, (fun _ hx => nomatch hx), (fun _ _ _ hl => nomatch hl), (fun _ _ _ hl => nomatch hl)⟩ hp (fun p hp hr a ha => ⟨p, hp, hr, ha⟩)
    (fun q hq hr a b ⟨p, h1, h2, h3⟩ hb hs => hn p h1 q hq a b h2 hr h3 hb hs)
  refine ⟨e.web, fun m v hv => ?_⟩
  cases v with
  | http r =>
    show Received.http (serve P m (runBoth P .empty h).web r).1 = .http (serve P m (runBoth P .empty k).web r).1
    rw [e.web]
  | ssh i ev =>
    have hC : ¬ C i := by
      rcases hv with hv | ⟨_, hv⟩
      · exact hv
      · cases hv
    show Received.ssh (sshLinkStep P.X m (runBoth P .empty h).web.db ((runBoth P .empty h).link i) ev).1 = .ssh (sshLinkStep P.X m (runBoth P .empty k).web.db ((runBoth P .empty k).link i) ev).1
    rw [e.web, e.link i hC]

/-- Somebody pushes to `/app` on connection 0; others have it open on connection 1 and clone there, and ask for its refs over HTTP. -/
def watchedPush (pack : Bytes) : BothHist :=
  bothBefore ++ [(demoMoment, .ssh 0 (.data 0 pack)), (demoMoment, .ssh 1 (.data 0 (doneBody cloneLines (ascii "\n") []))), (demoMoment, .http (Spec.refsReq (ascii "/app" ++ []) .uploadPack))]

/-- The push alone. -/
def lonelyPush (pack : Bytes) : BothHist :=
  [(demoMoment, .ssh 0 logIn), (demoMoment, .ssh 0 (askFor .receivePack 0 (ascii "/app"))), (demoMoment, .ssh 0 (.data 0 (Spec.pushBody appCmd [] (ascii "report-status") []))),
   (demoMoment, .ssh 0 (.data 0 pack))]

/-- C162: whatever pack is pushed, what is stored is the same with and without those who look on. -/
example (pack : Bytes) : (runBoth demoServer .empty (watchedPush pack)).web = (runBoth demoServer .empty (lonelyPush pack)).web ∧
    ∀ m e, (sshStep polyExt m (runBoth demoServer .empty (watchedPush pack)).ssh 0 e).1 = (sshStep polyExt m (runBoth demoServer .empty (lonelyPush pack)).ssh 0 e).1 := by
  have hr : route (Spec.refsReq (ascii "/app" ++ []) .uploadPack).method (Spec.refsReq (ascii "/app" ++ []) .uploadPack).path (Spec.refsReq (ascii "/app" ++ []) .uploadPack).service =
      .infoRefs (ascii "/app") .uploadPack := by decide +kernel
  have names : ∀ x ∈ watchedPush pack, ∀ a, x.2.repo = some a → a = ascii "/app" := by
    intro x hx a ha
    rcases List.mem_append.1 hx with hx | hx
    · exact (bothBefore_names x hx).2 a ha
    · simp only [List.mem_cons, List.not_mem_nil, or_false] at hx
      rcases hx with rfl | rfl | rfl
      · cases ha
      · cases ha
      · rw [Visit.repo, HttpReq.repo, hr] at ha
        exact (Option.some.inj ha).symm
  have out : Spec.LeftOut (Spec.OnlyLooks (· = 1)) (watchedPush pack) (lonelyPush pack) := by
    have n : ∀ e, ¬ Spec.OnlyLooks (· = 1) (.ssh 0 e) := fun e h => absurd (show (0 : Nat) = 1 from h) (by decide)
    exact .out _ _ _ _ rfl (.out _ _ _ _ rfl (.keep _ _ _ _ (n _) (.keep _ _ _ _ (n _) (.keep _ _ _ _ (n _) (.keep _ _ _ _ (n _) (.out _ _ _ _ rfl (.out _ _ _ _ (.inl ⟨_, _, hr⟩) .nil)))))))
  have quiet : Spec.NoPushOn (· = 1) (watchedPush pack) := by
    intro p hp i ch cmd hi he
    simp only [watchedPush, bothBefore, List.cons_append, List.nil_append, List.mem_cons, List.not_mem_nil, or_false] at hp
    rcases hp with rfl | rfl | rfl | rfl | rfl | rfl | rfl | rfl <;> first | (cases he; done) | skip
    · simp only [askFor, Visit.ssh.injEq, SshEvent.exec.injEq] at he
      rw [← he.2.2]
      decide +kernel
    · simp only [askFor, Visit.ssh.injEq, SshEvent.exec.injEq] at he
      exact absurd (he.1.trans hi) (by decide)
  have apart : Spec.NotInside (· = 1) (watchedPush pack) := fun p hp q hq a b _ _ ha hb _ => by rw [names p hp a ha, names q hq b hb]
  obtain ⟨e1, e2⟩ := C162_unnoticed demoServer (· = 1) (watchedPush pack) (lonelyPush pack) out quiet apart
  exact ⟨e1, fun m e => Received.ssh.inj (e2 m (.ssh 0 e) (.inl (fun h => absurd (show (0 : Nat) = 1 from h) (by decide))))⟩

end Gust

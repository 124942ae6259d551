import Verif.Model.Restart
import Verif.Props.Stays
import Mathlib.Data.Nat.Pairing

/-! # C156: restarts -/

namespace Gust

/-- The requests and messages of a history, without the restarts. -/
def Spec.visits : Happenings → BothHist
  | [] => []
  | (m, .visit v) :: h => (m, v) :: Spec.visits h
  | (_, .restartHttp) :: h => Spec.visits h
  | (_, .restartSsh) :: h => Spec.visits h

/-- There is a message on connection `i`. -/
def Spec.On (i : Nat) (h : Happenings) : Prop := ∃ m e, (m, Happening.visit (.ssh i e)) ∈ h

/-- No connection outlives the process of the SSH server. -/
def Spec.NotTaken (h : Happenings) : Prop := ∀ a m b, h = a ++ (m, .restartSsh) :: b → ∀ i, Spec.On i a → ¬ Spec.On i b

theorem visits_append : ∀ a b : Happenings, Spec.visits (a ++ b) = Spec.visits a ++ Spec.visits b
  | [], _ => rfl
  | (m, .visit v) :: a, b => congrArg ((m, v) :: ·) (visits_append a b)
  | (_, .restartHttp) :: a, b => visits_append a b
  | (_, .restartSsh) :: a, b => visits_append a b

theorem runAll_concat (P : ServerExt) (s : Both) (h : Happenings) (m : Moment) (e : Happening) : runAll P s (h ++ [(m, e)]) = happen P m (runAll P s h) e := by
  simp [runAll]

theorem on_append {i : Nat} {a b : Happenings} : Spec.On i (a ++ b) ↔ Spec.On i a ∨ Spec.On i b := by
  simp only [Spec.On, List.mem_append, exists_or]

/-- One message depends on its connection only. -/
theorem bothStep_same {P : ServerExt} {m : Moment} {s s' : Both} {i : Nat} (e : SshEvent) (hw : s.web = s'.web) (hl : s.link i = s'.link i) :
    (bothStep P m s (.ssh i e)).web = (bothStep P m s' (.ssh i e)).web ∧ (bothStep P m s (.ssh i e)).link i = (bothStep P m s' (.ssh i e)).link i ∧
      replyTo P m s (.ssh i e) = replyTo P m s' (.ssh i e) := by
  simp [bothStep, replyTo, sshStep, Both.ssh, hw, hl]

theorem bothStep_others {P : ServerExt} {m : Moment} {s : Both} {i j : Nat} (e : SshEvent) (hj : j ≠ i) : (bothStep P m s (.ssh i e)).link j = s.link j := by
  simp [bothStep, sshStep, Both.ssh, hj]

/-- The server with restarts and the one without. -/
theorem restart_inv (P : ServerExt) (a : Happenings) : ∀ b, Spec.NotTaken (a ++ b) →
    (runAll P .empty a).web = (runBoth P .empty (Spec.visits a)).web ∧
    (∀ i, Spec.On i b → (runAll P .empty a).link i = (runBoth P .empty (Spec.visits a)).link i) ∧
    ∀ i, ¬ Spec.On i a → (runAll P .empty a).link i = .fresh ∧ (runBoth P .empty (Spec.visits a)).link i = .fresh := by
  induction a using List.reverseRecOn with
  | nil => exact fun b _ => ⟨rfl, fun _ _ => rfl, fun _ _ => ⟨rfl, rfl⟩⟩
  | append_singleton a p ih =>
    obtain ⟨m, e⟩ := p
    intro b hb
    have hb' : Spec.NotTaken (a ++ ((m, e) :: b)) := by rwa [List.append_assoc] at hb
    obtain ⟨i1, i2, i3⟩ := ih ((m, e) :: b) hb'
    have later : ∀ i, Spec.On i b → Spec.On i ((m, e) :: b) := fun i ⟨x, y, hm⟩ => ⟨x, y, .tail _ hm⟩
    have before : ∀ i, ¬ Spec.On i (a ++ [(m, e)]) → ¬ Spec.On i a := fun i hn h => hn (on_append.2 (.inl h))
    rw [runAll_concat, visits_append]
    cases e with
    | restartHttp =>
      rw [show Spec.visits [(m, .restartHttp)] = [] from rfl, List.append_nil]
      exact ⟨i1, fun i hi => i2 i (later i hi), fun i hn => i3 i (before i hn)⟩
    | restartSsh =>
      rw [show Spec.visits [(m, .restartSsh)] = [] from rfl, List.append_nil]
      refine ⟨i1, fun i hi => ?_, fun i hn => ⟨rfl, (i3 i (before i hn)).2⟩⟩
      exact ((i3 i fun h => hb' a m b rfl i h hi).2).symm
    | visit v =>
      rw [show Spec.visits [(m, .visit v)] = [(m, v)] from rfl, runBoth_concat]
      cases v with
      | http r =>
        refine ⟨?_, fun i hi => i2 i (later i hi), fun i hn => i3 i (before i hn)⟩
        show (serve P m _ r).2 = (serve P m _ r).2
        rw [i1]
      | ssh j e =>
        obtain ⟨k1, k2, _⟩ := bothStep_same (P := P) (m := m) e i1 (i2 j ⟨m, e, .head _⟩)
        refine ⟨k1, fun i hi => ?_, fun i hn => ?_⟩
        · by_cases h : i = j
          · rw [h]; exact k2
          · exact (bothStep_others e h).trans ((i2 i (later i hi)).trans (bothStep_others e h).symm)
        · have h : i ≠ j := fun h => hn (on_append.2 (.inr ⟨m, e, by rw [h]; exact .head _⟩))
          obtain ⟨l1, l2⟩ := i3 i (before i hn)
          exact ⟨(bothStep_others e h).trans l1, (bothStep_others e h).trans l2⟩

/-- **C156** Restarts of the servers between requests are not noticed: in any history of both servers with any number of restarts of either, every request and every message gets the
reply that it would get if there had been no restart, and what is stored afterwards is the same, repositories, locks and large files. (A connection does not outlive the process of the SSH server:
clients connect again.) -/
theorem C156_unnoticed (P : ServerExt) (h : Happenings) (hn : Spec.NotTaken h) :
    (runAll P .empty h).web = (runBoth P .empty (Spec.visits h)).web ∧
    ∀ a m v b, h = a ++ (m, .visit v) :: b → replyTo P m (runAll P .empty a) v = replyTo P m (runBoth P .empty (Spec.visits a)) v := by
  refine ⟨(restart_inv P h [] (by rwa [List.append_nil])).1, ?_⟩
  rintro a m v b rfl
  obtain ⟨k1, k2, _⟩ := restart_inv P a _ hn
  cases v with
  | http r =>
    show Received.http (serve P m _ r).1 = .http (serve P m _ r).1
    rw [k1]
  | ssh i e => exact (bothStep_same e k1 (k2 i ⟨m, e, .head _⟩)).2.2

/-- The message on a connection of the `k`-th process, with a number of its own. -/
def Spec.numbered (k : Nat) : Visit → Visit
  | .http r => .http r
  | .ssh i e => .ssh (Nat.pair k i) e

/-- How often the SSH server is restarted. -/
def Spec.restarts : Happenings → Nat
  | [] => 0
  | (_, .restartSsh) :: h => Spec.restarts h + 1
  | (_, .restartHttp) :: h => Spec.restarts h
  | (_, .visit _) :: h => Spec.restarts h

/-- The requests and messages of a history, without the restarts; all connections have different numbers. -/
def Spec.continued (k : Nat) : Happenings → BothHist
  | [] => []
  | (m, .visit v) :: h => (m, Spec.numbered k v) :: Spec.continued k h
  | (_, .restartHttp) :: h => Spec.continued k h
  | (_, .restartSsh) :: h => Spec.continued (k + 1) h

theorem continued_concat : ∀ (a : Happenings) (k : Nat) (m : Moment) (e : Happening),
    Spec.continued k (a ++ [(m, e)]) = Spec.continued k a ++ Spec.continued (k + Spec.restarts a) [(m, e)]
  | [], _, _, _ => rfl
  | (m', .visit v) :: a, k, m, e => congrArg ((m', Spec.numbered k v) :: ·) (continued_concat a k m e)
  | (_, .restartHttp) :: a, k, m, e => continued_concat a k m e
  | (_, .restartSsh) :: a, k, m, e => by
    show Spec.continued (k + 1) (a ++ [(m, e)]) = Spec.continued (k + 1) a ++ Spec.continued (k + (Spec.restarts a + 1)) [(m, e)]
    rw [continued_concat a (k + 1) m e, show k + (Spec.restarts a + 1) = k + 1 + Spec.restarts a by omega]

theorem restarts_concat : ∀ (a : Happenings) (m : Moment) (e : Happening), Spec.restarts (a ++ [(m, e)]) = Spec.restarts a + Spec.restarts [(m, e)]
  | [], _, _ => (Nat.zero_add _).symm
  | (_, .visit _) :: a, m, e => restarts_concat a m e
  | (_, .restartHttp) :: a, m, e => restarts_concat a m e
  | (_, .restartSsh) :: a, m, e => by
    show Spec.restarts (a ++ [(m, e)]) + 1 = Spec.restarts a + 1 + Spec.restarts [(m, e)]
    rw [restarts_concat a m e]
    omega

/-- One message, on connections with different numbers. -/
theorem bothStep_number {P : ServerExt} {m : Moment} {s s' : Both} {i j : Nat} (e : SshEvent) (hw : s.web = s'.web) (hl : s.link i = s'.link j) :
    (bothStep P m s (.ssh i e)).web = (bothStep P m s' (.ssh j e)).web ∧ (bothStep P m s (.ssh i e)).link i = (bothStep P m s' (.ssh j e)).link j ∧
      replyTo P m s (.ssh i e) = replyTo P m s' (.ssh j e) := by
  simp [bothStep, replyTo, sshStep, Both.ssh, hw, hl]

theorem number_inv (P : ServerExt) (a : Happenings) :
    (runAll P .empty a).web = (runBoth P .empty (Spec.continued 0 a)).web ∧
    (∀ i, (runAll P .empty a).link i = (runBoth P .empty (Spec.continued 0 a)).link (Nat.pair (Spec.restarts a) i)) ∧
    ∀ k i, Spec.restarts a < k → (runBoth P .empty (Spec.continued 0 a)).link (Nat.pair k i) = .fresh := by
  induction a using List.reverseRecOn with
  | nil => exact ⟨rfl, fun _ => rfl, fun _ _ _ => rfl⟩
  | append_singleton a p ih =>
    obtain ⟨m, e⟩ := p
    obtain ⟨i1, i2, i3⟩ := ih
    rw [runAll_concat, continued_concat, restarts_concat, Nat.zero_add]
    cases e with
    | restartHttp =>
      rw [show Spec.continued (Spec.restarts a) [(m, .restartHttp)] = [] from rfl, List.append_nil]
      exact ⟨i1, i2, i3⟩
    | restartSsh =>
      rw [show Spec.continued (Spec.restarts a) [(m, .restartSsh)] = [] from rfl, List.append_nil]
      exact ⟨i1, fun i => (i3 _ i (Nat.lt_succ_self _)).symm, fun k i hk => i3 k i (Nat.lt_of_succ_lt hk)⟩
    | visit v =>
      rw [show Spec.continued (Spec.restarts a) [(m, .visit v)] = [(m, Spec.numbered (Spec.restarts a) v)] from rfl, runBoth_concat,
        show Spec.restarts [(m, .visit v)] = 0 from rfl, Nat.add_zero]
      cases v with
      | http r =>
        refine ⟨?_, i2, i3⟩
        show (serve P m _ r).2 = (serve P m _ r).2
        rw [i1]
      | ssh j e =>
        obtain ⟨k1, k2, _⟩ := bothStep_number (P := P) (m := m) e i1 (i2 j)
        refine ⟨k1, fun i => ?_, fun k i hk => ?_⟩
        · by_cases h : i = j
          · rw [h]; exact k2
          · exact (bothStep_others e h).trans ((i2 i).trans (bothStep_others e fun h' => h (Nat.pair_eq_pair.1 h').2).symm)
        · exact (bothStep_others e fun h' => Nat.ne_of_gt hk (Nat.pair_eq_pair.1 h').1).trans (i3 k i hk)

/-- **C156** The same whatever numbers the server gives to its connections, in particular if it begins to count anew after every restart: every request and every message gets the
reply that it would get without the restarts, on a connection made by nobody else. -/
theorem C156_numbers (P : ServerExt) (h : Happenings) :
    (runAll P .empty h).web = (runBoth P .empty (Spec.continued 0 h)).web ∧
    ∀ a m v b, h = a ++ (m, .visit v) :: b →
      replyTo P m (runAll P .empty a) v = replyTo P m (runBoth P .empty (Spec.continued 0 a)) (Spec.numbered (Spec.restarts a) v) := by
  refine ⟨(number_inv P h).1, ?_⟩
  rintro a m v b rfl
  obtain ⟨k1, k2, _⟩ := number_inv P a
  cases v with
  | http r =>
    show Received.http (serve P m _ r).1 = .http (serve P m _ r).1
    rw [k1]
  | ssh i e => exact (bothStep_number e k1 (k2 i)).2.2

/-- **C155 (partial)** What can be cloned can be cloned for ever, whatever is restarted in between. (Missing from the full claim: as above.) -/
theorem C155_restarted_partial (P : ServerExt) (hfold : ∀ a b : Hash, P.D.fold (Hash.toPlainStr a) = P.D.fold (Hash.toPlainStr b) → a = b) (u : Bytes) (h h2 : Happenings)
    (hn : Spec.NotTaken (h ++ h2)) (hf : Spec.SameFoldAny P.D.fold (Spec.visits (h ++ h2))) (hab : Spec.NoneAboveAny P.D.fold u (Spec.visits (h ++ h2)))
    (hu : UniqueIds P.X (runAll P .empty (h ++ h2)).web.db) (hfit : FitsPack P.X (runAll P .empty (h ++ h2)).web.db)
    (m1 : Moment) (hm1 : m1.sql.fold = P.D.fold) (hord1 : ∀ l x, x ∈ m1.ord l ↔ x ∈ l) (hcut1 : Spec.CutOk m1.cut)
    (ls : List Spec.ReqLine) (t rest out g : Bytes) (hr : Spec.CloneReq ls t) (hurl : Spec.CleanUrl u) (hg : g = [] ∨ g = ascii ".git")
    (hfe : replyTo P m1 (runAll P .empty h) (.http (Spec.fetchReq (u ++ g) (doneBody ls t rest))) = .http (.reply (.ok (.bytes out))))
    (m2 : Moment) (hm2 : m2.sql.fold = P.D.fold) (hfuel : (runAll P .empty (h ++ h2)).web.db.nodes.length ≤ m2.fuel)
    (hord2 : ∀ l x, x ∈ m2.ord l ↔ x ∈ l) (hcut2 : Spec.CutOk m2.cut) (ls' : List Spec.ReqLine) (t' rest' : Bytes) (hr' : Spec.CloneReq ls' t') :
    ∃ file ms out' file' ms', Spec.readClone out = some file ∧ PackHas P.X file ms ∧ (∃ x ∈ ms, x.t = .commit) ∧
      (∀ g, (g = [] ∨ g = ascii ".git") →
        replyTo P m2 (runAll P .empty (h ++ h2)) (.http (Spec.fetchReq (u ++ g) (doneBody ls' t' rest'))) = .http (.reply (.ok (.bytes out')))) ∧
      (∀ i ch, Spec.NotTaken (h ++ h2 ++ [(m2, .visit (.ssh i (.data ch (doneBody ls' t' rest'))))]) → Spec.Opened P u i (Spec.visits (h ++ h2)) →
        replyTo P m2 (runAll P .empty (h ++ h2)) (.ssh i (.data ch (doneBody ls' t' rest'))) = .ssh [(ch, out')]) ∧
      Spec.readClone out' = some file' ∧ PackHas P.X file' ms' ∧ (∀ x ∈ ms, x ∈ ms') ∧
      ∀ St fuel St' fuel', ∃ p q, decodePack P.X St (fuel + 1) file = .ok p ∧ decodePack P.X St' (fuel' + 1) file' = .ok q ∧
        ∀ o ∈ ms, o.t = .commit → ∀ path mode data,
          Spec.CheckedOut p.result.hashObject o.id path mode data ↔ Spec.CheckedOut q.result.hashObject o.id path mode data := by
  have w1 := (restart_inv P h h2 hn).1
  have w2 := (C156_unnoticed P (h ++ h2) hn).1
  rw [w2] at hu hfit hfuel
  have ha : (serve P m1 (runBoth P .empty (Spec.visits h)).web (Spec.fetchReq (u ++ g) (doneBody ls t rest))).1 = .reply (.ok (.bytes out)) := by
    rw [← w1]
    exact Received.http.inj hfe
  rw [visits_append] at hf hab hu hfit hfuel
  obtain ⟨file, ms, out', file', ms', r1, r2, r3, r4, r5, r6, r7, r8, _, r10⟩ := C155_stays_partial P hfold u (Spec.visits h) (Spec.visits h2) hf hab hu hfit m1 hm1 hord1 hcut1 ls t rest out hr
    (.http g hurl hg ha) m2 hm2 hfuel hord2 hcut2 ls' t' rest' hr'
  refine ⟨file, ms, out', file', ms', r1, r2, r3, fun g hg => ?_, fun i ch hnt hop => ?_, r6, r7, r8, r10⟩
  · show Received.http (serve P m2 _ _).1 = _
    rw [w2, visits_append, r4 g hurl hg]
  · rw [(C156_unnoticed P _ hnt).2 _ _ _ [] rfl]
    rw [visits_append] at hop ⊢
    exact congrArg Received.ssh (r5 i ch hop)

end Gust

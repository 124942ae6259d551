import Verif.Model.WorkersBoth
import Verif.Props.Workers
import Verif.Props.AnsweredBoth

/-! # C136 for the HTTP server and the SSH server -/

namespace Gust

theorem duo_append (W V : Nat) (P : ServerExt) (d : Duo) (a b : BothHist) : d.run W V P (a ++ b) = (d.run W V P a).run W V P b := List.foldl_append

theorem duo_concat (W V : Nat) (P : ServerExt) (d : Duo) (a : BothHist) (m : Moment) (v : Visit) : d.run W V P (a ++ [(m, v)]) = ((d.run W V P a).handle W V P m v).2 := by
  rw [duo_append]
  rfl

/-- Such a fetch takes a worker of the SSH process for ever. -/
theorem sshFate_breaks {X : Ext} {m : Moment} {s : SshState} {i ch : Nat} {bytes : Bytes} {p : SshProto} (hl : s.link i = .ready (some p)) (hp : p.service = .uploadPack)
    (hu : Spec.Unfinished true bytes) : sshFate X m s i (.data ch bytes) = .busy := by
  have h1 := (C92_ssh_fetch_false X m s i ch p hl hp bytes hu).2
  have h2 := (spins_exact _ { want := [], have_ := [], caps := p.caps, firstLine := true } bytes (Nat.le_refl _)).2 hu (bytes.length + 1)
  unfold sshFate
  rw [h1]
  simp only
  rw [hl]
  simp only [hp]
  rw [h2]

theorem duo_ssh_stopped {W V : Nat} {P : ServerExt} {d : Duo} (h : d.shell.stopped V) (m : Moment) (i : Nat) (e : SshEvent) : d.handle W V P m (.ssh i e) = (none, d) := by
  unfold Duo.handle
  simp only
  rw [if_pos h]

theorem duo_http_stopped {W V : Nat} {P : ServerExt} {d : Duo} (h : d.web.stopped W) (m : Moment) (r : HttpReq) : d.handle W V P m (.http r) = (none, d) := by
  unfold Duo.handle
  simp only
  rw [if_pos h]

/-- A process that has stopped does not start again. -/
theorem duo_handle_ssh {W V : Nat} {P : ServerExt} {d : Duo} (h : d.shell.stopped V) (m : Moment) (v : Visit) : (d.handle W V P m v).2.shell.stopped V := by
  cases v with
  | ssh i e => rw [duo_ssh_stopped h]; exact h
  | http r =>
    unfold Duo.handle
    simp only
    split
    · exact h
    · split <;> exact h

theorem duo_run_ssh {W V : Nat} {P : ServerExt} : ∀ (l : BothHist) {d : Duo}, d.shell.stopped V → (d.run W V P l).shell.stopped V
  | [], _, h => h
  | x :: l, _, h => duo_run_ssh l (duo_handle_ssh h x.1 x.2)

theorem duo_handle_http {W V : Nat} {P : ServerExt} {d : Duo} (h : d.web.stopped W) (m : Moment) (v : Visit) : (d.handle W V P m v).2.web.stopped W := by
  cases v with
  | http r => rw [duo_http_stopped h]; exact h
  | ssh i e =>
    unfold Duo.handle
    simp only
    split
    · exact h
    · split <;> exact h

theorem bothStep_other {P : ServerExt} {m : Moment} {s : Both} {i j : Nat} {e : SshEvent} (h : j ≠ i) : (bothStep P m s (.ssh i e)).link j = s.link j := by
  simp only [bothStep, sshStep, Both.ssh]
  rw [if_neg h]

/-- Fetches that break off, each on a connection of its own. -/
theorem duo_breaks {W V : Nat} {P : ServerExt} : ∀ (asks : List (Moment × Nat × Nat × Bytes)) (d : Duo), (asks.map (fun a => a.2.1)).Nodup →
    (∀ a ∈ asks, ∃ p, d.state.link a.2.1 = .ready (some p) ∧ p.service = .uploadPack) → (∀ a ∈ asks, Spec.Unfinished true a.2.2.2) → V ≤ d.shell.taken + asks.length →
    (d.run W V P (asks.map (fun a => (a.1, .ssh a.2.1 (.data a.2.2.1 a.2.2.2))))).shell.stopped V
  | [], _, _, _, _, h => .inr h
  | (m, i, ch, body) :: asks, d, hn, hl, hu, h => by
    by_cases hs : d.shell.stopped V
    · exact duo_run_ssh _ hs
    · obtain ⟨p, h1, h2⟩ := hl _ (.head _)
      have hf := sshFate_breaks (X := P.X) (m := m) (s := d.state.ssh) (ch := ch) h1 h2 (hu _ (.head _))
      have e : (d.handle W V P m (.ssh i (.data ch body))).2 = { d with state := bothStep P m d.state (.ssh i (.data ch body)), shell := { d.shell with taken := d.shell.taken + 1 } } := by
        unfold Duo.handle
        simp only
        rw [if_neg hs, hf]
      rw [List.map_cons, List.nodup_cons] at hn
      rw [List.map_cons]
      show ((d.handle W V P m (.ssh i (.data ch body))).2.run W V P _).shell.stopped V
      rw [e]
      refine duo_breaks asks _ hn.2 (fun a ha => ?_) (fun a ha => hu a (.tail _ ha)) ?_
      · obtain ⟨q, q1, q2⟩ := hl a (.tail _ ha)
        refine ⟨q, ?_, q2⟩
        rw [← q1]
        exact bothStep_other (fun he => hn.1 (List.mem_map.2 ⟨a, ha, he⟩))
      · simp only [List.length_cons] at h ⊢
        omega

/-- **C136 is false** over SSH: as many clients that are connected for a fetch, and break it off behind a complete packet before `done`, as the SSH process has workers, and it never answers anything
again, whoever asks, on whatever connection, whatever it did before. -/
theorem C136_ssh_workers_false (W V : Nat) (P : ServerExt) (d : Duo) (asks : List (Moment × Nat × Nat × Bytes)) (hnd : (asks.map (fun a => a.2.1)).Nodup)
    (hl : ∀ a ∈ asks, ∃ p, d.state.link a.2.1 = .ready (some p) ∧ p.service = .uploadPack) (hu : ∀ a ∈ asks, Spec.Unfinished true a.2.2.2) (hn : V ≤ asks.length)
    (later : BothHist) (m : Moment) (i : Nat) (e : SshEvent) :
    ((d.run W V P (asks.map (fun a => (a.1, .ssh a.2.1 (.data a.2.2.1 a.2.2.2))) ++ later)).handle W V P m (.ssh i e)).1 = none := by
  rw [duo_append, duo_ssh_stopped (duo_run_ssh later (duo_breaks asks d hnd hl hu (by omega)))]

/-- **C136 is false** over SSH: the clients need not be malicious, the first round of a negotiation that needs more than one is enough. -/
theorem C136_ssh_rounds_false (W V : Nat) (P : ServerExt) (d : Duo) {caps : Bytes} (hc : caps.length ≤ 4000) (ha : ∀ x ∈ caps, x.toNat < 128)
    (asks : List (Moment × Nat × Nat × Hash × List Hash × List Hash)) (hnd : (asks.map (fun a => a.2.1)).Nodup)
    (hl : ∀ a ∈ asks, ∃ p, d.state.link a.2.1 = .ready (some p) ∧ p.service = .uploadPack) (hn : V ≤ asks.length) (later : BothHist) (m : Moment) (i : Nat) (e : SshEvent) :
    ((d.run W V P (asks.map (fun a => (a.1, .ssh a.2.1 (.data a.2.2.1 (Spec.roundMsg caps a.2.2.2.1 a.2.2.2.2.1 a.2.2.2.2.2)))) ++ later)).handle W V P m (.ssh i e)).1 = none := by
  have := C136_ssh_workers_false W V P d (asks.map (fun a => (a.1, a.2.1, a.2.2.1, Spec.roundMsg caps a.2.2.2.1 a.2.2.2.2.1 a.2.2.2.2.2)))
    (by rw [List.map_map]; exact hnd) (fun a h => by obtain ⟨b, hb, rfl⟩ := List.mem_map.1 h; exact hl b hb)
    (fun a h => by obtain ⟨b, hb, rfl⟩ := List.mem_map.1 h; exact roundMsg_unfinished hc ha _ _ _) (by rw [List.length_map]; exact hn) later m i e
  rw [List.map_map] at this
  exact this

/-- **C136 is false** over SSH: one client that has sent the commands of a push and then a pack of fourteen bytes ends the SSH process. -/
theorem C136_ssh_push_false (W V : Nat) (P : ServerExt) (d : Duo) (m0 : Moment) (j ch : Nat) (p : SshProto) (hl : d.state.link j = .ready (some p)) (hp : p.service = .receivePack)
    (hc : p.commands ≠ []) (later : BothHist) (m : Moment) (i : Nat) (e : SshEvent) :
    ((d.run W V P ((m0, .ssh j (.data ch selfDeltaPack)) :: later)).handle W V P m (.ssh i e)).1 = none := by
  have h1 := (C92_ssh_push_false P.X m0 d.state.ssh j ch p hl hp hc).2
  have hf : sshFate P.X m0 d.state.ssh j (.data ch selfDeltaPack) = .overflow := by
    unfold sshFate
    rw [h1]
    simp only
    rw [show d.state.ssh.link j = .ready (some p) from hl]
    simp only [hp]
  have hs : (d.handle W V P m0 (.ssh j (.data ch selfDeltaPack))).2.shell.stopped V := by
    by_cases hs : d.shell.stopped V
    · rw [duo_ssh_stopped hs]
      exact hs
    · unfold Duo.handle
      simp only
      rw [if_neg hs, hf]
      exact .inl rfl
  show (((d.handle W V P m0 (.ssh j (.data ch selfDeltaPack))).2.run W V P later).handle W V P m (.ssh i e)).1 = none
  rw [duo_ssh_stopped (duo_run_ssh later hs)]

/-! ## What is kept -/

/-- The requests over HTTP of a history. -/
def Spec.overHttp (h : BothHist) : BothHist := h.filter (fun x => match x.2 with | .http _ => true | .ssh _ _ => false)

/-- The messages over SSH of a history. -/
def Spec.overSsh (h : BothHist) : BothHist := h.filter (fun x => match x.2 with | .http _ => false | .ssh _ _ => true)

/-- What the processes keep is what the servers keep after the requests and messages that were handled. -/
theorem duo_state (W V : Nat) (P : ServerExt) (h : BothHist) : ∃ h', h'.Sublist h ∧ (Duo.run W V P { state := .empty } h).state = runBoth P .empty h' ∧
    (¬ (Duo.run W V P { state := .empty } h).web.stopped W → Spec.overHttp h' = Spec.overHttp h) ∧
    (¬ (Duo.run W V P { state := .empty } h).shell.stopped V → Spec.overSsh h' = Spec.overSsh h) := by
  induction h using List.reverseRecOn with
  | nil => exact ⟨[], .slnil, rfl, fun _ => rfl, fun _ => rfl⟩
  | append_singleton h x ih =>
    obtain ⟨m, v⟩ := x
    obtain ⟨h', i1, i2, i3, i4⟩ := ih
    rw [duo_concat]
    set d := Duo.run W V P { state := .empty } h with hd
    have step : (d.handle W V P m v).2.state = bothStep P m d.state v → ∃ h'', h''.Sublist (h ++ [(m, v)]) ∧ (d.handle W V P m v).2.state = runBoth P .empty h'' ∧
        (¬ (d.handle W V P m v).2.web.stopped W → Spec.overHttp h'' = Spec.overHttp (h ++ [(m, v)])) ∧
        (¬ (d.handle W V P m v).2.shell.stopped V → Spec.overSsh h'' = Spec.overSsh (h ++ [(m, v)])) := by
      intro e
      refine ⟨h' ++ [(m, v)], i1.append (.refl _), ?_, fun hs => ?_, fun hs => ?_⟩
      · rw [e, i2, runBoth_append]
        rfl
      · have := i3 (fun hw => hs (duo_handle_http hw m v))
        unfold Spec.overHttp at this ⊢
        rw [List.filter_append, List.filter_append, this]
      · have := i4 (fun hw => hs (duo_handle_ssh hw m v))
        unfold Spec.overSsh at this ⊢
        rw [List.filter_append, List.filter_append, this]
    cases v with
    | http r =>
      by_cases hs : d.web.stopped W
      · rw [duo_http_stopped hs]
        refine ⟨h', i1.trans (List.sublist_append_left _ _), i2, fun hn => absurd hs hn, fun hn => ?_⟩
        rw [i4 hn]
        unfold Spec.overSsh
        rw [List.filter_append]
        simp
      · refine step ?_
        unfold Duo.handle
        simp only
        rw [if_neg hs]
        split <;> rfl
    | ssh i e =>
      by_cases hs : d.shell.stopped V
      · rw [duo_ssh_stopped hs]
        refine ⟨h', i1.trans (List.sublist_append_left _ _), i2, fun hn => ?_, fun hn => absurd hs hn⟩
        rw [i3 hn]
        unfold Spec.overHttp
        rw [List.filter_append]
        simp
      · refine step ?_
        unfold Duo.handle
        simp only
        rw [if_neg hs]
        split <;> rfl

open Classical in
/-- How many of the requests over HTTP are fetches that break off. -/
noncomputable def Spec.brokenHttp (h : BothHist) : Nat := (h.filter (fun x => decide (∃ r, x.2 = .http r ∧ Spec.BreaksOff r))).length

theorem brokenHttp_concat (h : BothHist) (m : Moment) (v : Visit) : Spec.brokenHttp h ≤ Spec.brokenHttp (h ++ [(m, v)]) := by
  unfold Spec.brokenHttp
  rw [List.filter_append, List.length_append]
  omega

open Classical in
theorem brokenHttp_breaks (h : BothHist) (m : Moment) {r : HttpReq} (hr : Spec.BreaksOff r) : Spec.brokenHttp (h ++ [(m, .http r)]) = Spec.brokenHttp h + 1 := by
  unfold Spec.brokenHttp
  rw [List.filter_append, List.length_append]
  congr 1
  rw [List.filter_eq_self.2]
  · rfl
  · intro x hx
    obtain rfl := List.mem_singleton.1 hx
    exact decide_eq_true ⟨r, rfl, hr⟩

theorem duo_web {W V : Nat} {P : ServerExt} (h : BothHist)
    (hh : ∀ a m r b, h = a ++ (m, .http r) :: b → (serve P m (Duo.run W V P { state := .empty } a).state.web r).1 = .hang → Spec.BreaksOff r) :
    (Duo.run W V P { state := .empty } h).web.aborted = false ∧ (Duo.run W V P { state := .empty } h).web.taken ≤ Spec.brokenHttp h := by
  induction h using List.reverseRecOn with
  | nil => exact ⟨rfl, Nat.zero_le _⟩
  | append_singleton h x ih =>
    obtain ⟨m, v⟩ := x
    obtain ⟨i1, i2⟩ := ih fun a m' r b e => hh a m' r (b ++ [(m, v)]) (by rw [e]; simp)
    have hb := brokenHttp_concat h m v
    rw [duo_concat]
    set d := Duo.run W V P { state := .empty } h with hd
    cases v with
    | ssh i e =>
      unfold Duo.handle
      simp only
      split
      · exact ⟨i1, i2.trans hb⟩
      · split <;> exact ⟨i1, i2.trans hb⟩
    | http r =>
      by_cases hs : d.web.stopped W
      · rw [duo_http_stopped hs]
        exact ⟨i1, i2.trans hb⟩
      · unfold Duo.handle
        simp only
        rw [if_neg hs]
        by_cases hr : Spec.BreaksOff r
        · rw [(breaksOff_fate hr).1, brokenHttp_breaks h m hr]
          exact ⟨i1, by simp only; omega⟩
        · have hn : (serve P m d.state.web r).1 ≠ .hang := fun e => hr (hh h m r [] rfl e)
          have : ∃ y, fate P m d.state.web r = .answered y := by
            unfold fate
            cases e : (serve P m d.state.web r).1 with
            | reply y => exact ⟨y, rfl⟩
            | hang => exact absurd e hn
          obtain ⟨y, e⟩ := this
          rw [e]
          exact ⟨i1, by simp only; omega⟩

theorem fate_answered {P : ServerExt} {m : Moment} {s : ServerState} {r : HttpReq} (out : Reply Payload) : fate P m s r = .answered out ↔ (serve P m s r).1 = .reply out := by
  unfold fate
  cases e : (serve P m s r).1 with
  | reply y => simp
  | hang =>
    simp only [reduceCtorEq, iff_false]
    split
    · split <;> simp
    · simp

/-- **C136 (partial)** Whatever happens on the SSH server, also when it does not answer anybody any more, the HTTP server answers as long as fewer fetches over HTTP have broken off than it has workers, and no other
request over HTTP went on for ever: everybody gets the answer that belongs to all requests over HTTP and those messages over SSH that were handled.
(Missing from the full claim: more such fetches, and requests that exhaust the stack, see `C136_workers_false` and `C136_push_false`.) -/
theorem C136_apart_partial (W V : Nat) (P : ServerExt) (h : BothHist) (hW : Spec.brokenHttp h < W)
    (hh : ∀ a m r b, h = a ++ (m, .http r) :: b → (serve P m (Duo.run W V P { state := .empty } a).state.web r).1 = .hang → Spec.BreaksOff r) :
    ∃ h', h'.Sublist h ∧ Spec.overHttp h' = Spec.overHttp h ∧ ∀ m r out,
      ((Duo.run W V P { state := .empty } h).handle W V P m (.http r)).1 = some (.http out) ↔ (serve P m (runBoth P .empty h').web r).1 = .reply out := by
  obtain ⟨h', i1, i2, i3, _⟩ := duo_state W V P h
  obtain ⟨w1, w2⟩ := duo_web h hh
  have hs : ¬ (Duo.run W V P { state := .empty } h).web.stopped W := by
    rintro (e | e)
    · rw [w1] at e
      cases e
    · omega
  refine ⟨h', i1, i3 hs, fun m r out => ?_⟩
  rw [← i2, ← fate_answered]
  unfold Duo.handle
  simp only
  rw [if_neg hs]
  cases fate P m (Duo.run W V P { state := .empty } h).state.web r <;> simp

/-- A message that breaks off a fetch on connection `i`. -/
def Spec.SshBreaks (s : Both) (i : Nat) (e : SshEvent) : Prop :=
  ∃ p ch bytes, s.link i = .ready (some p) ∧ p.service = .uploadPack ∧ e = .data ch bytes ∧ Spec.Unfinished true bytes

theorem duo_shell {W V : Nat} {P : ServerExt} (h : BothHist) (bad : List Nat)
    (hh : ∀ a m i e b, h = a ++ (m, .ssh i e) :: b → (Duo.run W V P { state := .empty } a).state.link i ≠ .hung →
      (sshStep P.X m (Duo.run W V P { state := .empty } a).state.ssh i e).2.link i = .hung → i ∈ bad ∧ Spec.SshBreaks (Duo.run W V P { state := .empty } a).state i e) :
    (Duo.run W V P { state := .empty } h).shell.aborted = false ∧ ∃ l : List Nat, l.Nodup ∧ l ⊆ bad ∧ l.length = (Duo.run W V P { state := .empty } h).shell.taken ∧
      ∀ i ∈ l, (Duo.run W V P { state := .empty } h).state.link i = .hung := by
  induction h using List.reverseRecOn with
  | nil => exact ⟨rfl, [], .nil, List.nil_subset _, rfl, fun _ h => nomatch h⟩
  | append_singleton h x ih =>
    obtain ⟨m, v⟩ := x
    obtain ⟨i1, l, i2, i3, i4, i5⟩ := ih fun a m' i e b q => hh a m' i e (b ++ [(m, v)]) (by rw [q]; simp)
    rw [duo_concat]
    set d := Duo.run W V P { state := .empty } h with hd
    have stays : ∀ i, d.state.link i = .hung → (bothStep P m d.state v).link i = .hung := by
      intro i hi
      cases v with
      | http r => exact hi
      | ssh j e =>
        by_cases hj : i = j
        · subst hj
          simp only [bothStep, sshStep, Both.ssh, if_pos, hi, sshLinkStep]
        · rw [bothStep_other hj, hi]
    cases v with
    | http r =>
      unfold Duo.handle
      simp only
      split
      · exact ⟨i1, l, i2, i3, i4, i5⟩
      · split <;> exact ⟨i1, l, i2, i3, i4, fun i hi => stays i (i5 i hi)⟩
    | ssh i e =>
      by_cases hs : d.shell.stopped V
      · rw [duo_ssh_stopped hs]
        exact ⟨i1, l, i2, i3, i4, i5⟩
      unfold Duo.handle
      simp only
      rw [if_neg hs]
      by_cases hl : d.state.link i = .hung
      · have : sshFate P.X m d.state.ssh i e = .waits := by
          have h2 : (sshStep P.X m d.state.ssh i e).2.link i = .hung := stays i hl
          unfold sshFate
          rw [h2]
          simp only
          rw [show d.state.ssh.link i = .hung from hl]
        rw [this]
        exact ⟨i1, l, i2, i3, i4, fun i hi => stays i (i5 i hi)⟩
      · by_cases ha : (sshStep P.X m d.state.ssh i e).2.link i = .hung
        · obtain ⟨b1, p, ch, bytes, b2, b3, b4, b5⟩ := hh h m i e [] rfl hl ha
          subst b4
          rw [sshFate_breaks (X := P.X) (m := m) (s := d.state.ssh) (ch := ch) b2 b3 b5]
          refine ⟨i1, i :: l, List.nodup_cons.2 ⟨fun hi => hl (i5 i hi), i2⟩, List.cons_subset.2 ⟨b1, i3⟩, by simp only [List.length_cons]; omega, ?_⟩
          intro j hj
          rcases List.mem_cons.1 hj with rfl | hj
          · exact ha
          · exact stays j (i5 j hj)
        · have : sshFate P.X m d.state.ssh i e = .handled := by
            unfold sshFate
            split
            · rename_i e'
              exact absurd e' ha
            · rfl
          rw [this]
          exact ⟨i1, l, i2, i3, i4, fun i hi => stays i (i5 i hi)⟩

/-- **C136 (partial)** Whatever happens on the HTTP server, the SSH server handles every message of the others as long as fewer connections have broken off a fetch than it has workers, and nothing else went on for ever
(see `C92_ssh_partial`): the others are sent what belongs to all messages over SSH and those requests over HTTP that were handled.
(Missing from the full claim: more such connections, and messages that exhaust the stack, see `C136_ssh_workers_false` and `C136_ssh_push_false`.) -/
theorem C136_ssh_kept_partial (W V : Nat) (P : ServerExt) (h : BothHist) (bad : List Nat) (hV : bad.length < V)
    (hh : ∀ a m i e b, h = a ++ (m, .ssh i e) :: b → (Duo.run W V P { state := .empty } a).state.link i ≠ .hung →
      (sshStep P.X m (Duo.run W V P { state := .empty } a).state.ssh i e).2.link i = .hung → i ∈ bad ∧ Spec.SshBreaks (Duo.run W V P { state := .empty } a).state i e) :
    ∃ h', h'.Sublist h ∧ Spec.overSsh h' = Spec.overSsh h ∧ ∀ m i e, (sshStep P.X m (runBoth P .empty h').ssh i e).2.link i ≠ .hung →
      ((Duo.run W V P { state := .empty } h).handle W V P m (.ssh i e)).1 = some (.ssh (sshStep P.X m (runBoth P .empty h').ssh i e).1) := by
  obtain ⟨h', i1, i2, _, i4⟩ := duo_state W V P h
  obtain ⟨w1, l, w2, w3, w4, _⟩ := duo_shell h bad hh
  have hs : ¬ (Duo.run W V P { state := .empty } h).shell.stopped V := by
    rintro (e | e)
    · rw [w1] at e
      cases e
    · have := (List.subperm_of_subset w2 w3).length_le
      omega
  refine ⟨h', i1, i4 hs, fun m i e hn => ?_⟩
  rw [← i2] at hn ⊢
  unfold Duo.handle
  simp only
  rw [if_neg hs]
  have : sshFate P.X m (Duo.run W V P { state := .empty } h).state.ssh i e = .handled := by
    unfold sshFate
    split
    · rename_i e'
      exact absurd e' hn
    · rfl
  rw [this]

end Gust

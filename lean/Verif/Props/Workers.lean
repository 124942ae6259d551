import Verif.Model.Workers
import Verif.Props.Answered
import Verif.Props.Rounds

/-! # C136: whether some clients can stop the server for the others -/

namespace Gust

/-- A fetch that breaks off behind a complete packet before it says `done` (as the rounds of git's negotiation do, C127). -/
def Spec.BreaksOff (r : HttpReq) : Prop :=
  (∃ repo, route r.method r.path r.service = .uploadPack repo) ∧ Spec.Unfinished true r.body

theorem breaksOff_loop {body : Bytes} (h : Spec.Unfinished true body) :
    fetchLoop (body.length + 1) { want := [], have_ := [], caps := [], firstLine := true } body = .spin := by
  have := (spins_exact _ fetchInit body (Nat.le_refl _)).2 h (body.length + 1)
  unfold fetchInit at this
  exact this

/-- Such a fetch changes nothing and takes a worker for ever. -/
theorem breaksOff_fate {P : ServerExt} {m : Moment} {s : ServerState} {r : HttpReq} (h : Spec.BreaksOff r) : fate P m s r = .busy ∧ serve P m s r = (.hang, s) := by
  obtain ⟨⟨repo, hr⟩, hu⟩ := h
  have h1 : serve P m s r = (.hang, s) := by
    unfold serve
    rw [hr]
    simp only
    unfold httpUploadPack
    rw [breaksOff_loop hu]
    rfl
  refine ⟨?_, h1⟩
  unfold fate
  rw [h1, hr]
  simp only
  rw [breaksOff_loop hu]

theorem handle_stopped {W : Nat} {P : ServerExt} {p : Proc} (h : p.aborted = true ∨ W ≤ p.taken) (m : Moment) (r : HttpReq) : p.handle W P m r = (none, p) := by
  unfold Proc.handle
  rw [if_pos h]

theorem run_stopped {W : Nat} {P : ServerExt} {p : Proc} (h : p.aborted = true ∨ W ≤ p.taken) : ∀ l, p.run W P l = p
  | [] => rfl
  | x :: l => by
    unfold Proc.run
    rw [List.foldl_cons, handle_stopped h]
    exact run_stopped h l

theorem proc_append (W : Nat) (P : ServerExt) (p : Proc) (a b : List (Moment × HttpReq)) : p.run W P (a ++ b) = (p.run W P a).run W P b := List.foldl_append

theorem run_breaksOff {W : Nat} {P : ServerExt} : ∀ (l : List (Moment × HttpReq)) (p : Proc), (∀ x ∈ l, Spec.BreaksOff x.2) →
    (p.run W P l).aborted = true ∨ min W (p.taken + l.length) ≤ (p.run W P l).taken
  | [], p, _ => .inr (Nat.min_le_right _ _)
  | x :: l, p, h => by
    by_cases hs : p.aborted = true ∨ W ≤ p.taken
    · rw [run_stopped hs]
      exact hs.imp id fun hs => by omega
    · have e : (p.handle W P x.1 x.2).2 = { p with taken := p.taken + 1 } := by
        unfold Proc.handle
        rw [if_neg hs, (breaksOff_fate (h x (.head _))).1, (breaksOff_fate (h x (.head _))).2]
      have ih := run_breaksOff (W := W) (P := P) l { p with taken := p.taken + 1 } fun y hy => h y (.tail _ hy)
      unfold Proc.run at ih ⊢
      rw [List.foldl_cons, e]
      refine ih.imp id fun ih => ?_
      simp only [List.length_cons] at ih ⊢
      omega

/-- **C136 is false**: as many fetches that break off as the process has workers, whatever they ask for, and it never answers anything again, whoever asks. This holds of every process, whatever it
did before. -/
theorem C136_workers_false (W : Nat) (P : ServerExt) (p : Proc) (bad : List (Moment × HttpReq)) (hbad : ∀ x ∈ bad, Spec.BreaksOff x.2) (hn : W ≤ bad.length)
    (later : List (Moment × HttpReq)) (m : Moment) (r : HttpReq) : ((p.run W P (bad ++ later)).handle W P m r).1 = none := by
  have h : (p.run W P bad).aborted = true ∨ W ≤ (p.run W P bad).taken := (run_breaksOff bad p hbad).imp id fun h => by omega
  rw [proc_append, run_stopped h, handle_stopped h]

/-- **C136 is false**: the clients need not be malicious. Once `W` of them have sent the first round of a negotiation, as git does by itself when it has more than a few commits to offer, nobody is
answered any more. -/
theorem C136_rounds_false (W : Nat) (P : ServerExt) (p : Proc) {u g : Bytes} (hu : Spec.CleanUrl u) (hg : g = [] ∨ g = ascii ".git") {caps : Bytes} (hl : caps.length ≤ 4000)
    (ha : ∀ x ∈ caps, x.toNat < 128) (asks : List (Moment × Hash × List Hash × List Hash)) (hn : W ≤ asks.length) (later : List (Moment × HttpReq)) (m : Moment) (r : HttpReq) :
    ((p.run W P (asks.map (fun a => (a.1, Spec.fetchReq (u ++ g) (Spec.roundMsg caps a.2.1 a.2.2.1 a.2.2.2))) ++ later)).handle W P m r).1 = none := by
  refine C136_workers_false W P p _ ?_ (by rw [List.length_map]; exact hn) later m r
  intro x hx
  obtain ⟨a, _, rfl⟩ := List.mem_map.1 hx
  exact ⟨⟨u, route_fetch hu hg⟩, roundMsg_unfinished hl ha _ _ _⟩

/-- **C136 is false**: one push of a pack of fourteen bytes ends the process. -/
theorem C136_push_false (W : Nat) (P : ServerExt) (p : Proc) (m0 : Moment) {u g : Bytes} (hu : Spec.CleanUrl u) (hg : g = [] ∨ g = ascii ".git") {c : Spec.PushCmd} (hc : c.Ok) {caps : Bytes}
    (hl : caps.length ≤ 4000) (ha : ∀ x ∈ caps, x.toNat < 128) (later : List (Moment × HttpReq)) (m : Moment) (r : HttpReq) :
    ((p.run W P ((m0, Spec.pushReq (u ++ g) (Spec.pushBody c [] caps selfDeltaPack)) :: later)).handle W P m r).1 = none := by
  set q := Spec.pushReq (u ++ g) (Spec.pushBody c [] caps selfDeltaPack) with hq
  have h : (p.handle W P m0 q).2.aborted = true ∨ W ≤ (p.handle W P m0 q).2.taken := by
    by_cases hs : p.aborted = true ∨ W ≤ p.taken
    · rw [handle_stopped hs]
      exact hs
    · refine .inl ?_
      have e := C92_push_false P p.state m0 hu hg hc hl ha
      have hr : route q.method q.path q.service = .receivePack u := route_push hu hg
      rw [← hq] at e
      have f : fate P m0 p.state q = .overflow := by
        unfold fate
        rw [e, hr]
      unfold Proc.handle
      rw [if_neg hs, f]
  unfold Proc.run
  rw [List.foldl_cons]
  exact (congrArg (fun p => (Proc.handle W P m p r).1) (run_stopped h later)).trans (by rw [handle_stopped h])

open Classical in
/-- How many of the requests break off. -/
noncomputable def Spec.broken (h : List (Moment × HttpReq)) : Nat := (h.filter (fun x => decide (Spec.BreaksOff x.2))).length

open Classical in
theorem proc_state {W : Nat} {P : ServerExt} {s0 : ServerState} : ∀ (h : List (Moment × HttpReq)) (_ : Spec.broken h < W),
    (∀ a x b, h = a ++ x :: b → (serve P x.1 (runServer P s0 a) x.2).1 = .hang → Spec.BreaksOff x.2) →
    Proc.run W P { state := s0 } h = { state := runServer P s0 h, taken := Spec.broken h, aborted := false } := by
  intro h
  induction h using List.reverseRecOn with
  | nil => intros; rfl
  | append_singleton h x ih =>
    intro hW hh
    have hb : Spec.broken (h ++ [x]) = Spec.broken h + (if Spec.BreaksOff x.2 then 1 else 0) := by
      unfold Spec.broken
      rw [List.filter_append, List.length_append]
      congr 1
      by_cases hx : Spec.BreaksOff x.2
      · simp [hx]
      · simp [hx]
    have hs : runServer P s0 (h ++ [x]) = (serve P x.1 (runServer P s0 h) x.2).2 := by
      unfold runServer
      rw [List.foldl_append]
      rfl
    rw [proc_append, ih (by omega) fun a y b e => hh a y (b ++ [x]) (by rw [e]; simp)]
    show (Proc.handle W P x.1 _ x.2).2 = _
    rw [hb, hs]
    unfold Proc.handle
    by_cases hx : Spec.BreaksOff x.2
    · rw [if_pos hx] at hb
      rw [if_neg (by simp only [Bool.false_eq_true, false_or]; omega), (breaksOff_fate hx).1, if_pos hx]
    · rw [if_neg hx]
      rw [if_neg (by simp only [Bool.false_eq_true, false_or]; omega)]
      have hn : (serve P x.1 (runServer P s0 h) x.2).1 ≠ .hang := fun e => hx (hh h x [] rfl e)
      have : ∃ y, fate P x.1 (runServer P s0 h) x.2 = .answered y := by
        unfold fate
        cases e : (serve P x.1 (runServer P s0 h) x.2).1 with
        | reply y => exact ⟨y, rfl⟩
        | hang => exact absurd e hn
      obtain ⟨y, e⟩ := this
      rw [e]
      rfl

open Classical in
/-- **C136 (partial)** As long as fewer fetches have broken off than there are workers, and no other request went on for ever (see `C92_answered_partial` for which do not), the server is there for
everybody: it answers as if the fetches that broke off had never been sent. (Missing from the full claim: more such fetches, and requests that exhaust the stack, see `C136_workers_false` and `C136_push_false`.) -/
theorem C136_kept_partial (W : Nat) (P : ServerExt) (h : List (Moment × HttpReq)) (hW : Spec.broken h < W)
    (hh : ∀ a x b, h = a ++ x :: b → (serve P x.1 (runServer P .empty a) x.2).1 = .hang → Spec.BreaksOff x.2) (m : Moment) (r : HttpReq) (out : Reply Payload) :
    ((Proc.run W P { state := .empty } h).handle W P m r).1 = some out ↔
      (serve P m (runServer P .empty (h.filter (fun x => decide (¬ Spec.BreaksOff x.2)))) r).1 = .reply out := by
  have same : ∀ (l : List (Moment × HttpReq)) (s : ServerState), runServer P s (l.filter (fun x => decide (¬ Spec.BreaksOff x.2))) = runServer P s l := by
    intro l
    induction l with
    | nil => intro s; rfl
    | cons x l ih =>
      intro s
      by_cases hx : Spec.BreaksOff x.2
      · rw [List.filter_cons_of_neg (by simpa using hx), ih]
        show _ = runServer P (serve P x.1 s x.2).2 l
        rw [(breaksOff_fate hx).2]
      · rw [List.filter_cons_of_pos (by simpa using hx)]
        exact ih _
  rw [same, proc_state h hW hh]
  unfold Proc.handle
  rw [if_neg (by simp only [Bool.false_eq_true, false_or]; omega)]
  unfold fate
  cases e : (serve P m (runServer P .empty h) r).1 with
  | reply y => simp only [Option.some.injEq, Outcome.reply.injEq]
  | hang =>
    simp only
    constructor
    · intro q
      split at q
      · rename_i y hy
        split at hy
        · split at hy <;> cases hy
        · cases hy
      · cases q
      · cases q
    · intro q
      cases q

/-- A project is pushed to a process with two workers and one client begins to negotiate. The refs can still be read, by everybody. When two more begin nobody reads anything any more. -/
example (w : Hash) : ∃ (push : HttpReq) (out : Bytes), let neg : Moment × HttpReq := (demoMoment, Spec.fetchReq (ascii "/app") (Spec.roundMsg (ascii "multi_ack_detailed") w [] [w]));
    ((Proc.run 2 demoServer { state := .empty } [(demoMoment, push), neg]).handle 2 demoServer demoMoment (Spec.refsReq (ascii "/app") .uploadPack)).1 = some (.ok (.bytes out)) ∧
    ∀ later m r, ((Proc.run 2 demoServer { state := .empty } ([(demoMoment, push), neg] ++ ([neg, neg] ++ later))).handle 2 demoServer m r).1 = none := by
  obtain ⟨pack, rep, out, h, h1, h2, h3, _⟩ := C128_offered_false
  have hb : Spec.BreaksOff (Spec.fetchReq (ascii "/app") (Spec.roundMsg (ascii "multi_ack_detailed") w [] [w])) :=
    ⟨⟨ascii "/app", by
      have := route_fetch (u := ascii "/app") (g := []) app_url (.inl rfl)
      rwa [List.append_nil] at this⟩, roundMsg_unfinished (by decide) (by decide) _ _ _⟩
  set push := Spec.pushReq (ascii "/app") (Spec.pushBody appCmd [] (ascii "report-status") pack) with hp
  have hn : ¬ Spec.BreaksOff push := by
    rintro ⟨⟨repo, e⟩, _⟩
    have : route push.method push.path push.service = .receivePack (ascii "/app") := by
      have := route_push (u := ascii "/app") (g := []) app_url (.inl rfl)
      rwa [List.append_nil] at this
    rw [this] at e
    cases e
  refine ⟨push, out, ?_, fun later m r => ?_⟩
  · rw [C136_kept_partial]
    · rw [List.filter_cons_of_pos (by simpa using hn), List.filter_cons_of_neg (by simpa using hb), List.filter_nil]
      rw [h1] at h3
      exact h3
    · unfold Spec.broken
      rw [List.filter_cons_of_neg (by simpa using hn), List.filter_cons_of_pos (by simpa using hb), List.filter_nil]
      exact Nat.lt_succ_self 1
    · intro a x b e hh
      match a, e with
      | [], e =>
        injection e with e1 _
        rw [← e1] at hh
        have := hh.symm.trans h2
        cases this
      | [_], e =>
        injection e with _ e
        injection e with e _
        rw [← e]
        exact hb
      | _ :: _ :: a, e =>
        injection e with _ e
        injection e with _ e
        exact absurd e.symm (List.append_ne_nil_of_right_ne_nil _ (List.cons_ne_nil _ _))
  · rw [proc_append]
    refine C136_workers_false 2 demoServer _ _ ?_ (by exact Nat.le_refl 2) later m r
    intro x hx
    simp only [List.mem_cons, List.not_mem_nil, or_false, or_self] at hx
    rw [hx]
    exact hb

end Gust

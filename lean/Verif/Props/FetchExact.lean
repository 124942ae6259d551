import Verif.Props.Protocol
import Verif.Lemmas.Halt

/-! # C18: exactly which fetch requests are never answered -/

namespace Gust

namespace Spec

/-- Number written in hexadecimal digits, continuing `acc`. -/
def hexNumber : Nat → Bytes → Option Nat
  | acc, [] => some acc
  | acc, c :: s => (hexVal c).bind fun d => hexNumber (acc * 16 + d) s

/-- The number in a length field of four bytes; the first may be a plus sign. -/
def lenField (a : Bytes) : Option Nat :=
  if a.length = 4 then (if a.head? = some 43 then hexNumber 0 a.tail else hexNumber 0 a) else none

/-- The line names an id. -/
def NamesId (l : Bytes) : Prop := l.take 4 = ascii "want" ∨ l.take 4 = ascii "have"

instance (l : Bytes) : Decidable (NamesId l) := by unfold NamesId; infer_instance

/-- A line the server can digest: at least four bytes; if it names an id, there is text of 40 bytes from the sixth on, and the first such line goes on with text. -/
def Digestible (first : Bool) (l : Bytes) : Prop :=
  4 ≤ l.length ∧ (NamesId l → 45 ≤ l.length ∧ utf8Valid ((l.take 45).drop 5) = true ∧ (first = true → 46 ≤ l.length ∧ utf8Valid (l.drop 46) = true))

/-- A request that breaks off behind a complete packet and has not said `done`; all lines are digestible. `first`: no line before named an id. -/
inductive Unfinished : Bool → Bytes → Prop
  | empty (first : Bool) : Unfinished first []
  | flush (first : Bool) (a rest : Bytes) : lenField a = some 0 → Unfinished first rest → Unfinished first (a ++ rest)
  | line (first : Bool) (a l rest : Bytes) : lenField a = some (l.length + 4) → Digestible first l → l.take 4 ≠ ascii "done" →
      Unfinished (first && !decide (NamesId l)) rest → Unfinished first (a ++ (l ++ rest))

end Spec

theorem hexVal_eq (c : UInt8) : Spec.hexVal c = hexCharValue c := by
  unfold Spec.hexVal hexCharValue
  repeat' split
  all_goals first | rfl | (simp only [Option.some.injEq]; omega) | omega

theorem hexNumber_eq : ∀ (acc : Nat) (s : Bytes), Spec.hexNumber acc s = parseDigits hexCharValue 16 acc s
  | _, [] => rfl
  | acc, c :: s => by
    rw [Spec.hexNumber, parseDigits, hexVal_eq]
    cases hexCharValue c with
    | none => rfl
    | some d => exact hexNumber_eq _ s

theorem lenField_eq {a : Bytes} (h : a.length = 4) : Spec.lenField a = parseHexUsize a := by
  match a, h with
  | [x, b, c, d], _ =>
    have key : ∀ s : Bytes, s.length ≤ 4 → s ≠ [] → parseDigits hexCharValue 16 0 s =
        (if s = [] then none else match parseDigits hexCharValue 16 0 s with
          | some v => if v < U64 then some v else none
          | none => none) := by
      intro s hs h0
      rw [if_neg h0]
      cases hp : parseDigits hexCharValue 16 0 s with
      | none => rfl
      | some v =>
        have h1 := parseDigits_hex_lt _ _ _ hp
        have h3 : 16 ^ s.length ≤ 16 ^ 4 := Nat.pow_le_pow_right (by decide) hs
        simp only
        rw [if_pos (by unfold U64; omega)]
    unfold Spec.lenField parseHexUsize parseUnsigned
    simp only [List.length_cons, List.length_nil, if_true, List.head?_cons, Option.some.injEq, List.tail_cons, stripPlus]
    split
    · rw [hexNumber_eq]; exact key _ (by simp) (by simp)
    · rw [hexNumber_eq]; exact key _ (by simp) (by simp)

/-- A line the server goes on after. -/
theorem fetchLine_some (s : FetchState) (l : Bytes) : (∃ s', fetchLine s l = .ok (some s')) ↔ Spec.Digestible s.firstLine l ∧ l.take 4 ≠ ascii "done" := by
  have id_ : ∀ (P : Bytes → Res (Option FetchState)), (∃ s', (lineId l >>= P) = .ok (some s')) ↔
      (45 ≤ l.length ∧ utf8Valid ((l.take 45).drop 5) = true) ∧ ∃ s', P ((l.take 45).drop 5) = .ok (some s') := by
    intro P
    unfold lineId slice
    by_cases h : 45 ≤ l.length
    · rw [if_pos ⟨by omega, h⟩]
      simp only [Res.bind_ok]
      by_cases hu : utf8Valid ((l.take 45).drop 5) = true
      · rw [if_pos hu]
        simp [h, hu]
      · rw [if_neg hu]
        simp [hu]
    · rw [if_neg (by omega)]
      simp [h]
  have caps : ∀ s : FetchState, (∃ s', (firstCaps s l >>= fun s => pure (some s)) = .ok (some s')) ↔
      (s.firstLine = true → 46 ≤ l.length ∧ utf8Valid (l.drop 46) = true) := by
    intro s
    unfold firstCaps sliceFrom
    by_cases hf : s.firstLine = true
    · rw [if_pos hf]
      by_cases h : 46 ≤ l.length
      · rw [if_pos h]
        simp only [Res.bind_ok]
        by_cases hu : utf8Valid (l.drop 46) = true
        · rw [if_pos hu]; simp [h, hu]
        · rw [if_neg hu]; simp [hf, hu]
      · rw [if_neg h]; simp [hf, h]
    · rw [if_neg hf]; simp [hf]
  unfold fetchLine slice
  by_cases h4 : 4 ≤ l.length
  · rw [if_pos ⟨by omega, h4⟩]
    simp only [Res.bind_ok, List.drop_zero]
    by_cases hw : l.take 4 = ascii "want"
    · rw [if_pos hw]
      refine (id_ _).trans ?_
      rw [caps, Spec.Digestible, Spec.NamesId, hw]
      simp only [true_or, true_implies, h4, true_and]
      exact ⟨fun h => ⟨⟨h.1.1, h.1.2, h.2⟩, by decide⟩, fun h => ⟨⟨h.1.1, h.1.2.1⟩, h.1.2.2⟩⟩
    · rw [if_neg hw]
      by_cases hh : l.take 4 = ascii "have"
      · rw [if_pos hh]
        refine (id_ _).trans ?_
        rw [caps, Spec.Digestible, Spec.NamesId, hh]
        simp only [or_true, true_implies, h4, true_and]
        exact ⟨fun h => ⟨⟨h.1.1, h.1.2, h.2⟩, by decide⟩, fun h => ⟨⟨h.1.1, h.1.2.1⟩, h.1.2.2⟩⟩
      · rw [if_neg hh]
        by_cases hd : l.take 4 = ascii "done"
        · rw [if_pos hd]; simp [hd]
        · rw [if_neg hd]
          simp [Spec.Digestible, Spec.NamesId, h4, hw, hh, hd]
  · rw [if_neg (by omega)]
    simp [Spec.Digestible, h4]

theorem fetchLine_ne_spin (s : FetchState) (l : Bytes) : fetchLine s l ≠ .spin := by
  have key : (fetchLine s l).halts := by
    have caps : ∀ s, (firstCaps s l).halts := by
      intro s
      unfold firstCaps sliceFrom
      split
      · refine Res.halts_bind (by split <;> trivial) fun t _ => ?_
        split <;> trivial
      · trivial
    have id_ : (lineId l).halts := by
      unfold lineId slice
      refine Res.halts_bind (by split <;> trivial) fun t _ => ?_
      split <;> trivial
    unfold fetchLine slice
    refine Res.halts_bind (by split <;> trivial) fun t _ => ?_
    split
    · exact Res.halts_bind id_ fun _ _ => Res.halts_bind (caps _) fun _ _ => trivial
    · split
      · exact Res.halts_bind id_ fun _ _ => Res.halts_bind (caps _) fun _ _ => trivial
      · split <;> trivial
  intro e
  rw [e] at key
  exact key

theorem fetchLine_first {s s' : FetchState} {l : Bytes} (h : fetchLine s l = .ok (some s')) : s'.firstLine = (s.firstLine && !decide (Spec.NamesId l)) := by
  have caps : ∀ s s' : FetchState, firstCaps s l = .ok s' → s'.firstLine = false := by
    intro s s' h
    unfold firstCaps at h
    split at h
    · rw [Res.bind_eq_ok] at h
      obtain ⟨t, _, h⟩ := h
      split at h
      · cases h; rfl
      · cases h
    · rename_i hf
      cases h
      simpa using hf
  unfold fetchLine at h
  rw [Res.bind_eq_ok] at h
  obtain ⟨cmd, hc, h⟩ := h
  unfold slice at hc
  split at hc
  · cases hc
    rw [List.drop_zero] at h
    split at h
    · rename_i hw
      simp only [Res.bind_eq_ok, Res.pure_eq, Res.ok.injEq, Option.some.injEq] at h
      obtain ⟨_, _, s1, h1, rfl⟩ := h
      rw [caps _ _ h1, decide_eq_true (p := Spec.NamesId l) (.inl hw), Bool.not_true, Bool.and_false]
    · rename_i hw
      split at h
      · rename_i hh
        simp only [Res.bind_eq_ok, Res.pure_eq, Res.ok.injEq, Option.some.injEq] at h
        obtain ⟨_, _, s1, h1, rfl⟩ := h
        rw [caps _ _ h1, decide_eq_true (p := Spec.NamesId l) (.inr hh), Bool.not_true, Bool.and_false]
      · rename_i hh
        split at h
        · cases h
        · cases h
          rw [decide_eq_false (fun q : Spec.NamesId l => q.elim hw hh), Bool.not_false, Bool.and_true]
  · cases hc

theorem spins_exact : ∀ (n : Nat) (s : FetchState) (body : Bytes), body.length ≤ n → ((∀ fuel, fetchLoop fuel s body = .spin) ↔ Spec.Unfinished s.firstLine body) := by
  intro n
  induction n with
  | zero =>
    intro s body h
    have : body = [] := List.length_eq_zero_iff.1 (by omega)
    subst this
    exact ⟨fun _ => .empty _, fun _ fuel => fetchLoop_nil fuel s⟩
  | succ n ih =>
    intro s body h
    constructor
    · intro hs
      by_cases hb : body = []
      · subst hb
        exact .empty _
      have hs' : ∀ fuel, fetchLoop (fuel + 1) s body = .spin := fun fuel => hs (fuel + 1)
      have hd : body = body.take 4 ++ body.drop 4 := (List.take_append_drop 4 body).symm
      have h0 := hs' 0
      rw [fetchLoop, readPktLine, if_neg hb] at h0
      by_cases h4 : body.length < 4
      · rw [if_pos h4] at h0; cases h0
      have hl : (body.take 4).length = 4 := by rw [List.length_take]; omega
      cases hp : parseHexUsize (body.take 4) with
      | none => rw [if_neg h4, hp] at h0; cases h0
      | some k =>
        have hf : Spec.lenField (body.take 4) = some k := by rw [lenField_eq hl, hp]
        by_cases hk : k = 0
        · subst hk
          have hr : readPktLine body = .ok ((0, []), body.drop 4) := by
            rw [readPktLine, if_neg hb, if_neg h4, hp]
            rfl
          rw [hd]
          refine .flush _ _ _ hf ((ih s _ (by rw [List.length_drop]; omega)).1 fun fuel => ?_)
          rw [← fetchLoop_flush fuel s hr ⟨rfl, rfl⟩]
          exact hs' fuel
        · by_cases hk4 : k < 4
          · rw [if_neg h4, hp] at h0
            simp only [hk, if_false, hk4, if_true] at h0
            cases h0
          · by_cases hlen : (body.drop 4).length < k - 4
            · rw [if_neg h4, hp] at h0
              simp only [hk, if_false, hk4, hlen, if_true] at h0
              cases h0
            · have hr : readPktLine body = .ok ((k, (body.drop 4).take (k - 4)), (body.drop 4).drop (k - 4)) := by
                rw [readPktLine, if_neg hb, if_neg h4, hp]
                simp only [hk, if_false, hk4, hlen]
              have hll : ((body.drop 4).take (k - 4)).length = k - 4 := by rw [List.length_take]; omega
              have step := fun fuel => fetchLoop_step fuel s hr (fun q => hk q.1)
              have some_ : ∃ s', fetchLine s ((body.drop 4).take (k - 4)) = .ok (some s') := by
                · have h1 := hs' 0
                  cases hq : fetchLine s ((body.drop 4).take (k - 4)) with
                  | ok r =>
                    cases r with
                    | none => rw [step, hq] at h1; cases h1
                    | some s' => exact ⟨s', rfl⟩
                  | err e => rw [step, hq] at h1; cases h1
                  | panic => rw [step, hq] at h1; cases h1
                  | spin => exact absurd hq (fetchLine_ne_spin s _)
              obtain ⟨s', hs1⟩ := some_
              obtain ⟨q1, q2⟩ := (fetchLine_some s _).1 ⟨s', hs1⟩
              have e : body = body.take 4 ++ ((body.drop 4).take (k - 4) ++ (body.drop 4).drop (k - 4)) := by
                rw [List.take_append_drop, List.take_append_drop]
              rw [e]
              refine .line _ _ _ _ (by rw [hf, hll]; congr 1; omega) q1 q2 ?_
              rw [← fetchLine_first hs1]
              refine (ih s' _ (by simp only [List.length_drop]; omega)).1 fun fuel => ?_
              have := hs' fuel
              rw [step, hs1] at this
              exact this
    · intro hu fuel
      cases fuel with
      | zero => rfl
      | succ fuel =>
        obtain ⟨f, hf⟩ : ∃ f, f = s.firstLine := ⟨_, rfl⟩
        rw [← hf] at hu
        cases hu with
        | empty => exact fetchLoop_nil _ s
        | flush _ a rest ha hr =>
          have hl : a.length = 4 := by
            unfold Spec.lenField at ha
            split at ha
            · assumption
            · cases ha
          rw [lenField_eq hl] at ha
          have hr' : readPktLine (a ++ rest) = .ok ((0, []), rest) := by
            rw [readPktLine, if_neg (by intro e; rw [List.append_eq_nil_iff] at e; rw [e.1] at hl; cases hl), if_neg (by rw [List.length_append]; omega), List.take_left' hl, ha,
              List.drop_left' hl]
            rfl
          rw [fetchLoop_flush fuel s hr' ⟨rfl, rfl⟩]
          rw [List.length_append] at h
          exact (ih s rest (by omega)).2 (by rw [← hf]; exact hr) fuel
        | line _ a l rest ha h1 h2 hr =>
          have hl : a.length = 4 := by
            unfold Spec.lenField at ha
            split at ha
            · assumption
            · cases ha
          rw [lenField_eq hl] at ha
          have hr' : readPktLine (a ++ (l ++ rest)) = .ok ((l.length + 4, l), rest) := by
            rw [readPktLine, if_neg (by intro e; rw [List.append_eq_nil_iff] at e; rw [e.1] at hl; cases hl), if_neg (by rw [List.length_append]; omega), List.take_left' hl, ha,
              List.drop_left' hl]
            simp
          rw [hf] at h1 hr
          obtain ⟨s', hs'⟩ := (fetchLine_some s l).2 ⟨h1, h2⟩
          rw [fetchLoop_step fuel s hr' (fun q => by omega), hs']
          simp only [List.length_append] at h
          exact (ih s' rest (by omega)).2 (by rw [fetchLine_first hs']; exact hr) fuel

theorem fetchAnswer_halts {St : FetchStore} (hfull : St.fullPack.halts) (hinc : ∀ w v, (St.incPack w v).halts) (caps : List Capability) (wants haves : List Bytes) :
    (fetchAnswer St caps wants haves).halts := by
  unfold fetchAnswer
  split
  · exact Res.halts_bind (Res.halts_unwrap hfull) fun _ _ => trivial
  · split
    · exact Res.halts_bind (Res.halts_unwrap (hinc _ _)) fun _ _ => trivial
    · trivial

/-- **C18** Exactly which requests are never answered, when storage answers: those that break off behind a complete packet without having said `done`, all of whose lines can be
digested. Every other byte string is answered or rejected, within one step more than it is long. -/
theorem C18_exact (body : Bytes) (St : FetchStore) (ord : List Bytes → List Bytes) (hfull : St.fullPack.halts) (hinc : ∀ w v, (St.incPack w v).halts) :
    ((∀ fuel, gitUploadPack fuel St ord body = .spin) ↔ Spec.Unfinished true body) ∧
      (¬ Spec.Unfinished true body → (gitUploadPack (body.length + 1) St ord body).halts) := by
  have iff := spins_exact _ fetchInit body (Nat.le_refl _)
  have ans : ¬ Spec.Unfinished true body → (gitUploadPack (body.length + 1) St ord body).halts := by
    intro hn
    rcases C18_fetch_dichotomy body fetchInit with h | h
    · unfold gitUploadPack
      unfold fetchInit at h
      exact Res.halts_bind h fun p _ => fetchAnswer_halts hfull hinc _ _ _
    · exact absurd (iff.1 h) hn
  refine ⟨⟨fun h => ?_, fun h fuel => ?_⟩, ans⟩
  · by_contra hn
    have := ans hn
    rw [h] at this
    exact this
  · have := iff.2 h fuel
    unfold gitUploadPack
    unfold fetchInit at this
    rw [this]
    rfl

/-- A request of well-formed lines that says `done` is finished. -/
theorem done_finished (ls : List Spec.ReqLine) (h : ∀ l ∈ ls, l.Ok) (t rest : Bytes) (ht : t.length ≤ 65000) : ¬ Spec.Unfinished true (doneBody ls t rest) := by
  intro hu
  have := (spins_exact _ fetchInit (doneBody ls t rest) (Nat.le_refl _)).2 hu (ls.length + (0 + 1))
  rw [fetchLoop_done ls h t rest ht fetchInit 0] at this
  cases this

/-- A request of well-formed lines without `done` is not. -/
theorem lines_unfinished (ls : List Spec.ReqLine) (h : ∀ l ∈ ls, l.Ok) : Spec.Unfinished true (Spec.stream (ls.map Spec.ReqLine.pkt)) := by
  refine ((C18_exact (Spec.stream (ls.map Spec.ReqLine.pkt)) { known := fun _ => false, fullPack := .panic, incPack := fun _ _ => .panic } id trivial (fun _ _ => trivial)).1).1 fun fuel => ?_
  exact C18_fetch_no_done_spins ls h _ _ fuel

/-- C18 at work: a request in which the length of a line is wrong, and one with a line of three bytes, end; a line and a flush packet without `done` does not, whatever storage answers. -/
example (St : FetchStore) (ord : List Bytes → List Bytes) (hfull : St.fullPack.halts) (hinc : ∀ w v, (St.incPack w v).halts) :
    (gitUploadPack 100 St ord (ascii "0100deepen 1\n")).halts ∧ (gitUploadPack 100 St ord (ascii "0007abc")).halts ∧
      ∀ fuel, gitUploadPack fuel St ord (ascii "000cdeepen 1" ++ ascii "+000") = .spin := by
  refine ⟨trivial, trivial, ((C18_exact _ St ord hfull hinc).1.2 ?_)⟩
  exact .line true (ascii "000c") (ascii "deepen 1") (ascii "+000") (by decide) ⟨by decide, fun h => absurd h (by decide)⟩ (by decide)
    (.flush _ (ascii "+000") [] (by decide) (.empty _))

end Gust

import Verif.Model.HostKey
import Verif.Base.Tactics

/-! # C100: the SSH server keeps its host key -/

namespace Gust

/-- Process `i` accepts connections and shows the key `k`. -/
def Spec.Presents {K : Type} (s : KeySys K) (i : Nat) (k : K) : Prop := ∃ d, s.phase i = .own k d true

/-- Process `i` has decided to generate a key, and the key is not yet in the file. -/
def Spec.Creating {K : Type} (s : KeySys K) (i : Nat) : Prop := ∃ k, s.phase i = .create k ∨ ∃ b, s.phase i = .own k false b

/-- No server is started while another one is creating the key file, and none is killed while it does. -/
def Spec.OrderlyEv {K : Type} (s : KeySys K) : KeyEv K → Prop
  | .begin _ _ => ∀ j, ¬ Spec.Creating s j
  | .stop i => ¬ Spec.Creating s i
  | _ => True

/-- All events of a run are orderly. -/
def Spec.Orderly (X : KeyExt) : KeySys X.Key → List (KeyEv X.Key) → Prop
  | _, [] => True
  | s, e :: es => Spec.OrderlyEv s e ∧ ∀ s', keyStep X s e = some s' → Spec.Orderly X s' es

/-- Nothing has happened to the file yet. -/
def Untouched {K : Type} (s : KeySys K) : Prop := s.file = none ∧ ∀ j, s.phase j = .absent ∨ s.phase j = .stopped

/-- The key of this machine is `k`: one process is creating the file and the others are idle, or the file is there. -/
def HasKey (X : KeyExt) (k : X.Key) (s : KeySys X.Key) : Prop :=
  (∃ i, (∀ j, j ≠ i → s.phase j = .absent ∨ s.phase j = .stopped) ∧
    (s.phase i = .create k ∧ s.file = none ∨ (∃ b, s.phase i = .own k false b) ∧ s.file = some [])) ∨
  (s.file = some (X.toBytes k) ∧ ∀ j, s.phase j = .absent ∨ s.phase j = .stopped ∨ s.phase j = .load ∨ ∃ b, s.phase j = .own k true b)

theorem hasKey_presents {X : KeyExt} {k k' : X.Key} {s : KeySys X.Key} {i : Nat} (h : HasKey X k s) (hp : Spec.Presents s i k') : k' = k := by
  obtain ⟨d, hd⟩ := hp
  rcases h with ⟨i0, h1, h2⟩ | ⟨_, h⟩
  · by_cases e : i = i0
    · subst e
      rcases h2 with ⟨h2, _⟩ | ⟨⟨b, h2⟩, _⟩ <;> rw [hd] at h2 <;> cases h2
      rfl
    · rcases h1 i e with h1 | h1 <;> rw [hd] at h1 <;> cases h1
  · rcases h i with h | h | h | ⟨b, h⟩ <;> rw [hd] at h <;> cases h
    rfl

theorem untouched_step {X : KeyExt} {s s' : KeySys X.Key} {e : KeyEv X.Key} (h : Untouched s) (hs : keyStep X s e = some s') :
    Untouched s' ∨ ∃ k, HasKey X k s' := by
  obtain ⟨h1, h2⟩ := h
  cases e with
  | begin i k =>
    simp only [keyStep] at hs
    split at hs
    · cases hs
      refine .inr ⟨k, .inl ⟨i, fun j hj => ?_, .inl ⟨?_, h1⟩⟩⟩
      · simp only [setAt_other _ _ hj]
        exact h2 j
      · simp [setAt_same, h1]
    · cases hs
  | create i | write i | accept i | load i =>
    simp only [keyStep] at hs
    rcases h2 i with h | h <;> rw [h] at hs <;> cases hs
  | stop i =>
    cases hs
    refine .inl ⟨h1, fun j => ?_⟩
    by_cases e : j = i
    · subst e
      exact .inr (setAt_same _ _ _)
    · simp only [setAt_other _ _ e]
      exact h2 j

theorem hasKey_step {X : KeyExt} {k : X.Key} {s s' : KeySys X.Key} {e : KeyEv X.Key} (h : HasKey X k s) (ho : Spec.OrderlyEv s e)
    (hs : keyStep X s e = some s') : HasKey X k s' := by
  rcases h with ⟨i0, h1, h2⟩ | ⟨h1, h2⟩
  · have mid : Spec.Creating s i0 := by
      rcases h2 with ⟨h2, _⟩ | ⟨⟨b, h2⟩, _⟩
      · exact ⟨k, .inl h2⟩
      · exact ⟨k, .inr ⟨b, h2⟩⟩
    have idle : ∀ i, i ≠ i0 → ∀ p : KeyPhase X.Key, s.phase i = p → p = .absent ∨ p = .stopped := fun i hi p hp => hp ▸ h1 i hi
    cases e with
    | begin i k' => exact absurd mid (ho i0)
    | create i =>
      simp only [keyStep] at hs
      by_cases ei : i = i0
      · subst ei
        rcases h2 with ⟨h2, _⟩ | ⟨⟨b, h2⟩, _⟩ <;> rw [h2] at hs <;> cases hs
        exact .inl ⟨i, fun j hj => by simpa only [setAt_other _ _ hj] using h1 j hj, .inr ⟨⟨false, setAt_same _ _ _⟩, rfl⟩⟩
      · rcases h1 i ei with h | h <;> rw [h] at hs <;> cases hs
    | write i =>
      simp only [keyStep] at hs
      by_cases ei : i = i0
      · subst ei
        rcases h2 with ⟨h2, _⟩ | ⟨⟨b, h2⟩, h3⟩ <;> rw [h2] at hs <;> cases hs
        refine .inr ⟨by simp [h3, writeAt], fun j => ?_⟩
        by_cases ej : j = i
        · subst ej
          exact .inr (.inr (.inr ⟨b, setAt_same _ _ _⟩))
        · simp only [setAt_other _ _ ej]
          rcases h1 j ej with h | h
          · exact .inl h
          · exact .inr (.inl h)
      · rcases h1 i ei with h | h <;> rw [h] at hs <;> cases hs
    | accept i =>
      simp only [keyStep] at hs
      by_cases ei : i = i0
      · subst ei
        rcases h2 with ⟨h2, _⟩ | ⟨⟨b, h2⟩, h3⟩
        · rw [h2] at hs; cases hs
        · rw [h2] at hs
          cases b <;> cases hs
          exact .inl ⟨i, fun j hj => by simpa only [setAt_other _ _ hj] using h1 j hj, .inr ⟨⟨true, setAt_same _ _ _⟩, h3⟩⟩
      · rcases h1 i ei with h | h <;> rw [h] at hs <;> cases hs
    | load i =>
      simp only [keyStep] at hs
      by_cases ei : i = i0
      · subst ei
        rcases h2 with ⟨h2, _⟩ | ⟨⟨b, h2⟩, h3⟩ <;> rw [h2] at hs <;> cases hs
      · rcases h1 i ei with h | h <;> rw [h] at hs <;> cases hs
    | stop i =>
      cases hs
      have ei : i ≠ i0 := fun e => ho (e ▸ mid)
      refine .inl ⟨i0, fun j hj => ?_, ?_⟩
      · by_cases ej : j = i
        · subst ej
          exact .inr (setAt_same _ _ _)
        · simpa only [setAt_other _ _ ej] using h1 j hj
      · simpa only [setAt_other _ _ (Ne.symm ei)] using h2
  · have keep : ∀ (i : Nat) (p : KeyPhase X.Key), (p = .absent ∨ p = .stopped ∨ p = .load ∨ ∃ b, p = .own k true b) →
        HasKey X k { s with phase := setAt s.phase i p } := fun i p hp => .inr ⟨h1, fun j => by
      by_cases ej : j = i
      · subst ej
        simpa only [setAt_same] using hp
      · simpa only [setAt_other _ _ ej] using h2 j⟩
    cases e with
    | begin i k' =>
      simp only [keyStep] at hs
      split at hs
      · cases hs
        exact keep i _ (.inr (.inr (.inl (by simp [h1]))))
      · cases hs
    | create i =>
      simp only [keyStep] at hs
      rcases h2 i with h | h | h | ⟨b, h⟩ <;> rw [h] at hs <;> cases hs
    | write i =>
      simp only [keyStep] at hs
      rcases h2 i with h | h | h | ⟨b, h⟩ <;> rw [h] at hs <;> cases hs
    | accept i =>
      simp only [keyStep] at hs
      rcases h2 i with h | h | h | ⟨b, h⟩ <;> rw [h] at hs
      · cases hs
      · cases hs
      · cases hs
      · cases b <;> cases hs
        exact keep i _ (.inr (.inr (.inr ⟨true, rfl⟩)))
    | load i =>
      simp only [keyStep] at hs
      rcases h2 i with h | h | h | ⟨b, h⟩ <;> rw [h] at hs
      · cases hs
      · cases hs
      · simp only [h1, Option.bind_some, X.from_to] at hs
        cases hs
        have hk := keep i _ (.inr (.inr (.inr ⟨false, rfl⟩)))
        rwa [h1] at hk
      · cases hs
    | stop i =>
      cases hs
      exact keep i _ (.inr (.inl rfl))

theorem hasKey_run {X : KeyExt} {k : X.Key} : ∀ (es : List (KeyEv X.Key)) {s s' : KeySys X.Key}, HasKey X k s → Spec.Orderly X s es →
    keyRun X s es = some s' → HasKey X k s'
  | [], s, s', h, _, hr => by cases hr; exact h
  | e :: es, s, s', h, ho, hr => by
    simp only [keyRun, Option.bind_eq_some_iff] at hr
    obtain ⟨s1, h1, h2⟩ := hr
    exact hasKey_run es (hasKey_step h ho.1 h1) (ho.2 s1 h1) h2

theorem untouched_run {X : KeyExt} : ∀ (es : List (KeyEv X.Key)) {s s' : KeySys X.Key}, Untouched s → Spec.Orderly X s es →
    keyRun X s es = some s' → Untouched s' ∨ ∃ k, HasKey X k s'
  | [], s, s', h, _, hr => by cases hr; exact .inl h
  | e :: es, s, s', h, ho, hr => by
    simp only [keyRun, Option.bind_eq_some_iff] at hr
    obtain ⟨s1, h1, h2⟩ := hr
    rcases untouched_step h h1 with h | ⟨k, h⟩
    · exact untouched_run es h (ho.2 s1 h1) h2
    · exact .inr ⟨k, hasKey_run es h (ho.2 s1 h1) h2⟩

theorem orderly_append {X : KeyExt} : ∀ (es es' : List (KeyEv X.Key)) {s s' : KeySys X.Key}, Spec.Orderly X s (es ++ es') →
    keyRun X s es = some s' → Spec.Orderly X s es ∧ Spec.Orderly X s' es'
  | [], es', s, s', ho, hr => by cases hr; exact ⟨trivial, ho⟩
  | e :: es, es', s, s', ho, hr => by
    simp only [keyRun, Option.bind_eq_some_iff] at hr
    obtain ⟨s1, h1, h2⟩ := hr
    refine ⟨⟨ho.1, fun s2 h3 => ?_⟩, (orderly_append es es' (ho.2 s1 h1) h2).2⟩
    rw [h1] at h3
    cases h3
    exact (orderly_append es es' (ho.2 s1 h1) h2).1

/-- **C100 (partial)** On a new machine, however often the server is started and stopped: as long as no server is started or killed while one creates the key
file, all servers show the same key, at any two moments, and no start fails. (Missing: the cases excluded, see `C100_two_starts_false` and
`C100_killed_false`.) -/
theorem C100_same_key_partial (X : KeyExt) (es es' : List (KeyEv X.Key)) (s s' : KeySys X.Key) (ho : Spec.Orderly X (KeySys.new X.Key) (es ++ es'))
    (h1 : keyRun X (KeySys.new X.Key) es = some s) (h2 : keyRun X s es' = some s') :
    (∀ i j k k', Spec.Presents s i k → Spec.Presents s' j k' → k = k') ∧ ∀ i, s'.phase i ≠ .failed := by
  obtain ⟨o1, o2⟩ := orderly_append es es' ho h1
  have hu : Untouched (KeySys.new X.Key) := ⟨rfl, fun _ => .inl rfl⟩
  have nofail : ∀ s : KeySys X.Key, (Untouched s ∨ ∃ k, HasKey X k s) → ∀ i, s.phase i ≠ .failed := by
    intro s hs i hf
    rcases hs with ⟨_, h⟩ | ⟨k, ⟨i0, h1, h2⟩ | ⟨_, h⟩⟩
    · rcases h i with h | h <;> rw [hf] at h <;> cases h
    · by_cases e : i = i0
      · subst e
        rcases h2 with ⟨h2, _⟩ | ⟨⟨b, h2⟩, _⟩ <;> rw [hf] at h2 <;> cases h2
      · rcases h1 i e with h | h <;> rw [hf] at h <;> cases h
    · rcases h i with h | h | h | ⟨b, h⟩ <;> rw [hf] at h <;> cases h
  rcases untouched_run es hu o1 h1 with h | ⟨k0, h⟩
  · refine ⟨fun i j k k' hp _ => ?_, nofail s' (untouched_run es' h o2 h2)⟩
    obtain ⟨d, hd⟩ := hp
    rcases h.2 i with h | h <;> rw [hd] at h <;> cases h
  · have h' := hasKey_run es' h o2 h2
    exact ⟨fun i j k k' hp hp' => (hasKey_presents h hp).trans (hasKey_presents h' hp').symm, nofail s' (.inr ⟨k0, h'⟩)⟩

/-! ## Examples and negations -/

/-- Keys are 64 bytes. -/
def demoKeys : KeyExt where
  Key := { b : Bytes // b.length = 64 }
  toBytes := Subtype.val
  fromBytes b := if h : b.length = 64 then some ⟨b, h⟩ else none
  toBytes_length k := k.2
  from_to k := by simp [k.2]
  from_length b k h := by
    split at h
    · assumption
    · cases h

/-- The key of 64 equal bytes. -/
def sameKey (b : UInt8) : demoKeys.Key := ⟨List.replicate 64 b, by simp⟩

theorem sameKey_ne : sameKey 1 ≠ sameKey 2 := fun h => absurd (congrArg Subtype.val h) (by decide)

/-- Started, stopped and started again: the second server shows the key of the first. -/
example (X : KeyExt) (k k' : X.Key) : ∃ s, keyRun X (KeySys.new _)
      [.begin 0 k, .create 0, .accept 0, .write 0, .stop 0, .begin 1 k', .load 1, .accept 1] = some s ∧ Spec.Presents s 1 k := by
  refine ⟨_, by simp [keyRun, keyStep, KeySys.new, setAt, writeAt, X.from_to]; rfl, true, ?_⟩
  simp [setAt]

/-- **C100 is false** when two servers are started at the same time on a new machine: both see no file, both create one. They show different
keys, and the first one shows another key when it is started again. This holds for every kind of keys. -/
theorem C100_two_starts_false (X : KeyExt) (k k' : X.Key) : ∃ s s',
    keyRun X (KeySys.new _) [.begin 0 k, .begin 1 k', .create 0, .write 0, .accept 0, .create 1, .write 1, .accept 1] = some s ∧
    Spec.Presents s 0 k ∧ Spec.Presents s 1 k' ∧ keyRun X s [.stop 0, .begin 2 k, .load 2, .accept 2] = some s' ∧ Spec.Presents s' 2 k' := by
  refine ⟨_, _, by simp [keyRun, keyStep, KeySys.new, setAt, writeAt, X.from_to]; rfl, ⟨true, ?_⟩, ⟨true, ?_⟩,
    by simp [keyRun, keyStep, KeySys.new, setAt, writeAt, X.from_to]; rfl, true, ?_⟩ <;> simp [setAt]

example : ∃ (X : KeyExt) (k k' : X.Key), k ≠ k' := ⟨demoKeys, _, _, sameKey_ne⟩

/-- The same with both files created before the keys are written: the second key replaces the first one in the file. -/
theorem C100_both_write_false (X : KeyExt) (k k' : X.Key) : ∃ s s',
    keyRun X (KeySys.new _) [.begin 0 k, .begin 1 k', .create 0, .create 1, .write 0, .accept 0, .write 1, .accept 1] = some s ∧
    Spec.Presents s 0 k ∧ Spec.Presents s 1 k' ∧ keyRun X s [.stop 0, .begin 2 k, .load 2, .accept 2] = some s' ∧ Spec.Presents s' 2 k' := by
  have h := X.toBytes_length
  have hd : List.drop 64 (X.toBytes k) = [] := List.drop_of_length_le (Nat.le_of_eq (h k))
  refine ⟨_, _, by simp only [keyRun, keyStep, KeySys.new, setAt, writeAt, h]; rfl, ⟨true, ?_⟩, ⟨true, ?_⟩,
    by simp [keyRun, keyStep, setAt, X.from_to, hd]; rfl, true, ?_⟩ <;> simp [setAt]

/-- **C100**, part: however many servers are started and killed at whatever moments, the key file is missing, empty, or a complete key; so a start can fail only when it finds
an empty file. -/
theorem C100_file (X : KeyExt) (es : List (KeyEv X.Key)) (s : KeySys X.Key) (hr : keyRun X (KeySys.new X.Key) es = some s) :
    (s.file = none ∨ s.file = some [] ∨ ∃ k, s.file.bind X.fromBytes = some k) ∧
    ∀ i s', keyStep X s (.load i) = some s' → s'.phase i = .failed → s.file = none ∨ s.file = some [] := by
  have inv : ∀ (es : List (KeyEv X.Key)) (s s' : KeySys X.Key), (s.file = none ∨ s.file = some [] ∨ ∃ k, s.file = some (X.toBytes k)) → keyRun X s es = some s' →
      (s'.file = none ∨ s'.file = some [] ∨ ∃ k, s'.file = some (X.toBytes k)) := by
    intro es
    induction es with
    | nil => intro s s' h hr; cases hr; exact h
    | cons e es ih =>
      intro s s' h hr
      rw [keyRun] at hr
      obtain ⟨t, h1, h2⟩ := Option.bind_eq_some_iff.1 hr
      refine ih t s' ?_ h2
      cases e with
      | write i =>
        simp only [keyStep] at h1
        split at h1
        · rename_i k b _
          cases h1
          refine .inr (.inr ⟨k, ?_⟩)
          rcases h with h | h | ⟨k2, h⟩ <;> simp [h, writeAt, X.toBytes_length]
        · cases h1
      | create i =>
        simp only [keyStep] at h1
        split at h1
        · cases h1; exact .inr (.inl rfl)
        · cases h1
      | load i =>
        simp only [keyStep] at h1
        split at h1
        · split at h1 <;> (cases h1; exact h)
        · cases h1
      | stop i => cases h1; exact h
      | _ =>
        simp only [keyStep] at h1
        split at h1
        · cases h1; exact h
        · cases h1
  have h := inv es _ s (.inl rfl) hr
  refine ⟨?_, fun i s' h1 h2 => ?_⟩
  · rcases h with h | h | ⟨k, h⟩
    · exact .inl h
    · exact .inr (.inl h)
    · exact .inr (.inr ⟨k, by rw [h]; exact X.from_to k⟩)
  · rcases h with h | h | ⟨k, h⟩
    · exact .inl h
    · exact .inr h
    · exfalso
      simp only [keyStep, h, Option.bind_some, X.from_to] at h1
      split at h1
      · cases h1; simp [setAt] at h2
      · cases h1

/-- After a kill the file is empty and a start fails; after an orderly start it is a key. -/
example : (∃ s, keyRun demoKeys (KeySys.new _) [.begin 0 (sameKey 1), .create 0, .accept 0, .stop 0] = some s ∧ s.file = some []) ∧
    (∃ s k, keyRun demoKeys (KeySys.new _) [.begin 0 (sameKey 1), .create 0, .accept 0, .write 0] = some s ∧ s.file.bind demoKeys.fromBytes = some k) := by
  refine ⟨⟨_, rfl, rfl⟩, ?_⟩
  obtain ⟨s, hs⟩ : ∃ s, keyRun demoKeys (KeySys.new _) [.begin 0 (sameKey 1), .create 0, .accept 0, .write 0] = some s := ⟨_, rfl⟩
  have hf : s.file = some (sameKey 1).val := by cases hs; rfl
  rcases (C100_file demoKeys _ s hs).1 with h | h | ⟨k, h⟩
  · rw [hf] at h; cases h
  · rw [hf] at h; exact absurd (Option.some.inj h) (by decide)
  · exact ⟨s, k, hs, h⟩

/-- After the server was killed between creating the file and writing it, nothing but failing starts can follow. -/
def Stuck {K : Type} (s : KeySys K) : Prop :=
  s.file = some [] ∧ ∀ j, s.phase j = .absent ∨ s.phase j = .stopped ∨ s.phase j = .load ∨ s.phase j = .failed

theorem stuck_step {X : KeyExt} {s s' : KeySys X.Key} {e : KeyEv X.Key} (h : Stuck s) (hs : keyStep X s e = some s') : Stuck s' := by
  obtain ⟨h1, h2⟩ := h
  have keep : ∀ (i : Nat) (p : KeyPhase X.Key), (p = .absent ∨ p = .stopped ∨ p = .load ∨ p = .failed) →
      Stuck { s with phase := setAt s.phase i p } := fun i p hp => ⟨h1, fun j => by
    by_cases ej : j = i
    · subst ej
      simpa only [setAt_same] using hp
    · simpa only [setAt_other _ _ ej] using h2 j⟩
  have empty : X.fromBytes [] = none := by
    rcases hf : X.fromBytes [] with _ | k
    · rfl
    · exact absurd (X.from_length _ _ hf) (by decide)
  cases e with
  | begin i k =>
    simp only [keyStep] at hs
    split at hs
    · cases hs
      exact keep i _ (.inr (.inr (.inl (by simp [h1]))))
    · cases hs
  | create i | write i | accept i =>
    simp only [keyStep] at hs
    rcases h2 i with h | h | h | h <;> rw [h] at hs <;> cases hs
  | load i =>
    simp only [keyStep] at hs
    rcases h2 i with h | h | h | h <;> rw [h] at hs
    · cases hs
    · cases hs
    · simp only [h1, Option.bind_some, empty] at hs
      cases hs
      have hk := keep i _ (.inr (.inr (.inr rfl)))
      rwa [h1] at hk
    · cases hs
  | stop i =>
    cases hs
    exact keep i _ (.inr (.inl rfl))

theorem stuck_run {X : KeyExt} : ∀ (es : List (KeyEv X.Key)) {s s' : KeySys X.Key}, Stuck s → keyRun X s es = some s' → Stuck s'
  | [], s, s', h, hr => by cases hr; exact h
  | e :: es, s, s', h, hr => by
    simp only [keyRun, Option.bind_eq_some_iff] at hr
    obtain ⟨s1, h1, h2⟩ := hr
    exact stuck_run es (stuck_step h h1) h2

/-- **C100 is false** when the first server is killed between creating the file and writing the key: whatever follows, no server ever shows a key
again; every start fails. This holds for every kind of keys. -/
theorem C100_killed_false (X : KeyExt) (k : X.Key) : ∃ s, keyRun X (KeySys.new _) [.begin 0 k, .create 0, .accept 0, .stop 0] = some s ∧
    (∀ es s' i k', keyRun X s es = some s' → ¬ Spec.Presents s' i k') ∧
    ∀ i k', i ≠ 0 → ∃ s', keyRun X s [.begin i k', .load i] = some s' ∧ s'.phase i = .failed := by
  refine ⟨_, rfl, fun es s' i k' hr hp => ?_, fun i k' hi => ?_⟩
  · have h := stuck_run es ⟨rfl, fun j => ?_⟩ hr
    · obtain ⟨d, hd⟩ := hp
      rcases h.2 i with h | h | h | h <;> rw [hd] at h <;> cases h
    · by_cases ej : j = 0
      · subst ej
        exact .inr (.inl rfl)
      · exact .inl (by simp [setAt, ej, KeySys.new])
  · have empty : X.fromBytes [] = none := by
      rcases hf : X.fromBytes [] with _ | k
      · rfl
      · exact absurd (X.from_length _ _ hf) (by decide)
    refine ⟨{ file := some [], phase := setAt (setAt (setAt (setAt (setAt (setAt (fun _ => .absent) 0 (.create k)) 0 (.own k false false)) 0
      (.own k false true)) 0 .stopped) i .load) i .failed }, ?_, setAt_same _ _ _⟩
    simp [keyRun, keyStep, KeySys.new, setAt, hi, empty]

end Gust

import Verif.Model.TempFile
import Verif.Model.Text
import Verif.Base.Tactics

/-! # C59: concurrent pushes -/

namespace Gust

/-- Before any push: no push has begun. The directory may contain files left by earlier pushes. -/
structure Spec.Idle (s : PushSys) : Prop where
  start : ∀ i, s.phase i = .start
  log : ∀ i, s.log i = []
  fresh : ∀ t ino, s.dir t = some ino → ino < s.next
  one : ∀ t t' ino, s.dir t = some ino → s.dir t' = some ino → t = t'

/-- What a push has read (position, length, bytes) is from its own pack. -/
def Spec.ReadsOwn (pack : Bytes) (log : List (Nat × Nat × Bytes)) : Prop := ∀ r ∈ log, r.2.2 = (pack.drop r.1).take r.2.1

/-- Push `i` has a file. -/
def PushPhase.Active : PushPhase → Prop
  | .writing _ _ => True
  | .reading _ => True
  | _ => False

/-- What holds as long as every push creates its file. -/
structure TempInv (pack : Nat → Bytes) (sec : Nat → Int) (dir : Int → Option Nat) (next : Nat) (data : Nat → Bytes)
    (phase : Nat → PushPhase) (log : Nat → List (Nat × Nat × Bytes)) : Prop where
  fresh : ∀ t ino, dir t = some ino → ino < next
  one : ∀ t t' ino, dir t = some ino → dir t' = some ino → t = t'
  writing : ∀ i ino off, phase i = .writing ino off → dir (sec i) = some ino ∧ data ino = (pack i).take off ∧
    off ≤ (pack i).length
  reading : ∀ i ino, phase i = .reading ino → dir (sec i) = some ino ∧ data ino = pack i
  alone : ∀ i j, (phase i).Active → (phase j).Active → sec i = sec j → i = j
  log : ∀ i, Spec.ReadsOwn (pack i) (log i)
  crashed : ∀ i, phase i ≠ .crashed

theorem setAt_cases {β : Type} {f : Nat → β} {i j : Nat} {b c : β} (h : setAt f i b j = c) : (j = i ∧ b = c) ∨ (j ≠ i ∧ f j = c) := by
  by_cases hj : j = i
  · subst hj
    rw [setAt_same] at h
    exact .inl ⟨rfl, h⟩
  · rw [setAt_other _ _ hj] at h
    exact .inr ⟨hj, h⟩

theorem active_file {pack : Nat → Bytes} {sec : Nat → Int} {s : PushSys} (hi : TempInv pack sec s.dir s.next s.data s.phase s.log) {j : Nat}
    (h : (s.phase j).Active) : ∃ ino, s.dir (sec j) = some ino := by
  cases hp : s.phase j with
  | writing ino off => exact ⟨ino, (hi.writing j ino off hp).1⟩
  | reading ino => exact ⟨ino, (hi.reading j ino hp).1⟩
  | start => rw [hp] at h; exact h.elim
  | done => rw [hp] at h; exact h.elim
  | failed => rw [hp] at h; exact h.elim
  | crashed => rw [hp] at h; exact h.elim

/-- Appending at the end of what is written. -/
theorem writeAt_end (p : Bytes) (off k : Nat) (h : off + k ≤ p.length) :
    writeAt (p.take off) off ((p.drop off).take k) = p.take (off + k) := by
  have hl : (p.take off).length = off := by rw [List.length_take]; omega
  have hk : ((p.drop off).take k).length = k := by rw [List.length_take, List.length_drop]; omega
  unfold writeAt
  rw [hl, Nat.sub_self, List.replicate_zero, List.append_nil, List.take_of_length_le (Nat.le_of_eq hl), hk,
    List.drop_eq_nil_of_le (as := p.take off) (by omega), List.append_nil, List.take_add]

/-- One operation keeps the invariant, if opening for writing finds no file. -/
theorem tempInv_step {pack : Nat → Bytes} {sec : Nat → Int} {s t : PushSys} {e : PushEv} (hi : TempInv pack sec s.dir s.next s.data s.phase s.log)
    (h : pushEvent pack sec s e = some t) (hx : ∀ i, e = .openWrite i → s.dir (sec i) = none) : TempInv pack sec t.dir t.next t.data t.phase t.log := by
  cases e with
  | openWrite i =>
    have hd := hx i rfl
    simp only [pushEvent] at h
    split at h
    · rename_i hp
      rw [hd] at h
      simp only [Option.some.injEq] at h
      subst h
      dsimp only
      have hne : ∀ j ino, s.dir (sec j) = some ino → sec j ≠ sec i := by
        intro j ino hj e
        rw [e, hd] at hj
        cases hj
      have hlt : ∀ j ino, s.dir j = some ino → ino ≠ s.next := fun j ino hj => Nat.ne_of_lt (hi.fresh j ino hj)
      refine ⟨fun t ino ht => ?_, fun t t' ino h1 h2 => ?_, fun j ino off hj => ?_, fun j ino hj => ?_, fun j k hj hk e => ?_,
        hi.log, fun j hj => ?_⟩
      · by_cases e : t = sec i
        · subst e
          rw [setAt_same] at ht
          cases ht
          exact Nat.lt_succ_self _
        · rw [setAt_other _ _ e] at ht
          exact Nat.lt_succ_of_lt (hi.fresh t ino ht)
      · by_cases e : t = sec i <;> by_cases e' : t' = sec i
        · rw [e, e']
        · subst e
          rw [setAt_same] at h1
          rw [setAt_other _ _ e'] at h2
          cases h1
          exact absurd rfl (hlt _ _ h2)
        · subst e'
          rw [setAt_same] at h2
          rw [setAt_other _ _ e] at h1
          cases h2
          exact absurd rfl (hlt _ _ h1)
        · rw [setAt_other _ _ e] at h1
          rw [setAt_other _ _ e'] at h2
          exact hi.one _ _ _ h1 h2
      · rcases setAt_cases hj with ⟨rfl, h⟩ | ⟨_, h⟩
        · cases h
          exact ⟨setAt_same _ _ _, by rw [setAt_same, List.take_zero], Nat.zero_le _⟩
        · obtain ⟨a, b, c⟩ := hi.writing j ino off h
          exact ⟨by rw [setAt_other _ _ (hne _ _ a)]; exact a, by rw [setAt_other _ _ (hlt _ _ a)]; exact b, c⟩
      · rcases setAt_cases hj with ⟨rfl, h⟩ | ⟨_, h⟩
        · cases h
        · obtain ⟨a, b⟩ := hi.reading j ino h
          exact ⟨by rw [setAt_other _ _ (hne _ _ a)]; exact a, by rw [setAt_other _ _ (hlt _ _ a)]; exact b⟩
      · by_cases hji : j = i <;> by_cases hki : k = i
        · rw [hji, hki]
        · rw [setAt_other _ _ hki] at hk
          obtain ⟨ino, hf⟩ := active_file hi hk
          exact absurd (by rw [← e, hji]) (hne _ _ hf)
        · rw [setAt_other _ _ hji] at hj
          obtain ⟨ino, hf⟩ := active_file hi hj
          exact absurd (by rw [e, hki]) (hne _ _ hf)
        · rw [setAt_other _ _ hji] at hj
          rw [setAt_other _ _ hki] at hk
          exact hi.alone j k hj hk e
      · rcases setAt_cases hj with ⟨rfl, h⟩ | ⟨_, h⟩
        · cases h
        · exact hi.crashed j h
    · cases h
  | write i k =>
    simp only [pushEvent] at h
    split at h
    · rename_i ino off hp
      split at h
      · rename_i hk
        simp only [Option.some.injEq] at h
        subst h
        dsimp only
        obtain ⟨hd, hc, ho⟩ := hi.writing i ino off hp
        have hact : (s.phase i).Active := by rw [hp]; exact True.intro
        have hother : ∀ j ino', j ≠ i → (s.phase j).Active → s.dir (sec j) = some ino' → ino' ≠ ino := by
          rintro j ino' hj ha hd' rfl
          exact hj (hi.alone j i ha hact (hi.one _ _ _ hd' hd))
        refine ⟨hi.fresh, hi.one, fun j ino' off' hj => ?_, fun j ino' hj => ?_, fun j l hj hl e => ?_, hi.log, fun j hj => ?_⟩
        · rcases setAt_cases hj with ⟨rfl, h⟩ | ⟨hne, h⟩
          · cases h
            refine ⟨hd, ?_, hk.2⟩
            rw [setAt_same, hc]
            exact writeAt_end _ _ _ hk.2
          · obtain ⟨a, b, c⟩ := hi.writing j ino' off' h
            refine ⟨a, ?_, c⟩
            rw [setAt_other _ _ (hother j ino' hne (by rw [h]; exact True.intro) a)]
            exact b
        · rcases setAt_cases hj with ⟨rfl, h⟩ | ⟨hne, h⟩
          · cases h
          · obtain ⟨a, b⟩ := hi.reading j ino' h
            refine ⟨a, ?_⟩
            rw [setAt_other _ _ (hother j ino' hne (by rw [h]; exact True.intro) a)]
            exact b
        · have key : ∀ j, (setAt s.phase i (.writing ino (off + k)) j).Active → (s.phase j).Active := by
            intro j hj
            by_cases hji : j = i
            · rw [hji]; exact hact
            · rwa [setAt_other _ _ hji] at hj
          exact hi.alone j l (key j hj) (key l hl) e
        · rcases setAt_cases hj with ⟨rfl, h⟩ | ⟨_, h⟩
          · cases h
          · exact hi.crashed j h
      · cases h
    · cases h
  | openRead i =>
    simp only [pushEvent] at h
    split at h
    · rename_i ino off hp
      split at h
      · rename_i hk
        obtain ⟨hd, hc, ho⟩ := hi.writing i ino off hp
        have hact : (s.phase i).Active := by rw [hp]; exact True.intro
        rw [hd] at h
        simp only [Option.some.injEq] at h
        subst h
        dsimp only
        refine ⟨hi.fresh, hi.one, fun j ino' off' hj => ?_, fun j ino' hj => ?_, fun j l hj hl e => ?_, hi.log, fun j hj => ?_⟩
        · rcases setAt_cases hj with ⟨rfl, h⟩ | ⟨hne, h⟩
          · cases h
          · exact hi.writing j ino' off' h
        · rcases setAt_cases hj with ⟨rfl, h⟩ | ⟨hne, h⟩
          · cases h
            refine ⟨hd, ?_⟩
            show s.data ino = _
            rw [hc, hk, List.take_length]
          · exact hi.reading j ino' h
        · have key : ∀ j, (setAt s.phase i (.reading ino) j).Active → (s.phase j).Active := by
            intro j hj
            by_cases hji : j = i
            · rw [hji]; exact hact
            · rwa [setAt_other _ _ hji] at hj
          exact hi.alone j l (key j hj) (key l hl) e
        · rcases setAt_cases hj with ⟨rfl, h⟩ | ⟨_, h⟩
          · cases h
          · exact hi.crashed j h
      · cases h
    · cases h
  | read i pos n =>
    simp only [pushEvent] at h
    split at h
    · rename_i ino hp
      simp only [Option.some.injEq] at h
      subst h
      dsimp only
      obtain ⟨_, hc⟩ := hi.reading i ino hp
      refine ⟨hi.fresh, hi.one, hi.writing, hi.reading, hi.alone, fun j r hr => ?_, hi.crashed⟩
      by_cases hj : j = i
      · subst hj
        simp only [setAt_same, List.mem_append, List.mem_singleton] at hr
        rcases hr with hr | rfl
        · exact hi.log j r hr
        · simp only [hc]
      · simp only [setAt_other _ _ hj] at hr
        exact hi.log j r hr
    · cases h
  | fail i =>
    simp only [pushEvent] at h
    split at h
    · rename_i ino hp
      simp only [Option.some.injEq] at h
      subst h
      dsimp only
      refine ⟨hi.fresh, hi.one, fun j ino' off' hj => ?_, fun j ino' hj => ?_, fun j l hj hl e => ?_, hi.log, fun j hj => ?_⟩
      · rcases setAt_cases hj with ⟨rfl, h⟩ | ⟨_, h⟩
        · cases h
        · exact hi.writing j ino' off' h
      · rcases setAt_cases hj with ⟨rfl, h⟩ | ⟨_, h⟩
        · cases h
        · exact hi.reading j ino' h
      · have key : ∀ j, (setAt s.phase i .failed j).Active → (s.phase j).Active := by
          intro j hj
          by_cases hji : j = i
          · subst hji
            rw [setAt_same] at hj
            exact hj.elim
          · rwa [setAt_other _ _ hji] at hj
        exact hi.alone j l (key j hj) (key l hl) e
      · rcases setAt_cases hj with ⟨rfl, h⟩ | ⟨_, h⟩
        · cases h
        · exact hi.crashed j h
    · cases h
  | remove i =>
    simp only [pushEvent] at h
    split at h
    · rename_i ino hp
      obtain ⟨hd, hc⟩ := hi.reading i ino hp
      have hact : (s.phase i).Active := by rw [hp]; exact True.intro
      rw [hd] at h
      simp only [Option.some.injEq] at h
      subst h
      dsimp only
      have hsec : ∀ j, j ≠ i → (s.phase j).Active → sec j ≠ sec i := fun j hj ha e => hj (hi.alone j i ha hact e)
      have hdir : ∀ t ino', setAt s.dir (sec i) none t = some ino' → s.dir t = some ino' := by
        intro t ino' h
        by_cases e : t = sec i
        · subst e
          rw [setAt_same] at h
          cases h
        · rwa [setAt_other _ _ e] at h
      refine ⟨fun t ino' h => hi.fresh t ino' (hdir _ _ h), fun t t' ino' h1 h2 => hi.one t t' ino' (hdir _ _ h1) (hdir _ _ h2),
        fun j ino' off' hj => ?_, fun j ino' hj => ?_, fun j l hj hl e => ?_, hi.log, fun j hj => ?_⟩
      · rcases setAt_cases hj with ⟨rfl, h⟩ | ⟨hne, h⟩
        · cases h
        · obtain ⟨a, b⟩ := hi.writing j ino' off' h
          refine ⟨?_, b⟩
          rw [setAt_other _ _ (hsec j hne (by rw [h]; exact True.intro))]
          exact a
      · rcases setAt_cases hj with ⟨rfl, h⟩ | ⟨hne, h⟩
        · cases h
        · obtain ⟨a, b⟩ := hi.reading j ino' h
          refine ⟨?_, b⟩
          rw [setAt_other _ _ (hsec j hne (by rw [h]; exact True.intro))]
          exact a
      · have key : ∀ j, (setAt s.phase i .done j).Active → (s.phase j).Active := by
          intro j hj
          by_cases hji : j = i
          · subst hji
            rw [setAt_same] at hj
            exact hj.elim
          · rwa [setAt_other _ _ hji] at hj
        exact hi.alone j l (key j hj) (key l hl) e
      · rcases setAt_cases hj with ⟨rfl, h⟩ | ⟨_, h⟩
        · cases h
        · exact hi.crashed j h
    · cases h

/-- Whenever a push of this interleaving opens its file for writing, there is no file of that name. -/
def Spec.OwnFiles (pack : Nat → Bytes) (sec : Nat → Int) (s : PushSys) (es : List PushEv) : Prop :=
  ∀ before i rest m, es = before ++ .openWrite i :: rest → pushEvents pack sec s before = some m → m.dir (sec i) = none

theorem idle_inv {pack : Nat → Bytes} {sec : Nat → Int} {s : PushSys} (h : Spec.Idle s) : TempInv pack sec s.dir s.next s.data s.phase s.log := by
  refine ⟨h.fresh, h.one, fun i ino off hi => ?_, fun i ino hi => ?_, fun i j hi _ _ => ?_, fun i r hr => ?_, fun i hi => ?_⟩
  · rw [h.start] at hi; cases hi
  · rw [h.start] at hi; cases hi
  · rw [h.start] at hi; exact hi.elim
  · rw [h.log] at hr; cases hr
  · rw [h.start] at hi; cases hi

theorem tempInv_run {pack : Nat → Bytes} {sec : Nat → Int} : ∀ (es : List PushEv) {s t : PushSys}, TempInv pack sec s.dir s.next s.data s.phase s.log →
    Spec.OwnFiles pack sec s es → pushEvents pack sec s es = some t → TempInv pack sec t.dir t.next t.data t.phase t.log
  | [], s, t, hi, _, h => by
    cases h
    exact hi
  | e :: es, s, t, hi, ho, h => by
    obtain ⟨m, hm, h⟩ := Option.bind_eq_some_iff.1 h
    refine tempInv_run es (tempInv_step hi hm ?_) ?_ h
    · rintro i rfl
      exact ho [] i es s rfl rfl
    · intro before i rest m' he hb
      refine ho (e :: before) i rest m' (by rw [he]; rfl) ?_
      simp only [pushEvents, hm, Option.bind_some]
      exact hb

/-- **C59** (partial). In every interleaving of any number of pushes in which no push finds a file of the name it is about to
write, every push reads exactly the pack it received, at whatever positions, and no file operation fails. -/
theorem C59_own_files_partial {pack : Nat → Bytes} {sec : Nat → Int} {s t : PushSys} {es : List PushEv} (hs : Spec.Idle s)
    (ho : Spec.OwnFiles pack sec s es) (h : pushEvents pack sec s es = some t) (i : Nat) :
    Spec.ReadsOwn (pack i) (t.log i) ∧ t.phase i ≠ .crashed :=
  let hi := tempInv_run es (idle_inv hs) ho h
  ⟨hi.log i, hi.crashed i⟩

theorem pushEvents_append (pack : Nat → Bytes) (sec : Nat → Int) : ∀ (a b : List PushEv) (s : PushSys),
    pushEvents pack sec s (a ++ b) = (pushEvents pack sec s a).bind (fun m => pushEvents pack sec m b)
  | [], _, _ => rfl
  | e :: a, b, s => by
    simp only [List.cons_append, pushEvents]
    cases pushEvent pack sec s e with
    | none => rfl
    | some m => exact pushEvents_append pack sec a b m

/-- Files come from before or from a push that has begun. -/
def FilesFrom (sec : Nat → Int) (s0 s : PushSys) : Prop :=
  ∀ t, s.dir t ≠ none → s0.dir t ≠ none ∨ ∃ i, sec i = t ∧ s.phase i ≠ .start

theorem filesFrom_step {pack : Nat → Bytes} {sec : Nat → Int} {s0 s t : PushSys} {e : PushEv} (hf : FilesFrom sec s0 s)
    (h : pushEvent pack sec s e = some t) : FilesFrom sec s0 t := by
  -- a push that has begun stays so, and only opening for writing adds a file
  have key : ∀ (i : Nat) (ph : PushPhase) (d : Int → Option Nat), ph ≠ .start →
      (∀ x, d x ≠ none → s.dir x ≠ none ∨ x = sec i) →
      ∀ x, d x ≠ none → s0.dir x ≠ none ∨ ∃ j, sec j = x ∧ setAt s.phase i ph j ≠ .start := by
    intro i ph d hph hd x hx
    rcases hd x hx with h | rfl
    · rcases hf x h with h | ⟨j, hj, hs⟩
      · exact .inl h
      · refine .inr ⟨j, hj, ?_⟩
        by_cases e : j = i
        · subst e
          rw [setAt_same]
          exact hph
        · rw [setAt_other _ _ e]
          exact hs
    · exact .inr ⟨i, rfl, by rw [setAt_same]; exact hph⟩
  cases e with
  | openWrite i =>
    simp only [pushEvent] at h
    split at h
    · split at h <;> (simp only [Option.some.injEq] at h; subst h)
      · refine key i _ _ (by intro e; cases e) fun x hx => ?_
        dsimp only at hx
        by_cases e : x = sec i
        · exact .inr e
        · rw [setAt_other _ _ e] at hx
          exact .inl hx
      · exact key i _ _ (by intro e; cases e) fun x hx => .inl hx
    · cases h
  | write i k =>
    simp only [pushEvent] at h
    split at h
    · split at h
      · simp only [Option.some.injEq] at h
        subst h
        exact key i _ _ (by intro e; cases e) fun x hx => .inl hx
      · cases h
    · cases h
  | openRead i =>
    simp only [pushEvent] at h
    split at h
    · split at h
      · split at h <;> (simp only [Option.some.injEq] at h; subst h)
        · exact key i _ _ (by intro e; cases e) fun x hx => .inl hx
        · exact key i _ _ (by intro e; cases e) fun x hx => .inl hx
      · cases h
    · cases h
  | read i pos n =>
    simp only [pushEvent] at h
    split at h
    · simp only [Option.some.injEq] at h
      subst h
      exact hf
    · cases h
  | fail i =>
    simp only [pushEvent] at h
    split at h
    · simp only [Option.some.injEq] at h
      subst h
      exact key i _ _ (by intro e; cases e) fun x hx => .inl hx
    · cases h
  | remove i =>
    simp only [pushEvent] at h
    split at h
    · split at h <;> (simp only [Option.some.injEq] at h; subst h)
      · exact key i _ _ (by intro e; cases e) fun x hx => .inl hx
      · refine key i _ _ (by intro e; cases e) fun x hx => .inl ?_
        dsimp only at hx
        by_cases e : x = sec i
        · subst e
          exact absurd (setAt_same _ _ _) hx
        · rwa [setAt_other _ _ e] at hx
    · cases h

theorem filesFrom_run {pack : Nat → Bytes} {sec : Nat → Int} {s0 : PushSys} : ∀ (es : List PushEv) {s t : PushSys},
    FilesFrom sec s0 s → pushEvents pack sec s es = some t → FilesFrom sec s0 t
  | [], _, _, hf, h => by
    cases h
    exact hf
  | _ :: es, _, _, hf, h => by
    obtain ⟨m, hm, h⟩ := Option.bind_eq_some_iff.1 h
    exact filesFrom_run es (filesFrom_step hf hm) h

/-- **C59** (partial). Pushes that see different seconds, with no files left over from those seconds, do not interfere,
whatever the interleaving. -/
theorem C59_distinct_seconds_partial {pack : Nat → Bytes} {sec : Nat → Int} {s t : PushSys} {es : List PushEv}
    (hs : Spec.Idle s) (hd : ∀ i j, sec i = sec j → i = j) (hl : ∀ i, s.dir (sec i) = none)
    (h : pushEvents pack sec s es = some t) (i : Nat) : Spec.ReadsOwn (pack i) (t.log i) ∧ t.phase i ≠ .crashed := by
  refine C59_own_files_partial hs ?_ h i
  rintro before k rest m rfl hb
  rw [pushEvents_append, hb, Option.bind_some] at h
  obtain ⟨m', hm', _⟩ := Option.bind_eq_some_iff.1 h
  have hstart : m.phase k = .start := by
    simp only [pushEvent] at hm'
    split at hm'
    · assumption
    · cases hm'
  by_contra hne
  have hf := filesFrom_run before (s0 := s) (fun x hx => .inl hx) hb
  rcases hf (sec k) hne with hx | ⟨j, hj, hx⟩
  · exact hx (hl k)
  · rw [hd j k hj] at hx
    exact hx hstart

/-- Nothing on the disk. -/
def noFiles : PushSys :=
  { dir := fun _ => none, next := 0, data := fun _ => [], phase := fun _ => .start, log := fun _ => [] }

theorem noFiles_idle : Spec.Idle noFiles := ⟨fun _ => rfl, fun _ => rfl, fun _ _ h => (nomatch h), fun _ _ _ h => (nomatch h)⟩

/-- Overwriting from the beginning leaves the tail of a longer file. -/
theorem writeAt_zero (old new : Bytes) : writeAt old 0 new = new ++ old.drop new.length := by
  simp [writeAt]

/-- Push `j` writes over the file of push `i` before `i` reads it. -/
theorem overwritten (pack : Nat → Bytes) (sec : Nat → Int) (i j n : Nat) (hij : i ≠ j) (hs : sec i = sec j) (hi : pack i ≠ [])
    (hj : pack j ≠ []) : ∃ t, pushEvents pack sec noFiles
      [.openWrite i, .write i (pack i).length, .openWrite j, .write j (pack j).length, .openRead i, .read i 0 n] = some t ∧
      t.log i = [(0, n, (pack j ++ (pack i).drop (pack j).length).take n)] := by
  have li : 0 < (pack i).length := List.length_pos_iff.2 hi
  have lj : 0 < (pack j).length := List.length_pos_iff.2 hj
  refine (Option.map_eq_some_iff (f := fun t : PushSys => t.log i)).1 ?_
  simp only [pushEvents, pushEvent, noFiles, setAt_same, Option.bind_some, List.drop_zero, List.take_length, Nat.zero_add,
    Nat.le_refl, li, lj, and_self, if_true, writeAt_zero, List.drop_nil, List.append_nil, hs,
    setAt_other _ _ hij, setAt_other _ _ (Ne.symm hij), List.nil_append, Option.map_some]

theorem not_both_prefixes {a b : Bytes} (h : a ≠ b) : a ++ b.drop a.length ≠ b ∨ b ++ a.drop b.length ≠ a := by
  by_contra hc
  simp only [not_or, ne_eq, not_not] at hc
  obtain ⟨h1, h2⟩ := hc
  have l1 := congrArg List.length h1
  have l2 := congrArg List.length h2
  simp only [List.length_append, List.length_drop] at l1 l2
  rw [List.drop_eq_nil_of_le (by omega), List.append_nil] at h1
  exact h h1

/-- **C59** is false as stated: for any two different packs arriving in the same second there is an interleaving in which one
of the two pushes reads something else than its pack. -/
theorem C59_same_second_false (pack : Nat → Bytes) (sec : Nat → Int) (hs : sec 0 = sec 1) (h0 : pack 0 ≠ []) (h1 : pack 1 ≠ [])
    (hne : pack 0 ≠ pack 1) : ∃ es t i, pushEvents pack sec noFiles es = some t ∧ ¬ Spec.ReadsOwn (pack i) (t.log i) := by
  have key : ∀ i j, i ≠ j → sec i = sec j → pack i ≠ [] → pack j ≠ [] → pack j ++ (pack i).drop (pack j).length ≠ pack i →
      ∃ es t i, pushEvents pack sec noFiles es = some t ∧ ¬ Spec.ReadsOwn (pack i) (t.log i) := by
    intro i j hij hs hi hj hd
    obtain ⟨t, ht, hl⟩ := overwritten pack sec i j ((pack i).length + (pack j).length) hij hs hi hj
    refine ⟨_, t, i, ht, fun h => hd ?_⟩
    have := h _ (by rw [hl]; exact List.mem_singleton.2 rfl)
    simp only [List.drop_zero] at this
    rwa [List.take_of_length_le (by simp only [List.length_append, List.length_drop]; omega),
      List.take_of_length_le (by omega)] at this
  rcases not_both_prefixes hne with h | h
  · exact key 1 0 (by decide) hs.symm h1 h0 h
  · exact key 0 1 (by decide) hs h0 h1 h

/-- **C59** is false as stated: of any two pushes in the same second one may crash because the other has removed the file. -/
theorem C59_crash_false (pack : Nat → Bytes) (sec : Nat → Int) (hs : sec 0 = sec 1) (h0 : pack 0 ≠ []) (h1 : pack 1 ≠ []) :
    ∃ es t, pushEvents pack sec noFiles es = some t ∧ t.phase 0 = .done ∧ t.phase 1 = .crashed := by
  have l0 : 0 < (pack 0).length := List.length_pos_iff.2 h0
  have l1 : 0 < (pack 1).length := List.length_pos_iff.2 h1
  have h : (pushEvents pack sec noFiles [.openWrite 0, .openWrite 1, .write 0 (pack 0).length, .write 1 (pack 1).length,
      .openRead 0, .remove 0, .openRead 1]).map (fun t => (t.phase 0, t.phase 1)) = some (.done, .crashed) := by
    simp only [pushEvents, pushEvent, noFiles, setAt_same, Option.bind_some, Nat.zero_add,
      Nat.le_refl, l0, l1, and_self, if_true, hs, setAt_other _ _ (show (0 : Nat) ≠ 1 by decide),
      setAt_other _ _ (show (1 : Nat) ≠ 0 by decide), Option.map_some]
  obtain ⟨t, ht, hp⟩ := Option.map_eq_some_iff.1 h
  exact ⟨_, t, ht, (Prod.mk.inj hp).1, (Prod.mk.inj hp).2⟩

/-- **C59** is false as stated even for pushes one after the other: a push whose pack does not unpack leaves its file, and a
later push with a shorter pack that sees the same second reads the rest of it behind its own pack. -/
theorem C59_leftover_false (pack : Nat → Bytes) (sec : Nat → Int) (hs : sec 0 = sec 1) (h0 : pack 0 ≠ [])
    (hlt : (pack 0).length < (pack 1).length) :
    ∃ t, pushEvents pack sec noFiles [.openWrite 1, .write 1 (pack 1).length, .openRead 1, .fail 1,
        .openWrite 0, .write 0 (pack 0).length, .openRead 0, .read 0 0 (pack 1).length] = some t ∧
      t.log 0 = [(0, (pack 1).length, pack 0 ++ (pack 1).drop (pack 0).length)] ∧ ¬ Spec.ReadsOwn (pack 0) (t.log 0) := by
  have l0 : 0 < (pack 0).length := List.length_pos_iff.2 h0
  have l1 : 0 < (pack 1).length := by omega
  have hlog : ∃ t, pushEvents pack sec noFiles [.openWrite 1, .write 1 (pack 1).length, .openRead 1, .fail 1,
        .openWrite 0, .write 0 (pack 0).length, .openRead 0, .read 0 0 (pack 1).length] = some t ∧
      t.log 0 = [(0, (pack 1).length, (pack 0 ++ (pack 1).drop (pack 0).length).take (pack 1).length)] := by
    refine (Option.map_eq_some_iff (f := fun t : PushSys => t.log 0)).1 ?_
    simp only [pushEvents, pushEvent, noFiles, setAt_same, Option.bind_some, List.drop_zero, List.take_length, Nat.zero_add,
      Nat.le_refl, l0, l1, and_self, if_true, writeAt_zero, List.drop_nil, List.append_nil, hs,
      setAt_other _ _ (show (0 : Nat) ≠ 1 by decide), setAt_other _ _ (show (1 : Nat) ≠ 0 by decide), List.nil_append,
      Option.map_some]
  obtain ⟨t, ht, hl⟩ := hlog
  have hlen : (pack 0 ++ (pack 1).drop (pack 0).length).length = (pack 1).length := by
    simp only [List.length_append, List.length_drop]
    omega
  rw [List.take_of_length_le (Nat.le_of_eq hlen)] at hl
  refine ⟨t, ht, hl, fun h => ?_⟩
  have := congrArg List.length (h _ (by rw [hl]; exact List.mem_singleton.2 rfl))
  simp only [List.drop_zero, List.length_take, hlen] at this
  omega

/-- Two pushes in different seconds, interleaved: each reads its own pack. -/
example : (pushEvents (fun i => if i = 0 then ascii "PACK0" else ascii "PACK1") (fun i => 1700000000 + i) noFiles
    [.openWrite 0, .openWrite 1, .write 1 3, .write 0 5, .write 1 2, .openRead 0, .openRead 1, .read 1 0 9, .read 0 4 1,
      .remove 0]).map (fun t => (t.log 0, t.log 1)) =
    some ([(4, 1, ascii "0")], [(0, 9, ascii "PACK1")]) := by decide

/-- The same operations in the same second: the first push reads the other's last byte, and the second loses its file. -/
example : (pushEvents (fun i => if i = 0 then ascii "PACK0" else ascii "PACK1") (fun _ => 1700000000) noFiles
    [.openWrite 0, .openWrite 1, .write 1 3, .write 0 5, .write 1 2, .openRead 0, .read 0 4 1, .remove 0, .openRead 1]).map
      (fun t => (t.log 0, t.phase 0, t.phase 1)) = some ([(4, 1, ascii "1")], .done, .crashed) := by decide

end Gust

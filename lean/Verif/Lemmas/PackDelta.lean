import Verif.Lemmas.Pack

/-! # Packs with deltas: what the encoder writes -/

namespace Gust

/-! ## Offset fields -/

theorem writeOffsetLoop_profile {n : Nat} {bs : Bytes} (p : Profile) (h : writeOffsetLoop .dev n = .ok bs) :
    writeOffsetLoop p n = .ok bs := by
  induction n using Nat.strongRecOn generalizing bs with
  | _ n ih =>
    rw [writeOffsetLoop] at h ⊢
    by_cases hn : n > 0
    · simp only [hn, dite_true, Res.bind_eq_ok] at h ⊢
      obtain ⟨g, h1, r, h2, h3⟩ := h
      have e7 : n >>> 7 = n / 128 := by simp [Nat.shiftRight_eq_div_pow]
      refine ⟨g, ?_, r, ih (n >>> 7) (by omega) h2, h3⟩
      unfold groupMinusOne at h1 ⊢
      split at h1
      · cases h1
      · rename_i hg
        rw [if_neg hg]; exact h1
    · simp only [hn, dite_false] at h ⊢
      exact h

/-- If the writer succeeds with overflow checks, it writes the documented encoding of the distance. -/
theorem writeOffset_dev {n : Nat} {bs : Bytes} (h : writeOffsetEncoding .dev n = .ok bs) :
    (∀ p, writeOffsetEncoding p n = .ok bs) ∧ ∀ rest, Spec.offsetField (bs ++ rest) = some (n, rest) := by
  rw [writeOffsetEncoding, Res.bind_eq_ok] at h
  obtain ⟨r, h1, h2⟩ := h
  have hbs : (u8 (n &&& 127) :: r).reverse = bs := Res.ok.inj h2
  constructor
  · intro p
    rw [writeOffsetEncoding, writeOffsetLoop_profile p h1, ← hbs]
    rfl
  · intro rest
    have e7 : n >>> 7 = n / 128 := by simp [Nat.shiftRight_eq_div_pow]
    have hex : excess (n / 128) = 0 := by
      by_contra hne
      rw [e7, writeOffsetLoop_dev_panic _ hne] at h1
      cases h1
    obtain ⟨gs, g1, g2, g3⟩ := writeOffsetLoop_ok .dev (n / 128) ((excess_eq_zero_iff _).1 hex)
    rw [e7, g1] at h1
    obtain rfl := Res.ok.inj h1
    have e : bs ++ rest = contBytes gs.reverse ++ u8 (n % 128) :: rest := by
      rw [← hbs, and_7f]; simp [contBytes]
    have hd := offsetDigits_cont gs.reverse (n % 128) rest (by simpa using g2) (by omega)
    rw [e, Spec.offsetField, hd]
    have hacc := offsetAcc_eq (gs.reverse ++ [n % 128]) 0 (by simp)
    rw [offsetAcc_append, foldl_groupsVal, g3] at hacc
    simp only [Nat.mul_zero, Nat.zero_add] at hacc
    simp only [← hacc]
    congr 2
    omega

theorem noZeroGroup_small {n : Nat} (h : n < 16384) : Spec.NoZeroGroup n := by
  intro k hk hle
  have hk1 : k = 1 := by
    by_contra hne
    have : 128 ^ 2 ≤ 128 ^ k := Nat.pow_le_pow_right (by omega) (by omega)
    omega
  subst hk1
  omega

theorem writeOffset_total (n : Nat) : ∃ bs, writeOffsetEncoding .release n = .ok bs := by
  obtain ⟨gs, h1, _⟩ := writeOffsetLoop_release (n / 128)
  have e7 : n >>> 7 = n / 128 := by simp [Nat.shiftRight_eq_div_pow]
  exact ⟨_, by rw [writeOffsetEncoding, e7, h1]; rfl⟩

theorem writeOffset_dev_small {n : Nat} (h : n < 16384) : ∃ bs, writeOffsetEncoding .dev n = .ok bs := by
  obtain ⟨bs, h1, _⟩ := writeOffset_ok .dev n [] (by unfold U64; omega) (noZeroGroup_small h)
  exact ⟨bs, h1⟩

/-! ## Size of a delta -/

theorem copyArgs_size {fs : List Bool} {s : Bytes} {ds : List Nat} {r : Bytes}
    (h : Spec.copyArgs fs s = some (ds, r)) : s.length ≤ fs.length + r.length := by
  induction fs generalizing s ds r with
  | nil => simp [Spec.copyArgs] at h; simp [h.2]
  | cons f fs ih =>
    cases f with
    | false =>
      simp only [Spec.copyArgs, Option.map_eq_some_iff] at h
      obtain ⟨⟨ds', r'⟩, h1, h2⟩ := h
      simp only [Prod.mk.injEq] at h2
      have := ih h1
      rw [← h2.2]; simp only [List.length_cons]; omega
    | true =>
      cases s with
      | nil => simp [Spec.copyArgs] at h
      | cons b s =>
        simp only [Spec.copyArgs, Option.map_eq_some_iff] at h
        obtain ⟨⟨ds', r'⟩, h1, h2⟩ := h
        simp only [Prod.mk.injEq] at h2
        have := ih h1
        rw [← h2.2]; simp only [List.length_cons]; omega

theorem deltaCode_length {base s : Bytes} {is : List Spec.Instr} (hc : Spec.DeltaCode s is) :
    ∀ {out : Bytes}, Spec.runAll base is = some out → s.length ≤ 8 * out.length := by
  induction hc with
  | done => intro out _; simp
  | lit n bs rest is h1 h2 h3 _ ih =>
    intro out h
    simp only [Spec.runAll, Spec.Instr.run] at h
    split at h
    · rename_i a b ha hb
      obtain rfl := Option.some.inj ha
      obtain rfl := Option.some.inj h
      have := ih hb
      simp only [List.length_cons, List.length_append]
      omega
    · cases h
  | copy op s rest offs sizes is h1 h2 h3 h4 _ ih =>
    intro out h
    simp only [Spec.runAll, Spec.Instr.run] at h
    split at h
    · rename_i a b ha hb
      obtain rfl := Option.some.inj h
      have e1 := ih hb
      have e2 := copyArgs_size h2
      have e3 : (Spec.flags op.toNat).length = 7 := by simp [Spec.flags]
      have e4 : 0 < Spec.copySize (Spec.le sizes) := by rw [Spec.copySize]; split <;> omega
      have e5 : 0 < a.length := by
        split at ha
        · obtain rfl := Option.some.inj ha
          simp only [List.length_take, List.length_drop]
          omega
        · cases ha
      simp only [List.length_cons, List.length_append]
      omega
    · cases h

theorem sizeField64_length {s : Bytes} {v : Nat} {r : Bytes} (h : Spec.sizeField64 s = some (v, r)) :
    s.length ≤ 10 + r.length := by
  rw [Spec.sizeField64] at h
  split at h
  · split at h
    · simp only [Option.some.injEq, Prod.mk.injEq] at h
      rw [← h.2]; omega
    · cases h
  · cases h

theorem deltaMeans_length {base delta out : Bytes} (h : Spec.DeltaMeans base delta out) :
    delta.length ≤ 20 + 8 * out.length := by
  obtain ⟨s1, s2, is, h1, h2, h3, h4⟩ := h
  have := sizeField64_length h1
  have := sizeField64_length h2
  have := deltaCode_length h3 h4
  omega

/-! ## One step of the encoder -/

theorem chooseBase_some (D : Differ) (new : MetaData) : ∀ (prev : List MetaData) (j : Nat) (best : Option Nat × Rat) (k : Nat),
    chooseBase D new prev j best = some k →
    best.1 = some k ∨ (j ≤ k ∧ ∃ b, prev[k - j]? = some b ∧ new.t = b.t) := by
  intro prev
  induction prev with
  | nil => intro j best k h; exact .inl h
  | cons b prev ih =>
    intro j best k h
    rw [chooseBase] at h
    split at h
    · exact .inl h
    · split at h
      · exact .inl h
      · rename_i ht
        simp only [ne_eq, not_not] at ht
        rcases ih _ _ _ h with h | ⟨h1, b', h2, h3⟩
        · split at h
          · right
            have : j = k := by simpa using h
            subst this
            exact ⟨Nat.le_refl _, b, by simp, ht⟩
          · exact .inl h
        · right
          refine ⟨by omega, b', ?_, h3⟩
          obtain ⟨i, hi⟩ : ∃ i, k - j = i + 1 := ⟨k - j - 1, by omega⟩
          rw [hi, List.getElem?_cons_succ, show i = k - (j + 1) by omega]
          exact h2

/-- The edit scripts the diff library reports are correct. -/
def Differ.Valid (D : Differ) : Prop := ∀ old new, Spec.ValidScript old new 0 (D.events old new)

/-- The objects written so far (nearest first, with offsets) are real and lie before `pos`. -/
def PrevOk (X : Ext) (prev : List (MetaData × Nat)) (pos : Nat) : Prop :=
  ∀ q ∈ prev, MetaData.new X q.1.t q.1.data = .ok q.1 ∧ q.1.data.length < 2 ^ 24 ∧ q.2 < pos

/-- The same objects as the specification lists them. -/
def earlierOf (prev : List (MetaData × Nat)) : List (Nat × Spec.Obj) :=
  prev.reverse.map (fun q => (q.2, (q.1.t, q.1.data)))

/-- In either build profile, one step either writes the object whole or a delta against an earlier object of the same type;
only writing the distance can fail. -/
theorem encodeDeltaStep_cases {X : Ext} {D : Differ} (hD : D.Valid) {prev : List (MetaData × Nat)} {pos : Nat}
    (hprev : PrevOk X prev pos) {m : MetaData} (hm : MetaData.new X m.t m.data = .ok m) (hms : m.data.length < 2 ^ 24) :
    (∀ p, encodeDeltaStep X p D prev pos m = .ok m) ∨
    ∃ base baseOff delta, (base, baseOff) ∈ prev ∧ base.t = m.t ∧ Spec.DeltaMeans base.data delta m.data ∧
      ∀ p, encodeDeltaStep X p D prev pos m =
        (writeOffsetEncoding p (pos - baseOff)).bind (fun head => .ok (m.changeToDelta .offsetDelta delta head)) := by
  cases hc : chooseBase D m (prev.map Prod.fst) 1 (none, 0) with
  | none =>
    left
    intro p
    rw [encodeDeltaStep, hc]
  | some j =>
    right
    rcases chooseBase_some D m _ _ _ _ hc with h | ⟨h1, b, h2, h3⟩
    · cases h
    · rw [List.getElem?_map, Option.map_eq_some_iff] at h2
      obtain ⟨⟨base, baseOff⟩, h4, rfl⟩ := h2
      have hmem := List.mem_of_getElem? h4
      obtain ⟨g1, g2, g3⟩ := hprev _ hmem
      simp only at g1 g2 g3
      obtain ⟨d, e1, e2, _⟩ := C12_generated_delta_partial X base m (new_ok g1).2.2.2.1 (new_ok hm).2.2.2.1 _
        (hD base.data m.data) (by omega) (.inl g2)
      refine ⟨base, baseOff, d, hmem, h3.symm, e2, ?_⟩
      intro p
      rw [encodeDeltaStep, hc]
      simp only [h4, e1, Res.bind_ok]
      rfl

/-- What a step writes in the dev profile is the right entry of the format. -/
theorem encodeDeltaStep_entry {X : Ext} {D : Differ} (hD : D.Valid) {prev : List (MetaData × Nat)} {pos : Nat}
    (hprev : PrevOk X prev pos) {m f : MetaData} (hm : MetaData.new X m.t m.data = .ok m) (hms : m.data.length < 2 ^ 24)
    (h : encodeDeltaStep X .dev D prev pos m = .ok f) :
    (∀ p, encodeDeltaStep X p D prev pos m = .ok f) ∧
    ∃ e, (∀ rest, Spec.EntryCode X.inflate (MetaData.convertToVec X f ++ rest) e rest) ∧
      Spec.Denotes (idOf X) (fun _ => none) (earlierOf prev) pos e (m.t, m.data) := by
  rcases encodeDeltaStep_cases hD hprev hm hms with hc | ⟨base, baseOff, delta, hmem, ht, hmean, hc⟩
  · have e := hc .dev
    rw [h] at e
    obtain rfl := Res.ok.inj e
    refine ⟨hc, .whole f.t.number f.data, ?_, .whole _ _ _ (kindOf_number (new_ok hm).1)⟩
    exact fun rest => entryCode_base (new_ok hm).1 (new_ok hm).2.2.2.1 (by omega) rest
  · have e := hc .dev
    rw [h] at e
    cases hw : writeOffsetEncoding .dev (pos - baseOff) with
    | ok head =>
      rw [hw] at e
      have e' : f = m.changeToDelta .offsetDelta delta head := Res.ok.inj e
      subst e'
      obtain ⟨w1, w2⟩ := writeOffset_dev hw
      refine ⟨fun p => by rw [hc p, w1 p]; rfl, .ofs (pos - baseOff) delta, ?_, ?_⟩
      · intro rest
        have hl := deltaMeans_length hmean
        have hv : MetaData.convertToVec X (m.changeToDelta .offsetDelta delta head) ++ rest =
            MetaData.entryHeader .offsetDelta delta.length ++ (head ++ (X.deflate delta ++ rest)) := by
          simp [MetaData.convertToVec, MetaData.changeToDelta]
        rw [hv]
        refine .ofs _ _ _ _ _ _ (entryHeader_written .offsetDelta delta.length (by omega) _) (w2 _)
          (X.inflate_deflate _ _)
      · have hlt := (hprev _ hmem).2.2
        simp only at hlt
        rw [← ht]
        refine .ofs _ baseOff _ base.data _ _ (by omega) ?_ hmean
        exact List.mem_map.2 ⟨(base, baseOff), by simpa using hmem, rfl⟩
    | err x => rw [hw] at e; cases e
    | panic => rw [hw] at e; cases e
    | spin => rw [hw] at e; cases e

theorem prevOk_cons {X : Ext} {prev : List (MetaData × Nat)} {pos pos' : Nat} (hprev : PrevOk X prev pos) {m : MetaData}
    (hm : MetaData.new X m.t m.data = .ok m) (hms : m.data.length < 2 ^ 24) (h : pos < pos') :
    PrevOk X ((m, pos) :: prev) pos' := by
  intro q hq
  rcases List.mem_cons.1 hq with rfl | hq
  · exact ⟨hm, hms, h⟩
  · obtain ⟨h1, h2, h3⟩ := hprev q hq
    exact ⟨h1, h2, by omega⟩

/-- The whole loop, when it succeeds with overflow checks. -/
theorem encodeDeltaLoop_entries {X : Ext} {D : Differ} (hD : D.Valid) : ∀ (ms : List MetaData)
    (prev : List (MetaData × Nat)) (file out : Bytes), PrevOk X prev file.length →
    (∀ m ∈ ms, MetaData.new X m.t m.data = .ok m ∧ m.data.length < 2 ^ 24) →
    encodeDeltaLoop X .dev D ms prev file = .ok out →
    (∀ p, encodeDeltaLoop X p D ms prev file = .ok out) ∧
    ∃ s es os, out = file ++ s ∧ (∀ rest, Spec.Entries X.inflate file.length (s ++ rest) es rest) ∧
      Spec.Resolves (idOf X) (fun _ => none) (earlierOf prev) es os ∧ os.map Prod.snd = ms.map (fun m => (m.t, m.data)) := by
  intro ms
  induction ms with
  | nil =>
    intro prev file out _ _ h
    obtain rfl := Res.ok.inj h
    exact ⟨fun _ => rfl, [], [], [], by simp, fun _ => .nil _ _, .nil _, rfl⟩
  | cons m ms ih =>
    intro prev file out hprev hms h
    obtain ⟨hm, hsz⟩ := hms m (by simp)
    rw [encodeDeltaLoop, Res.bind_eq_ok] at h
    obtain ⟨f, h1, h2⟩ := h
    obtain ⟨g1, e, g2, g3⟩ := encodeDeltaStep_entry hD hprev hm hsz h1
    obtain ⟨z, hz, hzs, _⟩ := entryCode_prefix (g2 [])
    have hpos : 0 < (MetaData.convertToVec X f).length := by
      rw [List.append_nil, List.append_nil] at hzs
      rw [hzs]; exact List.length_pos_iff.2 hz
    obtain ⟨i1, s, es, os, i2, i3, i4, i5⟩ := ih ((m, file.length) :: prev) _ out
      (prevOk_cons hprev hm hsz (by simp only [List.length_append]; omega)) (fun m hm => hms m (by simp [hm])) h2
    refine ⟨?_, MetaData.convertToVec X f ++ s, (file.length, e) :: es, (file.length, (m.t, m.data)) :: os,
      by rw [i2, List.append_assoc], ?_, ?_, by simp [i5]⟩
    · intro p
      rw [encodeDeltaLoop, g1 p]
      exact i1 p
    · intro rest
      rw [List.append_assoc]
      refine .cons _ _ _ _ _ _ (g2 _) ?_
      have := i3 rest
      rw [List.length_append] at this
      rw [List.length_append (as := MetaData.convertToVec X f), Nat.add_sub_cancel]
      exact this
    · refine .cons _ _ _ _ _ _ g3 ?_
      have : earlierOf ((m, file.length) :: prev) = earlierOf prev ++ [(file.length, (m.t, m.data))] := by
        simp [earlierOf]
      rw [← this]
      exact i4

/-- Without overflow checks the loop always succeeds; with them it does if no distance reaches 16384. -/
theorem encodeDeltaLoop_total {X : Ext} {D : Differ} (hD : D.Valid) : ∀ (ms : List MetaData)
    (prev : List (MetaData × Nat)) (file : Bytes), PrevOk X prev file.length →
    (∀ m ∈ ms, MetaData.new X m.t m.data = .ok m ∧ m.data.length < 2 ^ 24) →
    ∃ out, encodeDeltaLoop X .release D ms prev file = .ok out ∧ file.length ≤ out.length ∧
      (out.length ≤ 16384 → encodeDeltaLoop X .dev D ms prev file = .ok out) := by
  intro ms
  induction ms with
  | nil => intro prev file _ _; exact ⟨file, rfl, Nat.le_refl _, fun _ => rfl⟩
  | cons m ms ih =>
    intro prev file hprev hms
    obtain ⟨hm, hsz⟩ := hms m (by simp)
    obtain ⟨f, hf, hdev⟩ : ∃ f, encodeDeltaStep X .release D prev file.length m = .ok f ∧
        (file.length < 16384 → encodeDeltaStep X .dev D prev file.length m = .ok f) := by
      rcases encodeDeltaStep_cases hD hprev hm hsz with hc | ⟨base, baseOff, delta, hmem, ht, hmean, hc⟩
      · exact ⟨m, hc _, fun _ => hc _⟩
      · obtain ⟨bs, hb⟩ := writeOffset_total (file.length - baseOff)
        refine ⟨m.changeToDelta .offsetDelta delta bs, by rw [hc, hb]; rfl, ?_⟩
        intro hl
        obtain ⟨bs', hb'⟩ := writeOffset_dev_small (n := file.length - baseOff) (by omega)
        have := (writeOffset_dev hb').1 .release
        rw [hb] at this
        obtain rfl := Res.ok.inj this
        rw [hc, hb']; rfl
    have hpos : 0 < (MetaData.convertToVec X f).length := by
      simp only [MetaData.convertToVec, MetaData.entryHeader, List.length_append, List.length_cons]; omega
    obtain ⟨out, h1, h2, h3⟩ := ih ((m, file.length) :: prev) (file ++ MetaData.convertToVec X f)
      (prevOk_cons hprev hm hsz (by simp only [List.length_append]; omega)) (fun m hm => hms m (by simp [hm]))
    simp only [List.length_append] at h2
    refine ⟨out, by rw [encodeDeltaLoop, hf]; exact h1, by omega, ?_⟩
    intro hl
    rw [encodeDeltaLoop, hdev (by omega)]
    exact h3 hl

end Gust

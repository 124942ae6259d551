import Verif.Lemmas.Diff

/-! # C12 – C14: deltas -/

namespace Gust

/-- If a delta means `out`, applying it builds the object `out` (whatever building the object then does). -/
theorem applyDelta_of_means (X : Ext) (base : MetaData) (hs : base.size = base.data.length) {delta out : Bytes}
    (h : Spec.DeltaMeans base.data delta out) (hcap : out.length < 2 ^ 63) :
    applyDelta X base delta = MetaData.new X base.t out := by
  obtain ⟨s1, s2, is, h1, h2, h3, h4⟩ := h
  have hl := loop_complete base.data h3 h4 []
  simp only [List.nil_append] at hl
  simp only [applyDelta, readSizeEncoding_exact, h1, h2, Res.bind_ok, hs, ne_eq, not_true_eq_false, if_false,
    Nat.not_le.2 hcap, hl]

/-- **C13** Delta application, exactly: it succeeds if and only if the delta means something for this base in the
documented format (declared sizes match, only valid instructions, copies inside the base), and then the result is the
designated output with the base's type. (`2^63` is the largest vector Rust can allocate.) -/
theorem C13_apply_delta_iff (X : Ext) (base : MetaData) (hs : base.size = base.data.length) (delta : Bytes)
    (m : MetaData) :
    applyDelta X base delta = .ok m ↔
      ∃ out, Spec.DeltaMeans base.data delta out ∧ out.length < 2 ^ 63 ∧ MetaData.new X base.t out = .ok m := by
  constructor
  · intro h
    simp only [applyDelta, readSizeEncoding_exact, Res.bind_eq_ok] at h
    obtain ⟨⟨bs, d1⟩, h1, h⟩ := h
    split at h1
    swap
    · cases h1
    rename_i p hp
    obtain rfl := Res.ok.inj h1
    simp only at h
    split at h
    · cases h
    rename_i hbs
    simp only [Res.bind_eq_ok] at h
    obtain ⟨⟨rs, d2⟩, h2, h⟩ := h
    split at h2
    swap
    · cases h2
    rename_i p2 hp2
    obtain rfl := Res.ok.inj h2
    simp only at h
    split at h
    · cases h
    rename_i hcap
    simp only [Res.bind_eq_ok] at h
    obtain ⟨out, h3, h⟩ := h
    split at h
    · cases h
    rename_i hlen
    obtain ⟨is, o, hc, hr, ho⟩ := loop_sound _ _ _ _ h3
    simp only [List.nil_append] at ho
    subst ho
    have e1 : bs = base.data.length := by omega
    have e2 : rs = out.length := by omega
    subst e1 e2
    exact ⟨out, ⟨d1, d2, is, hp, hp2, hc, hr⟩, by omega, h⟩
  · rintro ⟨out, ⟨d1, d2, is, hp, hp2, hc, hr⟩, hcap, hm⟩
    have hl := loop_complete base.data hc hr []
    simp only [List.nil_append] at hl
    simp only [applyDelta, readSizeEncoding_exact, hp, hp2, Res.bind_ok, hs, ne_eq, not_true_eq_false, if_false,
      Nat.not_le.2 hcap, hl, hm]

/-- The meaning of a delta is unique, so the output is determined by base and delta alone. -/
theorem C13_output_unique (base : MetaData) (hs : base.size = base.data.length) (ht : base.t.isBase = true)
    (delta out out' : Bytes) (h : Spec.DeltaMeans base.data delta out) (h' : Spec.DeltaMeans base.data delta out')
    (hl : out.length < 2 ^ 63) (hl' : out'.length < 2 ^ 63) : out = out' := by
  have e1 := (C13_apply_delta_iff demoExt base hs delta _).2 ⟨out, h, hl, new_base demoExt base.t out ht⟩
  have e2 := (C13_apply_delta_iff demoExt base hs delta _).2 ⟨out', h', hl', new_base demoExt base.t out' ht⟩
  rw [e1] at e2
  exact congrArg MetaData.data (Res.ok.inj e2)

theorem copyArgs_suffix {fs : List Bool} {s : Bytes} {ds : List Nat} {r : Bytes}
    (h : Spec.copyArgs fs s = some (ds, r)) : ∀ b ∈ r, b ∈ s := by
  induction fs generalizing s ds r with
  | nil => simp [Spec.copyArgs] at h; rw [h.2]; simp
  | cons f fs ih =>
    cases f with
    | false =>
      simp only [Spec.copyArgs, Option.map_eq_some_iff] at h
      obtain ⟨⟨ds', r'⟩, h1, h2⟩ := h
      simp only [Prod.mk.injEq] at h2
      rw [← h2.2]; exact ih h1
    | true =>
      cases s with
      | nil => simp [Spec.copyArgs] at h
      | cons c s =>
        simp only [Spec.copyArgs, Option.map_eq_some_iff] at h
        obtain ⟨⟨ds', r'⟩, h1, h2⟩ := h
        simp only [Prod.mk.injEq] at h2
        rw [← h2.2]; intro b hb; simp [ih h1 b hb]

theorem deltaCode_bytes {base s : Bytes} {is : List Spec.Instr} (hc : Spec.DeltaCode s is) :
    ∀ {out : Bytes}, Spec.runAll base is = some out → ∀ b ∈ out, b ∈ base ∨ b ∈ s := by
  induction hc with
  | done => intro out h; simp [Spec.runAll] at h; subst h; simp
  | lit n bs rest is _ _ _ _ ih =>
    intro out h
    simp only [Spec.runAll, Spec.Instr.run] at h
    cases hr : Spec.runAll base is with
    | none => simp [hr] at h
    | some o =>
      simp only [hr, Option.some.injEq] at h
      subst h
      intro b hb
      rcases List.mem_append.1 hb with hb | hb
      · right; simp [hb]
      · rcases ih hr b hb with h | h
        · exact .inl h
        · right; simp [h]
  | copy op s rest offs sizes is _ h2 _ _ _ ih =>
    intro out h
    simp only [Spec.runAll, Spec.Instr.run] at h
    split at h
    · rename_i x y hx hy
      split at hx
      · simp only [Option.some.injEq] at hx h
        subst h hx
        intro b hb
        rcases List.mem_append.1 hb with hb | hb
        · exact .inl (List.mem_of_mem_drop (List.mem_of_mem_take hb))
        · rcases ih hy b hb with h | h
          · exact .inl h
          · right; simp [copyArgs_suffix h2 b h]
      · cases hx
    · cases h

theorem sizeField64_suffix {s : Bytes} {v : Nat} {r : Bytes} (h : Spec.sizeField64 s = some (v, r)) :
    ∀ b ∈ r, b ∈ s := by
  have key : ∀ (s : Bytes) (v : Nat) (r : Bytes), Spec.sizeField s = some (v, r) → ∀ b ∈ r, b ∈ s := by
    intro s
    induction s with
    | nil => intro v r h; simp [Spec.sizeField] at h
    | cons c s ih =>
      intro v r h
      rw [Spec.sizeField] at h
      split at h
      · simp only [Option.some.injEq, Prod.mk.injEq] at h
        rw [← h.2]; intro b hb; simp [hb]
      · cases hs : Spec.sizeField s with
        | none => simp [hs] at h
        | some p =>
          obtain ⟨v', r'⟩ := p
          simp only [hs, Option.some.injEq, Prod.mk.injEq] at h
          rw [← h.2]; intro b hb; simp [ih _ _ hs b hb]
  rw [Spec.sizeField64] at h
  split at h
  · rename_i v' r' hs
    split at h
    · simp only [Option.some.injEq, Prod.mk.injEq] at h
      rw [← h.2]; exact key _ _ _ hs
    · cases h
  · cases h

/-- **C13** No byte of the result comes from anywhere but the base or the delta. -/
theorem C13_no_foreign_bytes (X : Ext) (base : MetaData) (hs : base.size = base.data.length) (delta : Bytes)
    (m : MetaData) (h : applyDelta X base delta = .ok m) : ∀ b ∈ m.data, b ∈ base.data ∨ b ∈ delta := by
  obtain ⟨out, ⟨d1, d2, is, hp, hp2, hc, hr⟩, _, hm⟩ := (C13_apply_delta_iff X base hs delta m).1 h
  intro b hb
  rw [(new_ok hm).2.2.1] at hb
  rcases deltaCode_bytes hc hr b hb with h | h
  · exact .inl h
  · exact .inr (sizeField64_suffix hp b (sizeField64_suffix hp2 b h))

/-- Example base object. -/
def exampleBase : MetaData :=
  { t := .blob, id := Hash.zero, size := 5, data := ascii "hello", deltaHeader := [] }

/-- Copy bytes 1..4 of "hello", then add "p!". -/
theorem exampleDelta_means : Spec.DeltaMeans exampleBase.data [5, 5, 0x91, 1, 3, 2, 112, 33] (ascii "ellp!") := by
  refine ⟨[5, 0x91, 1, 3, 2, 112, 33], [0x91, 1, 3, 2, 112, 33], [.copy 1 3, .lit [112, 33]], by decide, by decide,
    ?_, by decide⟩
  have h1 : Spec.DeltaCode [2, 112, 33] [.lit [112, 33]] :=
    Spec.DeltaCode.lit 2 [112, 33] [] [] (by decide) (by decide) (by decide) .done
  exact Spec.DeltaCode.copy 0x91 [1, 3, 2, 112, 33] [2, 112, 33] [1, 0, 0, 0] [3, 0, 0] _ (by decide) (by decide) rfl
    rfl h1

example : ∃ m, applyDelta demoExt exampleBase [5, 5, 0x91, 1, 3, 2, 112, 33] = .ok m ∧ m.data = ascii "ellp!" :=
  ⟨_, (C13_apply_delta_iff demoExt exampleBase (by decide) _ _).2
    ⟨_, exampleDelta_means, by decide, new_base demoExt .blob _ rfl⟩, rfl⟩

/-- **C14** For every valid edit script, whatever the sizes, the generated delta is a sequence of well-formed
instructions: literals of 1 to 127 bytes, non-empty copies inside the base, never the reserved instruction. -/
theorem C14_generated_delta_wellformed (old new : MetaData) (ho : old.size = old.data.length)
    (ho64 : old.data.length < 2 ^ 64) (hn : new.size = new.data.length) (hn64 : new.data.length < 2 ^ 64)
    (es : List DiffEvent) (hv : Spec.ValidScript old.data new.data 0 es) :
    ∃ d s₁ s₂ is, getDeltaMetadata old new (diffRun es) = .ok d ∧
      Spec.sizeField64 d = some (old.data.length, s₁) ∧ Spec.sizeField64 s₁ = some (new.data.length, s₂) ∧
      Spec.DeltaCode s₂ is ∧
      ∀ i ∈ is, (∃ bs, i = .lit bs ∧ 1 ≤ bs.length ∧ bs.length ≤ 127) ∨
        (∃ o l, i = .copy o l ∧ 0 < l ∧ o + l ≤ old.data.length) := by
  obtain ⟨hok, _⟩ := diffRun_inv hv
  have hok' : ∀ op ∈ (diffRun es).rops.reverse, OpOk old.data new.data op := fun op h => hok op (by simpa using h)
  obtain ⟨e, he, hc⟩ := decodeOps_code hok'
  refine ⟨writeSizeEncoding old.size ++ (writeSizeEncoding new.size ++ e), writeSizeEncoding new.size ++ e, e, _,
    ?_, ?_, ?_, hc, ?_⟩
  · simp [getDeltaMetadata, he]
  · rw [ho]; exact sizeField64_write _ _ ho64
  · rw [hn]; exact sizeField64_write _ _ hn64
  · intro i hi
    obtain ⟨op, hop, rfl⟩ := List.mem_map.1 hi
    obtain ⟨h1, h2, h3⟩ := hok' op hop
    cases hins : op.ins with
    | data =>
      left
      obtain ⟨h4, h5⟩ := h3 hins
      refine ⟨_, by simp [opInstr, hins]; rfl, ?_, ?_⟩ <;> simp <;> omega
    | copy =>
      right
      have h4 := h2 hins
      refine ⟨_, _, by simp [opInstr, hins]; exact ⟨rfl, rfl⟩, ?_, ?_⟩
      · rw [Spec.copySize]; split <;> omega
      · have e1 : op.start % 4294967296 ≤ op.start := Nat.mod_le _ _
        have e2 : Spec.copySize (op.len % 16777216) ≤ op.len := by
          rw [Spec.copySize]; split <;> omega
        omega

/-- **C12** A delta generated from any valid edit script reproduces the new object, provided the old object is smaller
than 16 MiB, or the new one is and the old one is at most 4 GiB. (The full claim, without the size condition, is false:
`C12_generated_delta_false`.) The first conjunct says the delta is right for any conforming reader. -/
theorem C12_generated_delta_partial (X : Ext) (old new : MetaData) (ho : old.size = old.data.length)
    (hn : new.size = new.data.length) (es : List DiffEvent) (hv : Spec.ValidScript old.data new.data 0 es)
    (hnew : new.data.length < 2 ^ 63)
    (hsize : old.data.length < 2 ^ 24 ∨ (new.data.length < 2 ^ 24 ∧ old.data.length ≤ 2 ^ 32)) :
    ∃ d, getDeltaMetadata old new (diffRun es) = .ok d ∧ Spec.DeltaMeans old.data d new.data ∧
      applyDelta X old d = MetaData.new X old.t new.data := by
  obtain ⟨hok, hout⟩ := diffRun_inv hv
  have hok' : ∀ op ∈ (diffRun es).rops.reverse, OpOk old.data new.data op := fun op h => hok op (by simpa using h)
  obtain ⟨e, he, hc⟩ := decodeOps_code hok'
  have hb : ∀ op ∈ (diffRun es).rops, op.ins = .copy → op.start < 2 ^ 32 ∧ op.len < 2 ^ 24 := by
    intro op hop hi
    have h1 := (hok op hop).1
    have h2 := (hok op hop).2.1 hi
    have h3 := opOut_length_le old.data new.data op _ hop
    rw [hout] at h3
    have h4 : (opOut old.data new.data op).length = op.len := by
      simp only [opOut, hi, List.length_take, List.length_drop]; omega
    omega
  have hr := runAll_rops _ hok hb
  rw [hout] at hr
  have hmeans : Spec.DeltaMeans old.data (writeSizeEncoding old.size ++ (writeSizeEncoding new.size ++ e)) new.data :=
    ⟨writeSizeEncoding new.size ++ e, e, _, by rw [ho]; exact sizeField64_write _ _ (by omega),
      by rw [hn]; exact sizeField64_write _ _ (by omega), hc, hr⟩
  refine ⟨writeSizeEncoding old.size ++ (writeSizeEncoding new.size ++ e), by simp [getDeltaMetadata, he], hmeans, ?_⟩
  exact applyDelta_of_means X old ho hmeans hnew

/-- Example: "hello" to "help!" with a wasteful but valid script. -/
def exampleNew : MetaData :=
  { t := .blob, id := Hash.zero, size := 5, data := ascii "help!", deltaHeader := [] }

def exampleScript : List DiffEvent := [.equal 0 0 2, .equal 2 2 1, .delete 3 2 3, .insert 5 3 1, .insert 5 4 1]

theorem exampleScript_valid : Spec.ValidScript exampleBase.data exampleNew.data 0 exampleScript := by
  simp [exampleScript, Spec.ValidScript]
  decide

example : (diffRun exampleScript).rops.reverse =
    [{ ins := .copy, start := 0, len := 3 }, { ins := .data, start := 3, len := 2 }] := by decide

example : ∃ d, getDeltaMetadata exampleBase exampleNew (diffRun exampleScript) = .ok d ∧
    applyDelta demoExt exampleBase d = MetaData.new demoExt .blob (ascii "help!") := by
  obtain ⟨d, h1, _, h2⟩ := C12_generated_delta_partial demoExt exampleBase exampleNew (by decide) (by decide)
    exampleScript exampleScript_valid (by decide) (.inl (by decide))
  exact ⟨d, h1, h2⟩

/-- A blob of 16 MiB zero bytes. -/
def bigBlob : MetaData :=
  { t := .blob, id := Hash.zero, size := 2 ^ 24, data := List.replicate (2 ^ 24) 0, deltaHeader := [] }

/-- **C12 is false** in general: the delta generated between a 16 MiB object and itself from the (correct) script "all bytes
equal" does not reproduce the object: it is rejected. -/
theorem C12_generated_delta_false :
    ¬ ∀ (X : Ext) (old new : MetaData) (es : List DiffEvent), old.size = old.data.length →
      new.size = new.data.length → Spec.ValidScript old.data new.data 0 es → new.data.length < 2 ^ 63 →
      ∃ d, getDeltaMetadata old new (diffRun es) = .ok d ∧ applyDelta X old d = MetaData.new X old.t new.data := by
  intro hall
  have hlen : bigBlob.data.length = 2 ^ 24 := by simp only [bigBlob, List.length_replicate]
  have hv : Spec.ValidScript bigBlob.data bigBlob.data 0 [.equal 0 0 (2 ^ 24)] := by
    refine ⟨rfl, Nat.two_pow_pos 24, by rw [hlen]; omega, by rw [hlen]; omega, rfl, ?_⟩
    rw [Spec.ValidScript, hlen]; omega
  obtain ⟨d, hd, ha⟩ := hall demoExt bigBlob bigBlob _ hlen.symm hlen.symm hv (by rw [hlen]; omega)
  rw [new_base demoExt _ _ (by rfl)] at ha
  obtain ⟨out, ⟨s1, s2, is, h1, h2, h3, h4⟩, hcap, hnew⟩ := (C13_apply_delta_iff demoExt bigBlob hlen.symm d _).1 ha
  -- the delta is: sizes, then a copy with no argument bytes at all
  have hrun : diffRun [.equal 0 0 (2 ^ 24)] =
      { rops := [{ ins := .copy, start := 0, len := 2 ^ 24 }], ssam := 2 ^ 24 } := by
    simp [diffRun, DiffState.step, DiffState.equal]
  have hops : decodeOps bigBlob.data [{ ins := .copy, start := 0, len := 2 ^ 24 }] = .ok [0x80] := by
    simp only [decodeOps, decodeOp, partialBytes]
    decide
  have hdv : d = writeSizeEncoding (2 ^ 24) ++ (writeSizeEncoding (2 ^ 24) ++ [0x80]) := by
    simp only [getDeltaMetadata, hrun, List.reverse_singleton, hops, Res.bind_ok, Res.pure_eq, Res.ok.injEq] at hd
    rw [← hd]
    have : bigBlob.size = 2 ^ 24 := rfl
    rw [this, List.append_assoc]
  rw [hdv, sizeField64_write _ _ (by omega)] at h1
  simp only [Option.some.injEq, Prod.mk.injEq] at h1
  rw [← h1.2, sizeField64_write _ _ (by omega)] at h2
  simp only [Option.some.injEq, Prod.mk.injEq] at h2
  obtain ⟨h2l, h2s⟩ := h2
  rw [← h2s] at h3
  have hloop := loop_complete bigBlob.data h3 h4 []
  have hcopy := apply_copy bigBlob.data [] 0x80 [] [] [0, 0, 0, 0] [0, 0, 0] (by decide) (by decide) rfl rfl
  have hle : Spec.le [0, 0, 0, 0] + Spec.copySize (Spec.le [0, 0, 0]) ≤ bigBlob.data.length := by
    rw [hlen]; decide
  rw [if_pos hle] at hcopy
  rw [loop_step hcopy, loop_done] at hloop
  simp only [List.nil_append, Res.ok.injEq] at hloop
  have : out.length ≤ 65536 := by
    rw [← hloop, List.length_take]
    have : Spec.copySize (Spec.le [0, 0, 0]) = 65536 := by decide
    omega
  omega

end Gust

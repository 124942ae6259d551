import Verif.Lemmas.Codec
import Verif.Lemmas.Varint
import Verif.Spec.Delta
import Verif.Base.Tactics

namespace Gust

/-! ## The size reader, exactly -/

theorem sizeField_shrinks {s : Bytes} {v : Nat} {rest : Bytes} (h : Spec.sizeField s = some (v, rest)) :
    rest.length < s.length := by
  induction s generalizing v rest with
  | nil => simp [Spec.sizeField] at h
  | cons b s ih =>
    rw [Spec.sizeField] at h
    split at h
    · simp only [Option.some.injEq, Prod.mk.injEq] at h
      rw [← h.2]; simp
    · cases hs : Spec.sizeField s with
      | none => simp [hs] at h
      | some p =>
        obtain ⟨v', r'⟩ := p
        simp only [hs, Option.some.injEq, Prod.mk.injEq] at h
        have := ih hs
        rw [← h.2]; simp; omega

theorem readSizeLoop_exact : ∀ (s : Bytes) (value len : Nat), (len < 64 → value < 2 ^ len) →
    readSizeLoop value len s =
      match Spec.sizeField s with
      | some (v, rest) =>
        if len + 7 * (s.length - rest.length - 1) < 64 then .ok ((value + v * 2 ^ len) % 2 ^ 64, rest) else .panic
      | none => .panic := by
  intro s
  induction s with
  | nil => intro value len _; rfl
  | cons b s ih =>
    intro value len hv
    have hb := b.toNat_lt
    rw [readSizeLoop, Spec.sizeField]
    simp only [varIntByte_fst, varIntByte_snd]
    by_cases hl : 64 ≤ len
    · rw [if_pos hl]
      by_cases hs : b.toNat < 128
      · rw [if_pos hs]
        simp only
        rw [if_neg (by simp; omega)]
      · rw [if_neg hs]
        cases hf : Spec.sizeField s with
        | none => rfl
        | some p =>
          obtain ⟨v, r⟩ := p
          simp only
          rw [if_neg (by omega)]
    · rw [if_neg hl]
      have hlt := hv (by omega)
      have hor : value ||| ((b.toNat % 128) <<< len) % U64 = value + ((b.toNat % 128) * 2 ^ len) % 2 ^ 64 := by
        have e : ((b.toNat % 128) <<< len) % U64 = ((b.toNat % 128) % 2 ^ (64 - len)) <<< len := by
          rw [Nat.shiftLeft_eq, Nat.shiftLeft_eq]
          have : U64 = 2 ^ (64 - len) * 2 ^ len := by
            rw [← Nat.pow_add]; unfold U64; congr 1; omega
          rw [this, Nat.mul_mod_mul_right]
        rw [e, or_shift _ _ _ hlt, ← Nat.shiftLeft_eq, ← e, Nat.shiftLeft_eq]
        rfl
      rw [hor]
      have hvlt : value < 2 ^ 64 := by
        calc value < 2 ^ len := hlt
          _ ≤ 2 ^ 64 := Nat.pow_le_pow_right (by omega) (by omega)
      by_cases hs : b.toNat < 128
      · simp only [hs, if_true, show ¬ 128 ≤ b.toNat by omega, decide_false, Bool.not_false]
        rw [if_pos (by simp; omega), Nat.mod_eq_of_lt hs]
        -- no overflow in the sum
        have hsum : value + (b.toNat * 2 ^ len) % 2 ^ 64 < 2 ^ 64 := by
          have : (b.toNat * 2 ^ len) % 2 ^ 64 = (b.toNat % 2 ^ (64 - len)) * 2 ^ len := by
            rw [← Nat.mul_mod_mul_right, ← Nat.pow_add]; congr 2; omega
          rw [this]
          have h1 : b.toNat % 2 ^ (64 - len) < 2 ^ (64 - len) := Nat.mod_lt _ (by positivity)
          have h2 : 2 ^ 64 = 2 ^ (64 - len) * 2 ^ len := by rw [← Nat.pow_add]; congr 1; omega
          have h3 : (b.toNat % 2 ^ (64 - len) + 1) * 2 ^ len ≤ 2 ^ (64 - len) * 2 ^ len :=
            Nat.mul_le_mul_right _ h1
          rw [← h2, Nat.add_mul, Nat.one_mul] at h3
          omega
        congr 2
        generalize b.toNat * 2 ^ len = B at *
        omega
      · simp only [hs, if_false, show 128 ≤ b.toNat by omega, decide_true, Bool.not_true, Bool.false_eq_true]
        have hbm : b.toNat % 128 = b.toNat - 128 := by omega
        rw [hbm, ih]
        · cases hf : Spec.sizeField s with
          | none => rfl
          | some p =>
            obtain ⟨v, r⟩ := p
            have hsh := sizeField_shrinks hf
            simp only [List.length_cons]
            have hc : (len + 7 + 7 * (s.length - r.length - 1) < 64) ↔
                (len + 7 * (s.length + 1 - r.length - 1) < 64) := by omega
            simp only [hc]
            split
            · congr 2
              have e : (b.toNat - 128 + 128 * v) * 2 ^ len = (b.toNat - 128) * 2 ^ len + v * 2 ^ (len + 7) := by
                rw [Nat.add_mul, Nat.pow_add]; congr 1; ring
              rw [e]
              generalize (b.toNat - 128) * 2 ^ len = B
              generalize v * 2 ^ (len + 7) = C
              omega
            · rfl
        · intro _
          have h1 : ((b.toNat - 128) * 2 ^ len) % 2 ^ 64 ≤ (b.toNat - 128) * 2 ^ len := Nat.mod_le _ _
          have h2 : (b.toNat - 128 + 1) * 2 ^ len ≤ 2 ^ 7 * 2 ^ len := Nat.mul_le_mul_right _ (by omega)
          rw [Nat.add_mul, Nat.one_mul] at h2
          rw [Nat.pow_add, Nat.mul_comm (2 ^ len)]
          omega

theorem readSizeEncoding_exact (s : Bytes) :
    readSizeEncoding s =
      match Spec.sizeField64 s with
      | some p => .ok p
      | none => .panic := by
  rw [readSizeEncoding, readSizeLoop_exact s 0 0 (by simp), Spec.sizeField64]
  cases hf : Spec.sizeField s with
  | none => rfl
  | some p =>
    obtain ⟨v, r⟩ := p
    have := sizeField_shrinks hf
    simp only [Nat.zero_add, Nat.pow_zero, Nat.mul_one]
    have hc : (7 * (s.length - r.length - 1) < 64) ↔ (s.length - r.length ≤ 10) := by omega
    simp only [hc]
    split <;> rfl

/-! ## Copy arguments -/

/-- The lowest `n` bits of `p`. -/
def flagsN : Nat → Nat → List Bool
  | 0, _ => []
  | n + 1, p => decide (p % 2 = 1) :: flagsN n (p / 2)

theorem flags_eq (p : Nat) : Spec.flags p = flagsN 4 p ++ flagsN 3 (p / 16) := by
  simp only [Spec.flags, flagsN, List.range, List.range.loop, List.map, List.cons_append, List.nil_append,
    Nat.div_div_eq_div_mul]
  simp

theorem copyArgs_append (fs gs : List Bool) (s : Bytes) :
    Spec.copyArgs (fs ++ gs) s =
      match Spec.copyArgs fs s with
      | some (ds, r) => (Spec.copyArgs gs r).map (fun p => (ds ++ p.1, p.2))
      | none => none := by
  induction fs generalizing s with
  | nil => simp [Spec.copyArgs]
  | cons f fs ih =>
    cases f with
    | false =>
      simp only [List.cons_append, Spec.copyArgs, ih]
      cases Spec.copyArgs fs s with
      | none => rfl
      | some p => obtain ⟨ds, r⟩ := p; simp only [Option.map_some]; cases Spec.copyArgs gs r <;> simp
    | true =>
      cases s with
      | nil => simp [Spec.copyArgs]
      | cons b s =>
        simp only [List.cons_append, Spec.copyArgs, ih]
        cases Spec.copyArgs fs s with
        | none => rfl
        | some p => obtain ⟨ds, r⟩ := p; simp only [Option.map_some]; cases Spec.copyArgs gs r <;> simp

theorem copyArgs_length {fs : List Bool} {s : Bytes} {ds : List Nat} {r : Bytes}
    (h : Spec.copyArgs fs s = some (ds, r)) : ds.length = fs.length := by
  induction fs generalizing s ds r with
  | nil => simp [Spec.copyArgs] at h; simp [h.1]
  | cons f fs ih =>
    cases f with
    | false =>
      simp only [Spec.copyArgs, Option.map_eq_some_iff] at h
      obtain ⟨⟨ds', r'⟩, h1, h2⟩ := h
      simp only [Prod.mk.injEq] at h2
      rw [← h2.1]; simp [ih h1]
    | true =>
      cases s with
      | nil => simp [Spec.copyArgs] at h
      | cons b s =>
        simp only [Spec.copyArgs, Option.map_eq_some_iff] at h
        obtain ⟨⟨ds', r'⟩, h1, h2⟩ := h
        simp only [Prod.mk.injEq] at h2
        rw [← h2.1]; simp [ih h1]

theorem flagsN_length (n p : Nat) : (flagsN n p).length = n := by
  induction n generalizing p with
  | zero => rfl
  | succ n ih => simp [flagsN, ih]

theorem readPartialInt_exact (n idx present : Nat) (s : Bytes) :
    readPartialInt n idx present s =
      match Spec.copyArgs (flagsN n present) s with
      | some (ds, rest) => .ok ((Spec.le ds * 256 ^ idx, present / 2 ^ n), rest)
      | none => .err .io := by
  induction n generalizing idx present s with
  | zero => simp [readPartialInt, flagsN, Spec.copyArgs, Spec.le]
  | succ n ih =>
    have hdiv : present >>> 1 = present / 2 := by simp [Nat.shiftRight_eq_div_pow]
    have hp : present / 2 / 2 ^ n = present / 2 ^ (n + 1) := by
      rw [Nat.div_div_eq_div_mul, Nat.pow_succ, Nat.mul_comm]
    have hsh : ∀ v, v * 256 ^ (idx + 1) = v <<< ((idx + 1) * 8) := by
      intro v
      rw [Nat.shiftLeft_eq, Nat.mul_comm (idx + 1), Nat.pow_mul]
    rw [readPartialInt, flagsN, hdiv, and_one]
    by_cases hf : present % 2 = 1
    · simp only [hf, ne_eq, Nat.succ_ne_zero, not_false_eq_true, if_true, decide_true]
      cases s with
      | nil => simp [readBytes, Spec.copyArgs]
      | cons b s =>
        simp only [readBytes, List.length_cons, Nat.le_add_left, if_true, Res.bind_ok, Res.pure_eq, List.take,
          List.drop, Spec.copyArgs, ih]
        cases hc : Spec.copyArgs (flagsN n (present / 2)) s with
        | none => simp
        | some p =>
          obtain ⟨ds, r⟩ := p
          simp only [Res.bind_ok, Option.map_some, Spec.le, hp]
          refine congrArg (fun v => Res.ok ((v, present / 2 ^ (n + 1)), r)) ?_
          have hb := b.toNat_lt
          have hbe : beNat [b] = b.toNat := by simp [beNat]
          have hlt : b.toNat <<< (idx * 8) < 2 ^ ((idx + 1) * 8) := by
            rw [Nat.shiftLeft_eq, Nat.add_mul, Nat.pow_add, Nat.mul_comm (2 ^ (idx * 8))]
            exact Nat.mul_lt_mul_of_pos_right (by omega) (by positivity)
          have h256 : 2 ^ (idx * 8) = 256 ^ idx := by rw [Nat.mul_comm, Nat.pow_mul]
          have h257 : 2 ^ ((idx + 1) * 8) = 256 * 256 ^ idx := by
            rw [Nat.mul_comm, Nat.pow_mul, Nat.pow_succ, Nat.mul_comm]
          rw [hbe, hsh, or_shift _ _ _ hlt, Nat.shiftLeft_eq, h256, h257]
          ring
    · have h0 : present % 2 = 0 := by omega
      simp only [h0, ne_eq, not_true_eq_false, if_false, Res.pure_eq, Res.bind_ok, ih]
      have hd : decide ((0 : Nat) = 1) = false := rfl
      simp only [hd, Spec.copyArgs]
      cases hc : Spec.copyArgs (flagsN n (present / 2)) s with
      | none => simp
      | some p =>
        obtain ⟨ds, r⟩ := p
        simp only [Res.bind_ok, Option.map_some, Spec.le, hp, Nat.zero_or]
        refine congrArg (fun v => Res.ok ((v, present / 2 ^ (n + 1)), r)) ?_
        rw [Nat.pow_succ]; ring

/-! ## Applying instructions -/

theorem byte_flag (b : UInt8) : (b &&& 0x80 = 0) ↔ b.toNat < 128 := by
  revert b; apply forall_byte; decide +kernel

theorem apply_lit (base res : Bytes) (n : UInt8) (bs rest : Bytes) (h1 : 1 ≤ n.toNat) (h2 : n.toNat ≤ 127)
    (h3 : bs.length = n.toNat) :
    applyDeltaInstruction base (n :: (bs ++ rest)) res = .ok (some (res ++ bs, rest)) := by
  have hne : n ≠ 0 := by rintro rfl; simp at h1
  rw [applyDeltaInstruction]
  simp only [byte_flag, show n.toNat < 128 by omega, if_true, hne, if_false]
  have : readBytes n.toNat (bs ++ rest) = .ok (bs, rest) := by
    rw [readBytes, if_pos (by simp; omega), ← h3]; simp
  rw [this]; rfl

theorem apply_copy (base res : Bytes) (op : UInt8) (s rest : Bytes) (offs sizes : List Nat) (h1 : 128 ≤ op.toNat)
    (h2 : Spec.copyArgs (Spec.flags op.toNat) s = some (offs ++ sizes, rest)) (h3 : offs.length = 4)
    (h4 : sizes.length = 3) :
    applyDeltaInstruction base (op :: s) res =
      if Spec.le offs + Spec.copySize (Spec.le sizes) ≤ base.length then
        .ok (some (res ++ (base.drop (Spec.le offs)).take (Spec.copySize (Spec.le sizes)), rest))
      else .err .delta := by
  rw [flags_eq, copyArgs_append] at h2
  cases hc : Spec.copyArgs (flagsN 4 op.toNat) s with
  | none => simp [hc] at h2
  | some p =>
    obtain ⟨ds, r⟩ := p
    simp only [hc, Option.map_eq_some_iff] at h2
    obtain ⟨⟨es, r'⟩, h5, h6⟩ := h2
    simp only [Prod.mk.injEq] at h6
    have hl := copyArgs_length hc
    rw [flagsN_length] at hl
    obtain ⟨e1, e2⟩ := List.append_inj h6.1 (by rw [hl, h3])
    subst e1 e2
    obtain rfl := h6.2
    rw [applyDeltaInstruction]
    simp only [byte_flag, show ¬ op.toNat < 128 by omega, if_false, readPartialInt_exact, hc, Res.unwrap_ok,
      Res.bind_ok, Nat.pow_zero, Nat.mul_one, show 2 ^ 4 = 16 from rfl, h5, Spec.copySize, Res.pure_eq]
    rfl

theorem apply_inv {base s res res' rest : Bytes}
    (h : applyDeltaInstruction base s res = .ok (some (res', rest))) :
    (∃ (n : UInt8) (bs : Bytes), 1 ≤ n.toNat ∧ n.toNat ≤ 127 ∧ bs.length = n.toNat ∧ s = n :: (bs ++ rest) ∧
      res' = res ++ bs) ∨
    (∃ (op : UInt8) (s' : Bytes) (offs sizes : List Nat), 128 ≤ op.toNat ∧
      Spec.copyArgs (Spec.flags op.toNat) s' = some (offs ++ sizes, rest) ∧ offs.length = 4 ∧ sizes.length = 3 ∧
      s = op :: s' ∧ Spec.le offs + Spec.copySize (Spec.le sizes) ≤ base.length ∧
      res' = res ++ (base.drop (Spec.le offs)).take (Spec.copySize (Spec.le sizes))) := by
  cases s with
  | nil => simp [applyDeltaInstruction] at h
  | cons b s =>
    by_cases hb : b.toNat < 128
    · left
      rw [applyDeltaInstruction] at h
      simp only [byte_flag, hb, if_true] at h
      by_cases h0 : b = 0
      · simp [h0] at h
      · simp only [h0, if_false, Res.bind_eq_ok, Res.unwrap_eq_ok, readBytes] at h
        obtain ⟨⟨d, r⟩, h1, h2⟩ := h
        split at h1
        · rename_i hle
          simp only [Res.ok.injEq, Prod.mk.injEq] at h1
          simp only [Res.pure_eq, Res.ok.injEq, Option.some.injEq, Prod.mk.injEq] at h2
          refine ⟨b, d, ?_, by omega, ?_, ?_, h2.1.symm⟩
          · have : b.toNat ≠ 0 := by
              intro hz; apply h0; apply UInt8.toNat_inj.1; simpa using hz
            omega
          · rw [← h1.1]; simp [hle]
          · rw [← h2.2, ← h1.1, ← h1.2]; simp
        · cases h1
    · right
      have hflags := flags_eq b.toNat
      have hca := copyArgs_append (flagsN 4 b.toNat) (flagsN 3 (b.toNat / 16)) s
      cases hc : Spec.copyArgs (flagsN 4 b.toNat) s with
      | none =>
        rw [applyDeltaInstruction] at h
        simp [byte_flag, hb, readPartialInt_exact, hc] at h
      | some p =>
        obtain ⟨ds, r⟩ := p
        cases hc2 : Spec.copyArgs (flagsN 3 (b.toNat / 16)) r with
        | none =>
          rw [applyDeltaInstruction] at h
          simp [byte_flag, hb, readPartialInt_exact, hc, hc2] at h
        | some p2 =>
          obtain ⟨es, r2⟩ := p2
          have e : Spec.copyArgs (Spec.flags b.toNat) s = some (ds ++ es, r2) := by
            rw [hflags, hca, hc]; simp [hc2]
          have l1 : ds.length = 4 := by rw [copyArgs_length hc, flagsN_length]
          have l2 : es.length = 3 := by rw [copyArgs_length hc2, flagsN_length]
          rw [apply_copy base res b s r2 ds es (by omega) e l1 l2] at h
          split at h
          · rename_i hle
            simp only [Res.ok.injEq, Option.some.injEq, Prod.mk.injEq] at h
            exact ⟨b, s, ds, es, by omega, by rw [e, h.2], l1, l2, rfl, hle, h.1.symm⟩
          · cases h

theorem apply_ne_none (base : Bytes) (b : UInt8) (s res : Bytes) :
    applyDeltaInstruction base (b :: s) res ≠ .ok none := by
  intro h
  rw [applyDeltaInstruction] at h
  split at h
  · split at h
    · cases h
    · simp only [Res.bind_eq_ok] at h
      obtain ⟨_, _, h⟩ := h
      cases h
  · simp only [Res.bind_eq_ok] at h
    obtain ⟨x, _, y, _, h⟩ := h
    generalize (if y.1.1 = 0 then 65536 else y.1.1) = zz at h
    split at h <;> cases h

theorem loop_step {base s res : Bytes} {r : Bytes × Bytes}
    (h : applyDeltaInstruction base s res = .ok (some r)) :
    applyDeltaLoop base s res = applyDeltaLoop base r.2 r.1 := by
  conv => lhs; rw [applyDeltaLoop]
  split <;> rename_i h' <;> rw [h] at h' <;> simp at h'
  subst h'; rfl

theorem loop_done (base res : Bytes) : applyDeltaLoop base [] res = .ok res := by
  rw [applyDeltaLoop]
  split <;> rename_i h' <;> simp_all [applyDeltaInstruction]

theorem loop_complete (base : Bytes) {s : Bytes} {is : List Spec.Instr} (hc : Spec.DeltaCode s is) :
    ∀ {out : Bytes}, Spec.runAll base is = some out → ∀ res, applyDeltaLoop base s res = .ok (res ++ out) := by
  induction hc with
  | done => intro out h res; simp [Spec.runAll] at h; subst h; rw [loop_done]; simp
  | lit n bs rest is h1 h2 h3 _ ih =>
    intro out h res
    simp only [Spec.runAll, Spec.Instr.run] at h
    cases hr : Spec.runAll base is with
    | none => simp [hr] at h
    | some o =>
      simp only [hr, Option.some.injEq] at h
      rw [loop_step (apply_lit base res n bs rest h1 h2 h3), ih hr, ← h]; simp
  | copy op s rest offs sizes is h1 h2 h3 h4 _ ih =>
    intro out h res
    simp only [Spec.runAll, Spec.Instr.run] at h
    split at h
    · rename_i a b ha hb
      split at ha
      · rename_i hle
        simp only [Option.some.injEq] at ha h
        have hs := apply_copy base res op s rest offs sizes h1 h2 h3 h4
        rw [if_pos hle] at hs
        rw [loop_step hs, ih hb, ← h, ← ha]; simp
      · cases ha
    · cases h

theorem loop_sound (base : Bytes) : ∀ (s res out : Bytes), applyDeltaLoop base s res = .ok out →
    ∃ is o, Spec.DeltaCode s is ∧ Spec.runAll base is = some o ∧ out = res ++ o := by
  intro s
  induction hn : s.length using Nat.strongRecOn generalizing s with
  | _ n ih =>
    intro res out h
    cases hi : applyDeltaInstruction base s res with
    | ok o =>
      cases o with
      | none =>
        have hs : s = [] := by
          cases s with
          | nil => rfl
          | cons b s =>
            exact absurd hi (apply_ne_none base b s res)
        subst hs
        rw [loop_done] at h
        exact ⟨[], [], .done, rfl, by simpa using h.symm⟩
      | some r =>
        obtain ⟨res', rest⟩ := r
        have hlt := applyDeltaInstruction_shrinks hi
        rw [loop_step hi] at h
        obtain ⟨is, o, hc, hr, ho⟩ := ih rest.length (by simpa [hn] using hlt) rest rfl res' out h
        rcases apply_inv hi with ⟨n, bs, h1, h2, h3, hs, hres⟩ | ⟨op, s', offs, sizes, h1, h2, h3, h4, hs, hle, hres⟩
        · refine ⟨.lit bs :: is, bs ++ o, ?_, ?_, ?_⟩
          · rw [hs]; exact .lit n bs rest is h1 h2 h3 hc
          · simp [Spec.runAll, Spec.Instr.run, hr]
          · rw [ho, hres]; simp
        · refine ⟨.copy (Spec.le offs) (Spec.copySize (Spec.le sizes)) :: is,
            (base.drop (Spec.le offs)).take (Spec.copySize (Spec.le sizes)) ++ o, ?_, ?_, ?_⟩
          · rw [hs]; exact .copy op s' rest offs sizes is h1 h2 h3 h4 hc
          · simp [Spec.runAll, Spec.Instr.run, hr, hle]
          · rw [ho, hres]; simp
    | _ =>
      exfalso
      rw [applyDeltaLoop] at h
      split at h <;> rename_i h' <;> rw [hi] at h' <;> simp_all

end Gust

import Verif.Lemmas.Delta

namespace Gust

/-! ## Encoding of one operation -/

/-- Present bits relative to the first one. -/
def relFlags : Nat → Nat → Nat
  | 0, _ => 0
  | n + 1, v => (if v % 256 ≠ 0 then 1 else 0) + 2 * relFlags n (v / 256)

/-- Little-endian digits. -/
def digits256 : Nat → Nat → List Nat
  | 0, _ => []
  | n + 1, v => v % 256 :: digits256 n (v / 256)

theorem relFlags_lt (n v : Nat) : relFlags n v < 2 ^ n := by
  induction n generalizing v with
  | zero => simp [relFlags]
  | succ n ih =>
    have := ih (v / 256)
    rw [relFlags, Nat.pow_succ]
    split <;> omega

theorem partialBytes_flags (n i v : Nat) : (partialBytes n i v).1 = 2 ^ i * relFlags n v := by
  induction n generalizing i v with
  | zero => simp [partialBytes, relFlags]
  | succ n ih =>
    have e : v >>> 8 = v / 256 := by simp [Nat.shiftRight_eq_div_pow]
    simp only [partialBytes, relFlags, and_ff, e]
    by_cases h : v % 256 = 0
    · simp only [h, ne_eq, not_true_eq_false, if_false, ih, Nat.zero_add]
      rw [Nat.pow_succ]; ring
    · simp only [h, ne_eq, not_false_eq_true, if_true, ih]
      have : (1 <<< i) < 2 ^ (i + 1) := by rw [Nat.shiftLeft_eq, Nat.pow_succ]; have := Nat.two_pow_pos i; omega
      rw [Nat.mul_comm (2 ^ (i + 1)), ← Nat.shiftLeft_eq, or_shift _ _ _ this, Nat.shiftLeft_eq, Nat.pow_succ]
      ring

theorem partialBytes_args (n i v hi : Nat) (rest : Bytes) :
    Spec.copyArgs (flagsN n (relFlags n v + 2 ^ n * hi)) ((partialBytes n i v).2 ++ rest) =
      some (digits256 n v, rest) := by
  induction n generalizing i v hi with
  | zero => simp [flagsN, partialBytes, Spec.copyArgs, digits256]
  | succ n ih =>
    have e : v >>> 8 = v / 256 := by simp [Nat.shiftRight_eq_div_pow]
    simp only [flagsN, partialBytes, relFlags, and_ff, e, digits256]
    by_cases h : v % 256 = 0
    · have h1 : (0 + 2 * relFlags n (v / 256) + 2 ^ (n + 1) * hi) % 2 = 0 := by
        rw [Nat.pow_succ, Nat.mul_comm _ 2, Nat.mul_assoc]; omega
      have h2 : (0 + 2 * relFlags n (v / 256) + 2 ^ (n + 1) * hi) / 2 = relFlags n (v / 256) + 2 ^ n * hi := by
        rw [Nat.pow_succ, Nat.mul_comm _ 2, Nat.mul_assoc]; omega
      simp only [h, ne_eq, not_true_eq_false, if_false, h1, h2]
      have hd : decide ((0 : Nat) = 1) = false := rfl
      simp [hd, Spec.copyArgs, ih]
    · have h1 : (1 + 2 * relFlags n (v / 256) + 2 ^ (n + 1) * hi) % 2 = 1 := by
        rw [Nat.pow_succ, Nat.mul_comm _ 2, Nat.mul_assoc]; omega
      have h2 : (1 + 2 * relFlags n (v / 256) + 2 ^ (n + 1) * hi) / 2 = relFlags n (v / 256) + 2 ^ n * hi := by
        rw [Nat.pow_succ, Nat.mul_comm _ 2, Nat.mul_assoc]; omega
      simp only [h, ne_eq, not_false_eq_true, if_true, h1, h2, decide_true, List.cons_append, Spec.copyArgs, ih,
        Option.map_some, u8_toNat, Nat.mod_mod]

theorem digits256_length (n v : Nat) : (digits256 n v).length = n := by
  induction n generalizing v with
  | zero => rfl
  | succ n ih => simp [digits256, ih]

theorem le_digits (n v : Nat) : Spec.le (digits256 n v) = v % 256 ^ n := by
  induction n generalizing v with
  | zero => simp [digits256, Spec.le, Nat.mod_one]
  | succ n ih =>
    rw [digits256, Spec.le, ih, Nat.pow_succ, Nat.mul_comm (256 ^ n), Nat.mod_mul]

theorem opbyte (o z : Nat) (ho : o < 16) (hz : z < 8) : 128 ||| o ||| (2 ^ 4 * z) = o + 16 * (z + 8 * 1) := by
  have : ∀ a : Fin 16, ∀ b : Fin 8, 128 ||| a.val ||| (2 ^ 4 * b.val) = a.val + 16 * (b.val + 8 * 1) := by
    decide +kernel
  exact this ⟨o, ho⟩ ⟨z, hz⟩

/-- The instruction a decoder sees for an operation. -/
def opInstr (new : Bytes) (op : DeltaOp) : Spec.Instr :=
  match op.ins with
  | .data => .lit ((new.drop op.start).take op.len)
  | .copy => .copy (op.start % 2 ^ 32) (Spec.copySize (op.len % 2 ^ 24))

/-- Well-formed operations. -/
def OpOk (old new : Bytes) (op : DeltaOp) : Prop :=
  0 < op.len ∧ (op.ins = .copy → op.start + op.len ≤ old.length) ∧
    (op.ins = .data → op.len ≤ 127 ∧ op.start + op.len ≤ new.length)

theorem decodeOp_code {old new : Bytes} {op : DeltaOp} (h : OpOk old new op) :
    ∃ e, decodeOp new op = .ok e ∧ ∀ rest is, Spec.DeltaCode rest is →
      Spec.DeltaCode (e ++ rest) (opInstr new op :: is) := by
  obtain ⟨hpos, hcopy, hdata⟩ := h
  cases hi : op.ins with
  | data =>
    obtain ⟨h1, h2⟩ := hdata hi
    have hs : slice new op.start (op.start + op.len) = .ok ((new.drop op.start).take op.len) := by
      rw [slice, if_pos (by omega)]
      congr 1
      rw [List.drop_take]; congr 1; omega
    refine ⟨u8 (op.len &&& 0x7f) :: (new.drop op.start).take op.len, ?_, ?_⟩
    · simp only [decodeOp, hi, hs, Res.bind_ok, Res.pure_eq]
    · intro rest is hc
      have hl : ((new.drop op.start).take op.len).length = op.len := by simp; omega
      have hb : (u8 (op.len &&& 0x7f)).toNat = op.len := by rw [u8_toNat, and_7f]; omega
      have := Spec.DeltaCode.lit (u8 (op.len &&& 0x7f)) ((new.drop op.start).take op.len) rest is
        (by rw [hb]; omega) (by rw [hb]; omega) (by rw [hl, hb]) hc
      simpa [opInstr, hi] using this
  | copy =>
    refine ⟨u8 (0x80 ||| (partialBytes 4 0 op.start).1 ||| (partialBytes 3 4 op.len).1) ::
      ((partialBytes 4 0 op.start).2 ++ (partialBytes 3 4 op.len).2), by simp only [decodeOp, hi], ?_⟩
    intro rest is hc
    have ho := relFlags_lt 4 op.start
    have hz := relFlags_lt 3 op.len
    have hb : (u8 (0x80 ||| (partialBytes 4 0 op.start).1 ||| (partialBytes 3 4 op.len).1)).toNat =
        relFlags 4 op.start + 2 ^ 4 * (relFlags 3 op.len + 2 ^ 3 * 1) := by
      rw [u8_toNat, partialBytes_flags, partialBytes_flags, Nat.pow_zero, Nat.one_mul,
        opbyte _ _ (by simpa using ho) (by simpa using hz)]
      omega
    have hdiv : (relFlags 4 op.start + 2 ^ 4 * (relFlags 3 op.len + 2 ^ 3 * 1)) / 16 =
        relFlags 3 op.len + 2 ^ 3 * 1 := by omega
    have harg : Spec.copyArgs (Spec.flags (u8 (0x80 ||| (partialBytes 4 0 op.start).1 |||
        (partialBytes 3 4 op.len).1)).toNat)
        ((partialBytes 4 0 op.start).2 ++ ((partialBytes 3 4 op.len).2 ++ rest)) =
        some (digits256 4 op.start ++ digits256 3 op.len, rest) := by
      rw [hb, flags_eq, copyArgs_append, partialBytes_args, hdiv]
      simp only [partialBytes_args, Option.map_some]
    have := Spec.DeltaCode.copy _ _ rest _ _ is (by rw [hb]; omega) harg (digits256_length _ _)
      (digits256_length _ _) hc
    rw [le_digits, le_digits] at this
    simpa [opInstr, hi] using this

theorem decodeOps_code {old new : Bytes} : ∀ {ops : List DeltaOp}, (∀ op ∈ ops, OpOk old new op) →
    ∃ e, decodeOps new ops = .ok e ∧ Spec.DeltaCode e (ops.map (opInstr new))
  | [], _ => ⟨[], rfl, .done⟩
  | op :: ops, h => by
    obtain ⟨e, he, hc⟩ := decodeOp_code (h op (by simp))
    obtain ⟨e', he', hc'⟩ := decodeOps_code (ops := ops) (fun o ho => h o (by simp [ho]))
    exact ⟨e ++ e', by simp [decodeOps, he, he'], hc _ _ hc'⟩

/-! ## The invariant of the callbacks -/

/-- Intended output of an operation. -/
def opOut (old new : Bytes) (op : DeltaOp) : Bytes :=
  match op.ins with
  | .data => (new.drop op.start).take op.len
  | .copy => (old.drop op.start).take op.len

/-- Output of operations kept in reverse order. -/
def ropsOut (old new : Bytes) : List DeltaOp → Bytes
  | [] => []
  | op :: ops => ropsOut old new ops ++ opOut old new op

/-- Invariant after having produced `j` bytes of `new`. -/
def DiffInv (old new : Bytes) (j : Nat) (s : DiffState) : Prop :=
  (∀ op ∈ s.rops, OpOk old new op) ∧ ropsOut old new s.rops = new.take j

theorem take_add_drop {α : Type} (l : List α) (j n : Nat) : l.take (j + n) = l.take j ++ (l.drop j).take n := by
  rw [List.take_add]

theorem drop_take_merge {α : Type} (l : List α) (b m n : Nat) :
    (l.drop b).take (m + n) = (l.drop b).take m ++ (l.drop (b + m)).take n := by
  rw [List.take_add, List.drop_drop]

theorem inv_equal {old new : Bytes} {j : Nat} {s : DiffState} (h : DiffInv old new j s) (o l : Nat) (hl : 0 < l)
    (ho : o + l ≤ old.length) (he : (old.drop o).take l = (new.drop j).take l) :
    DiffInv old new (j + l) (s.equal o l) := by
  obtain ⟨hok, hout⟩ := h
  have hpush : OpOk old new { ins := .copy, start := o, len := l } :=
    ⟨hl, fun _ => ho, fun h => by cases h⟩
  unfold DiffState.equal
  cases hr : s.rops with
  | nil =>
    rw [hr] at hout
    refine ⟨by simpa using hpush, ?_⟩
    simp only [ropsOut] at hout ⊢
    rw [take_add_drop, ← hout]; simp [opOut, he]
  | cons tail rest =>
    rw [hr] at hout hok
    simp only
    split
    · rename_i hc
      obtain ⟨hc1, hc2⟩ := hc
      have ht := hok tail (by simp)
      refine ⟨?_, ?_⟩
      · intro op hop
        rcases List.mem_cons.1 hop with rfl | hop
        · exact ⟨by simp; omega, fun _ => by simp; omega, fun h => by simp [hc2] at h⟩
        · exact hok op (by simp [hop])
      · simp only [ropsOut, opOut, hc2] at hout ⊢
        rw [drop_take_merge, hc1, take_add_drop, ← hout, he]; simp
    · refine ⟨?_, ?_⟩
      · intro op hop
        rcases List.mem_cons.1 hop with rfl | hop
        · exact hpush
        · exact hok op hop
      · simp only [ropsOut] at hout ⊢
        rw [take_add_drop, ← hout]; simp [opOut, he]

theorem ropsOut_append (old new : Bytes) (a b : List DeltaOp) :
    ropsOut old new (a ++ b) = ropsOut old new b ++ ropsOut old new a := by
  induction a with
  | nil => simp [ropsOut]
  | cons x a ih => simp [ropsOut, ih]

theorem chunks_ok (old new : Bytes) (n l : Nat) (hl : 0 < l) (hn : n + l ≤ new.length) :
    (∀ op ∈ insertChunks n l, OpOk old new op) ∧
      ropsOut old new (insertChunks n l).reverse = (new.drop n).take l := by
  induction l using Nat.strongRecOn generalizing n with
  | _ l ih =>
    rw [insertChunks]
    split
    · rename_i h
      obtain ⟨h1, h2⟩ := ih (l - 127) (by omega) (n + 127) (by omega) (by omega)
      refine ⟨?_, ?_⟩
      · intro op hop
        rcases List.mem_cons.1 hop with rfl | hop
        · exact ⟨by simp, (fun h => by cases h), fun _ => ⟨by simp, by simp; omega⟩⟩
        · exact h1 op hop
      · rw [List.reverse_cons, ropsOut_append, h2]
        simp only [ropsOut, opOut, List.nil_append]
        have e : 127 + (l - 127) = l := by omega
        rw [← drop_take_merge, e]
    · refine ⟨?_, ?_⟩
      · intro op hop
        simp only [List.mem_singleton] at hop
        subst hop
        exact ⟨hl, (fun h => by cases h), fun _ => ⟨by simp; omega, hn⟩⟩
      · simp [ropsOut, opOut]

theorem inv_insert {old new : Bytes} {j : Nat} {s : DiffState} (h : DiffInv old new j s) (l : Nat) (hl : 0 < l)
    (hj : j + l ≤ new.length) : DiffInv old new (j + l) (s.insert j l) := by
  obtain ⟨hok, hout⟩ := h
  unfold DiffState.insert
  split
  · obtain ⟨h1, h2⟩ := chunks_ok old new j l hl hj
    refine ⟨?_, ?_⟩
    · intro op hop
      rcases List.mem_append.1 hop with hop | hop
      · exact h1 op (by simpa using hop)
      · exact hok op hop
    · rw [ropsOut_append, h2, hout, take_add_drop]
  · rename_i hle
    have hpush : OpOk old new { ins := .data, start := j, len := l } :=
      ⟨hl, (fun h => by cases h), fun _ => ⟨by simp; omega, hj⟩⟩
    cases hr : s.rops with
    | nil =>
      rw [hr] at hout
      refine ⟨by simpa using hpush, ?_⟩
      simp only [ropsOut] at hout ⊢
      rw [take_add_drop, ← hout]; simp [opOut]
    | cons tail rest =>
      rw [hr] at hout hok
      simp only
      split
      · rename_i hc
        obtain ⟨hc1, hc2, hc3⟩ := hc
        have ht := hok tail (by simp)
        refine ⟨?_, ?_⟩
        · intro op hop
          rcases List.mem_cons.1 hop with rfl | hop
          · exact ⟨by simp; omega, fun h => by simp [hc2] at h, fun _ => ⟨by simp; omega, by simp; omega⟩⟩
          · exact hok op (by simp [hop])
        · simp only [ropsOut, opOut, hc2] at hout ⊢
          rw [drop_take_merge, hc1, take_add_drop, ← hout]; simp
      · refine ⟨?_, ?_⟩
        · intro op hop
          rcases List.mem_cons.1 hop with rfl | hop
          · exact hpush
          · exact hok op hop
        · simp only [ropsOut] at hout ⊢
          rw [take_add_drop, ← hout]; simp [opOut]

theorem inv_run {old new : Bytes} : ∀ (es : List DiffEvent) (j : Nat) (s : DiffState), DiffInv old new j s →
    Spec.ValidScript old new j es → DiffInv old new new.length (es.foldl DiffState.step s)
  | [], j, s, h, hv => by
    rw [Spec.ValidScript] at hv
    subst hv
    exact h
  | .equal o n l :: es, j, s, h, hv => by
    rw [Spec.ValidScript] at hv
    obtain ⟨rfl, hl, ho, hj, he, hv⟩ := hv
    exact inv_run es _ _ (inv_equal h o l hl ho he) hv
  | .insert o n l :: es, j, s, h, hv => by
    rw [Spec.ValidScript] at hv
    obtain ⟨rfl, hl, hj, hv⟩ := hv
    exact inv_run es _ _ (inv_insert h l hl hj) hv
  | .delete o l n :: es, j, s, h, hv => by
    rw [Spec.ValidScript] at hv
    exact inv_run es _ _ h hv

theorem diffRun_inv {old new : Bytes} {es : List DiffEvent} (hv : Spec.ValidScript old new 0 es) :
    (∀ op ∈ (diffRun es).rops, OpOk old new op) ∧ ropsOut old new (diffRun es).rops = new := by
  have h0 : DiffInv old new 0 { rops := [], ssam := 0 } := ⟨by simp, by simp [ropsOut]⟩
  obtain ⟨h1, h2⟩ := inv_run es 0 _ h0 hv
  exact ⟨h1, by rw [diffRun, h2, List.take_length]⟩

theorem runAll_append (base : Bytes) (a b : List Spec.Instr) :
    Spec.runAll base (a ++ b) =
      match Spec.runAll base a, Spec.runAll base b with
      | some x, some y => some (x ++ y)
      | _, _ => none := by
  induction a with
  | nil => simp only [List.nil_append, Spec.runAll]; cases Spec.runAll base b <;> rfl
  | cons i a ih =>
    simp only [List.cons_append, Spec.runAll, ih]
    cases i.run base <;> cases Spec.runAll base a <;> cases Spec.runAll base b <;> simp

/-- If no copy is too long or starts too far away, the instructions a decoder sees produce the intended output. -/
theorem runAll_rops {old new : Bytes} : ∀ (rops : List DeltaOp), (∀ op ∈ rops, OpOk old new op) →
    (∀ op ∈ rops, op.ins = .copy → op.start < 2 ^ 32 ∧ op.len < 2 ^ 24) →
    Spec.runAll old (rops.reverse.map (opInstr new)) = some (ropsOut old new rops)
  | [], _, _ => rfl
  | op :: rops, hok, hb => by
    have ih := runAll_rops rops (fun o ho => hok o (by simp [ho])) (fun o ho => hb o (by simp [ho]))
    have hop : Spec.runAll old [opInstr new op] = some (opOut old new op) := by
      have h := hok op (by simp)
      have hb' := hb op (by simp)
      cases hi : op.ins with
      | data => simp [Spec.runAll, opInstr, opOut, hi, Spec.Instr.run]
      | copy =>
        have h1 := hb' hi
        have h2 := h.2.1 hi
        have h3 : Spec.copySize (op.len % 2 ^ 24) = op.len := by
          rw [Nat.mod_eq_of_lt h1.2, Spec.copySize, if_neg (by have := h.1; omega)]
        simp only [Spec.runAll, opInstr, opOut, hi, Spec.Instr.run, Nat.mod_eq_of_lt h1.1, h3, h2, if_true]
        simp
    rw [List.reverse_cons, List.map_append, runAll_append, ih]
    simp only [List.map_cons, List.map_nil, hop, ropsOut]

theorem opOut_length_le (old new : Bytes) (op : DeltaOp) : ∀ (rops : List DeltaOp), op ∈ rops →
    (opOut old new op).length ≤ (ropsOut old new rops).length
  | [], h => by simp at h
  | o :: rops, h => by
    rcases List.mem_cons.1 h with rfl | h
    · simp [ropsOut]
    · have := opOut_length_le old new op rops h
      simp only [ropsOut, List.length_append]; omega

theorem sizeField64_write (n : Nat) (rest : Bytes) (h : n < 2 ^ 64) :
    Spec.sizeField64 (writeSizeEncoding n ++ rest) = some (n, rest) := by
  have h1 := readSizeEncoding_write n rest (by simpa [U64] using h)
  rw [readSizeEncoding_exact] at h1
  split at h1
  · rename_i p hp
    rw [hp]; exact congrArg some (Res.ok.inj h1)
  · cases h1

end Gust

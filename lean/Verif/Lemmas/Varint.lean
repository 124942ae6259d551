import Verif.Lemmas.Bits
import Verif.Spec.Varint
import Verif.Model.MetaData

/-! # Round-trip lemmas for the variable-length integers -/

namespace Gust

theorem readSizeLoop_cons (v len : Nat) (b : UInt8) (s : Bytes) :
    readSizeLoop v len (b :: s) =
      if 64 ≤ len then .panic
      else if b.toNat < 128 then .ok (v ||| ((b.toNat % 128) <<< len) % U64, s)
      else readSizeLoop (v ||| ((b.toNat % 128) <<< len) % U64) (len + 7) s := by
  have h1 := varIntByte_fst b
  have h2 := varIntByte_snd b
  rw [readSizeLoop]
  generalize varIntByte b = p at h1 h2
  obtain ⟨x, m⟩ := p
  simp only at h1 h2
  subst h1 h2
  by_cases h : b.toNat < 128
  · have : ¬ 128 ≤ b.toNat := by omega
    simp [h, this]
  · have : 128 ≤ b.toNat := by omega
    simp [h, this]

/-- Little-endian groups: reading what was written continues the accumulator correctly. -/
theorem readSizeLoop_write (n : Nat) : ∀ (v len : Nat) (s : Bytes), len < 64 → v < 2 ^ len →
    v + n * 2 ^ len < U64 →
    readSizeLoop v len (writeSizeEncoding n ++ s) = .ok (v + n * 2 ^ len, s) := by
  induction n using Nat.strongRecOn with
  | _ n ih =>
    intro v len s hlen hv hb
    rw [writeSizeEncoding]
    by_cases h : n >>> 7 > 0
    · have h' : n / 128 > 0 := by simpa [Nat.shiftRight_eq_div_pow] using h
      have hlt : (u8 (n &&& 127)).toNat < 128 := by simp [and_7f]; omega
      have e1 : (u8 (n &&& 127) ||| 128).toNat = n % 128 + 128 := by
        rw [or_80_toNat _ hlt]; simp [and_7f]; omega
      simp only [h, dite_true, List.cons_append, readSizeLoop_cons, e1]
      have hmod : (n % 128 + 128) % 128 = n % 128 := by omega
      have hnl : ¬ (n % 128 + 128 < 128) := by omega
      have hlen' : ¬ 64 ≤ len := by omega
      simp only [hmod, hnl, hlen', if_false]
      -- the group fits
      have hsplit : n = n % 128 + 128 * (n / 128) := by omega
      have hpow : 2 ^ (len + 7) = 2 ^ len * 128 := by rw [Nat.pow_add]
      have hsum : n * 2 ^ len = (n % 128) * 2 ^ len + (n / 128) * 2 ^ (len + 7) := by
        rw [hpow]
        conv => lhs; rw [hsplit]
        rw [Nat.add_mul, Nat.mul_comm 128, Nat.mul_assoc, Nat.mul_comm 128]
      have hlen7 : len + 7 < 64 := by
        have hge : 2 ^ (len + 7) ≤ (n / 128) * 2 ^ (len + 7) := Nat.le_mul_of_pos_left _ h'
        have : 2 ^ (len + 7) < 2 ^ 64 := by unfold U64 at hb; omega
        exact (Nat.pow_lt_pow_iff_right (by omega)).1 this
      have hfit : (n % 128) <<< len % U64 = (n % 128) <<< len := by
        apply Nat.mod_eq_of_lt
        rw [Nat.shiftLeft_eq]; omega
      rw [hfit, or_shift _ _ _ hv]
      have hv' : v + n % 128 * 2 ^ len < 2 ^ (len + 7) := by
        rw [hpow]
        have : n % 128 ≤ 127 := by omega
        have := Nat.mul_le_mul_right (2 ^ len) this
        omega
      have e7 : n >>> 7 = n / 128 := by simp [Nat.shiftRight_eq_div_pow]
      rw [e7, ih (n / 128) (by omega) _ _ _ hlen7 hv' (by omega)]
      congr 2
      omega
    · have h' : n < 128 := by
        have : n / 128 = 0 := by simpa [Nat.shiftRight_eq_div_pow] using h
        omega
      have e1 : (u8 (n &&& 127)).toNat = n := by simp [and_7f]; omega
      have hlen' : ¬ 64 ≤ len := by omega
      have hm : n % 128 = n := by omega
      simp only [h, dite_false, List.cons_append, List.nil_append, readSizeLoop_cons, e1, hlen', h',
        if_true, if_false, hm]
      have hfit : n <<< len % U64 = n <<< len := by
        apply Nat.mod_eq_of_lt
        rw [Nat.shiftLeft_eq]; omega
      rw [hfit, or_shift _ _ _ hv]

theorem readSizeEncoding_write (n : Nat) (s : Bytes) (h : n < U64) :
    readSizeEncoding (writeSizeEncoding n ++ s) = .ok (n, s) := by
  have := readSizeLoop_write n 0 0 s (by omega) (by simp) (by simpa using h)
  simpa [readSizeEncoding] using this


/-! ## size fields against the specification -/

theorem readSizeLoop_spec : ∀ (s : Bytes) (v len x : Nat) (rest : Bytes), v < 2 ^ len →
    Spec.sizeField s = some (x, rest) → v + x * 2 ^ len < U64 →
    len + 7 * (s.length - rest.length) < 71 →
    readSizeLoop v len s = .ok (v + x * 2 ^ len, rest) := by
  intro s
  induction s with
  | nil => intro v len x rest _ h; simp [Spec.sizeField] at h
  | cons b s ih =>
    intro v len x rest hv h hb hl
    rw [readSizeLoop_cons]
    rw [Spec.sizeField] at h
    by_cases hlt : b.toNat < 128
    · simp only [hlt, if_true, Option.some.injEq, Prod.mk.injEq] at h
      obtain ⟨rfl, rfl⟩ := h
      simp only [List.length_cons] at hl
      have hlen : ¬ 64 ≤ len := by omega
      have hm : b.toNat % 128 = b.toNat := by omega
      have hfit : b.toNat <<< len % U64 = b.toNat <<< len := by
        apply Nat.mod_eq_of_lt
        rw [Nat.shiftLeft_eq]; omega
      simp only [hlen, hlt, if_true, if_false, hm, hfit, or_shift _ _ _ hv]
    · simp only [hlt, if_false] at h
      cases hs : Spec.sizeField s with
      | none => simp [hs] at h
      | some p =>
        obtain ⟨y, r⟩ := p
        simp only [hs, Option.some.injEq, Prod.mk.injEq] at h
        obtain ⟨rfl, rfl⟩ := h
        have hrl : r.length < s.length := by
          clear ih hb hl hv
          revert y r
          induction s with
          | nil => intro y r h; simp [Spec.sizeField] at h
          | cons c s ih2 =>
            intro y r h
            rw [Spec.sizeField] at h
            by_cases hc : c.toNat < 128
            · simp only [hc, if_true, Option.some.injEq, Prod.mk.injEq] at h
              simp [h.2]
            · simp only [hc, if_false] at h
              cases h2 : Spec.sizeField s with
              | none => simp [h2] at h
              | some q =>
                obtain ⟨z, q⟩ := q
                simp only [h2, Option.some.injEq, Prod.mk.injEq] at h
                have := ih2 z q h2
                simp [← h.2]; omega
        simp only [List.length_cons] at hl
        have hlen : ¬ 64 ≤ len := by omega
        have hbt := b.toNat_lt
        have hm : b.toNat % 128 = b.toNat - 128 := by omega
        have hpow : 2 ^ (len + 7) = 2 ^ len * 128 := by rw [Nat.pow_add]
        have hsum : (b.toNat - 128 + 128 * y) * 2 ^ len
            = (b.toNat - 128) * 2 ^ len + y * 2 ^ (len + 7) := by
          rw [hpow, Nat.add_mul, Nat.mul_comm 128 y, Nat.mul_assoc, Nat.mul_comm 128]
        have hfit : (b.toNat - 128) <<< len % U64 = (b.toNat - 128) <<< len := by
          apply Nat.mod_eq_of_lt
          rw [Nat.shiftLeft_eq]; omega
        simp only [hlen, hlt, if_false, hm, hfit, or_shift _ _ _ hv]
        have hv' : v + (b.toNat - 128) * 2 ^ len < 2 ^ (len + 7) := by
          rw [hpow]
          have : b.toNat - 128 ≤ 127 := by omega
          have := Nat.mul_le_mul_right (2 ^ len) this
          omega
        rw [ih _ _ y r hv' hs (by omega) (by omega)]
        congr 2
        omega

/-! ## pack entry header -/

theorem sizeTail_eq_write (n : Nat) : MetaData.sizeTail n = writeSizeEncoding n := by
  induction n using Nat.strongRecOn with
  | _ n ih =>
    rw [MetaData.sizeTail, writeSizeEncoding]
    by_cases h : n >>> 7 > 0
    · simp only [h, if_true, dite_true]
      rw [ih (n >>> 7) (by simp only [Nat.shiftRight_eq_div_pow] at *; omega)]
      congr 1
      rw [← UInt8.toNat_inj, or_80_toNat _ (by simp [and_7f]; omega)]
      have h2 : 128 ||| n = 128 ||| n := rfl
      have : (128 ||| n) % 256 = n % 128 + 128 := by
        have e : (128 ||| n) % 2 ^ 8 = (128 % 2 ^ 8) ||| (n % 2 ^ 8) := Nat.or_mod_two_pow
        have hb : n % 256 < 256 := Nat.mod_lt _ (by omega)
        have key : ∀ m : Fin 256, 128 ||| m.val = m.val % 128 + 128 := by decide +kernel
        have := key ⟨n % 256, hb⟩
        simp only at this
        simp only [Nat.reducePow, Nat.reduceMod] at e
        rw [e, this]
        omega
      simp only [u8_toNat, and_7f, this]
      omega
    · simp only [h, if_false, dite_false]
      have h' : n < 128 := by simp only [Nat.shiftRight_eq_div_pow] at *; omega
      rw [and_7f, Nat.mod_eq_of_lt h']

theorem headerByte_toNat (t : ObjectType) (s : Nat) (hs : s < 16) :
    (u8 (0x80 ||| (t.number <<< 4)) + u8 s).toNat = 128 + t.number * 16 + s := by
  have e : ∀ k : Fin 8, 128 ||| (k.val <<< 4) = 128 + k.val * 16 := by decide
  have ht : t.number < 8 := by cases t <;> simp [ObjectType.number]
  have := e ⟨t.number, ht⟩
  simp only at this
  rw [this, UInt8.toNat_add, u8_toNat, u8_toNat]
  omega

theorem entryHeader_eq (t : ObjectType) (size : Nat) :
    MetaData.entryHeader t size =
      (u8 (0x80 ||| (t.number <<< 4)) + u8 (size &&& 0x0f)) :: writeSizeEncoding (size >>> 4) := by
  rw [MetaData.entryHeader]
  by_cases h : size >>> 4 > 0
  · simp only [h, if_true, sizeTail_eq_write]
  · have : size >>> 4 = 0 := by omega
    rw [this]
    simp [writeSizeEncoding, u8]

theorem readTypeAndSize_entryHeader (t : ObjectType) (size : Nat) (rest : Bytes)
    (h : size < 2 ^ 61) :
    readTypeAndSize (MetaData.entryHeader t size ++ rest) = .ok ((t.number, size), rest) := by
  have ht : t.number < 8 := by cases t <;> simp [ObjectType.number]
  rw [entryHeader_eq, readTypeAndSize, readSizeEncoding, List.cons_append, readSizeLoop_cons]
  have hs : size % 16 < 16 := Nat.mod_lt _ (by omega)
  rw [and_f, headerByte_toNat t _ hs]
  have h1 : ¬ (128 + t.number * 16 + size % 16 < 128) := by omega
  have h2 : (128 + t.number * 16 + size % 16) % 128 = t.number * 16 + size % 16 := by omega
  have h3 : (0 ||| (t.number * 16 + size % 16) <<< 0 % U64) = t.number * 16 + size % 16 := by
    simp only [Nat.zero_or, Nat.shiftLeft_zero]
    apply Nat.mod_eq_of_lt
    unfold U64; omega
  have e4 : size >>> 4 = size / 16 := by simp [Nat.shiftRight_eq_div_pow]
  have h4 : t.number * 16 + size % 16 < 2 ^ 7 := by omega
  have h5 : t.number * 16 + size % 16 + size / 16 * 2 ^ 7 < U64 := by unfold U64; omega
  simp only [h1, h2, h3, if_false, Nat.reduceLeDiff, Nat.zero_add, e4]
  rw [readSizeLoop_write _ _ _ _ (by omega) h4 h5]
  simp only [Res.bind_ok, Res.pure_eq, keepBits_eq, Nat.shiftRight_eq_div_pow, Nat.shiftLeft_eq]
  have h6 : (t.number * 16 + size % 16 + size / 16 * 2 ^ 7) / 2 ^ 4 % 2 ^ 3 = t.number := by omega
  have h7 : (t.number * 16 + size % 16 + size / 16 * 2 ^ 7) % 2 ^ 4 = size % 16 := by omega
  have h8 : (t.number * 16 + size % 16 + size / 16 * 2 ^ 7) / 2 ^ 7 = size / 16 := by omega
  have h9 : size / 16 * 2 ^ 4 % U64 = (size / 16) <<< 4 := by
    rw [Nat.shiftLeft_eq]
    apply Nat.mod_eq_of_lt; unfold U64; omega
  rw [h6, h7, h8, h9, or_shift _ _ _ (by omega : size % 16 < 2 ^ 4)]
  congr 3
  omega

/-! ## offset encoding -/

theorem readOffsetLoop_cons (v : Nat) (b : UInt8) (s : Bytes) :
    readOffsetLoop v (b :: s) =
      if b.toNat < 128 then .ok ((v <<< 7) % U64 ||| (b.toNat % 128), s)
      else if ((v <<< 7) % U64 ||| (b.toNat % 128)) + 1 = U64 then .panic
      else readOffsetLoop (((v <<< 7) % U64 ||| (b.toNat % 128)) + 1) s := by
  have h1 := varIntByte_fst b
  have h2 := varIntByte_snd b
  rw [readOffsetLoop]
  generalize varIntByte b = p at h1 h2
  obtain ⟨x, m⟩ := p
  simp only at h1 h2
  subst h1 h2
  by_cases h : b.toNat < 128
  · have : ¬ 128 ≤ b.toNat := by omega
    simp [h, this]
  · have : 128 ≤ b.toNat := by omega
    simp [h, this]

theorem shl7_or (v x : Nat) (hx : x < 128) (h : v * 128 + x < U64) :
    ((v <<< 7) % U64 ||| x) = v * 128 + x := by
  have e : v <<< 7 % U64 = v <<< 7 := by
    apply Nat.mod_eq_of_lt
    rw [Nat.shiftLeft_eq]; omega
  rw [e, shift_or _ _ _ (by omega : x < 2 ^ 7)]

/-- accumulated value of the digits read so far -/
def offsetAcc (acc : Nat) : List Nat → Nat
  | [] => acc
  | d :: ds => match ds with
    | [] => acc * 128 + d
    | _ => offsetAcc (acc * 128 + d + 1) ds

theorem offsetAcc_ge : ∀ (ds : List Nat) (acc : Nat), ds ≠ [] → acc * 128 ≤ offsetAcc acc ds := by
  intro ds
  induction ds with
  | nil => intro _ h; exact absurd rfl h
  | cons d ds ih =>
    intro acc _
    rw [offsetAcc.eq_def]
    cases ds with
    | nil => simp
    | cons e ds =>
      simp only
      have := ih (acc * 128 + d + 1) (by simp)
      omega

theorem offsetDigits_ne_nil {s : Bytes} {ds : List Nat} {rest : Bytes}
    (h : Spec.offsetDigits s = some (ds, rest)) : ds ≠ [] := by
  cases s with
  | nil => simp [Spec.offsetDigits] at h
  | cons b s =>
    rw [Spec.offsetDigits] at h
    by_cases hb : b.toNat < 128
    · simp [hb] at h; simp [← h.1]
    · simp only [hb, if_false] at h
      cases h2 : Spec.offsetDigits s with
      | none => simp [h2] at h
      | some q => simp [h2] at h; simp [← h.1]

theorem readOffsetLoop_digits : ∀ (s : Bytes) (acc : Nat) (ds : List Nat) (rest : Bytes),
    Spec.offsetDigits s = some (ds, rest) → offsetAcc acc ds < U64 →
    readOffsetLoop acc s = .ok (offsetAcc acc ds, rest) := by
  intro s
  induction s with
  | nil => intro acc ds rest h; simp [Spec.offsetDigits] at h
  | cons b s ih =>
    intro acc ds rest h hb
    have hbt := b.toNat_lt
    rw [Spec.offsetDigits] at h
    rw [readOffsetLoop_cons]
    by_cases hlt : b.toNat < 128
    · simp only [hlt, if_true, Option.some.injEq, Prod.mk.injEq] at h
      obtain ⟨rfl, rfl⟩ := h
      simp only [offsetAcc] at hb ⊢
      have hm : b.toNat % 128 = b.toNat := by omega
      simp only [hlt, if_true, hm, shl7_or _ _ hlt hb]
    · simp only [hlt, if_false] at h
      cases h2 : Spec.offsetDigits s with
      | none => simp [h2] at h
      | some q =>
        obtain ⟨es, r⟩ := q
        simp only [h2, Option.some.injEq, Prod.mk.injEq] at h
        obtain ⟨rfl, rfl⟩ := h
        have hne := offsetDigits_ne_nil h2
        have e : offsetAcc acc ((b.toNat - 128) :: es)
            = offsetAcc (acc * 128 + (b.toNat - 128) + 1) es := by
          rw [offsetAcc.eq_def]
          cases es with
          | nil => exact absurd rfl hne
          | cons _ _ => rfl
        rw [e] at hb ⊢
        have hge := offsetAcc_ge es (acc * 128 + (b.toNat - 128) + 1) hne
        have hm : b.toNat % 128 = b.toNat - 128 := by omega
        have hs : ((acc <<< 7) % U64 ||| (b.toNat - 128)) = acc * 128 + (b.toNat - 128) :=
          shl7_or _ _ (by omega) (by omega)
        have hnp : ¬ (acc * 128 + (b.toNat - 128) + 1 = U64) := by omega
        simp only [hlt, if_false, hm, hs, hnp]
        exact ih _ _ _ h2 hb

theorem foldl7 (ds : List Nat) : ∀ acc, ds.foldl (fun a d => 128 * a + d) acc
    = 128 ^ ds.length * acc + Spec.concat7 ds := by
  induction ds with
  | nil => intro acc; simp [Spec.concat7]
  | cons d ds ih =>
    intro acc
    simp only [List.foldl_cons, Spec.concat7, List.length_cons] at *
    rw [ih, ih (128 * 0 + d)]
    have : 128 ^ (ds.length + 1) * acc = 128 ^ ds.length * (128 * acc) := by
      rw [Nat.pow_succ, Nat.mul_assoc]
    rw [this, Nat.mul_add]
    simp
    omega

theorem offsetAcc_eq : ∀ (ds : List Nat) (acc : Nat), ds ≠ [] →
    offsetAcc acc ds = 128 ^ ds.length * acc + Spec.concat7 ds + Spec.bias ds.length := by
  intro ds
  induction ds with
  | nil => intro _ h; exact absurd rfl h
  | cons d ds ih =>
    intro acc _
    rw [offsetAcc.eq_def]
    cases ds with
    | nil => simp [Spec.concat7, Spec.bias]; omega
    | cons e ds =>
      simp only
      rw [ih (acc * 128 + d + 1) (by simp)]
      have h1 : Spec.concat7 (d :: e :: ds) = 128 ^ (e :: ds).length * d + Spec.concat7 (e :: ds) := by
        conv => lhs; rw [Spec.concat7, List.foldl_cons, foldl7]
        simp
      have h2 : Spec.bias (d :: e :: ds).length = Spec.bias (e :: ds).length + 128 ^ (e :: ds).length := by
        simp [Spec.bias]
      have h3 : 128 ^ (d :: e :: ds).length * acc = 128 ^ (e :: ds).length * (acc * 128) := by
        rw [List.length_cons, Nat.pow_succ, Nat.mul_assoc, Nat.mul_comm 128 acc]
      rw [h1, h2, h3, Nat.mul_add, Nat.mul_add]
      omega

/-- The reader implements the documented offset format on every input whose value fits in 64 bits. -/
theorem readOffsetEncoding_spec (s : Bytes) (v : Nat) (rest : Bytes)
    (h : Spec.offsetField s = some (v, rest)) (hv : v < U64) :
    readOffsetEncoding s = .ok (v, rest) := by
  unfold Spec.offsetField at h
  cases h2 : Spec.offsetDigits s with
  | none => simp [h2] at h
  | some q =>
    obtain ⟨ds, r⟩ := q
    simp only [h2, Option.some.injEq, Prod.mk.injEq] at h
    obtain ⟨rfl, rfl⟩ := h
    have hne := offsetDigits_ne_nil h2
    have he := offsetAcc_eq ds 0 hne
    simp only [Nat.mul_zero, Nat.zero_add] at he
    rw [← he] at hv ⊢
    exact readOffsetLoop_digits s 0 ds r h2 hv

/-- bytes pushed by the writer's loop for the given decremented groups -/
def contBytes (gs : List Nat) : Bytes := gs.map (fun g => u8 g ||| 0x80)

/-- value represented by decremented groups (least significant first) -/
def groupsVal : List Nat → Nat
  | [] => 0
  | g :: gs => groupsVal gs * 128 + g + 1

theorem contByte_toNat (g : Nat) (h : g < 128) : (u8 g ||| 0x80).toNat = g + 128 := by
  rw [or_80_toNat _ (by simp; omega)]
  simp; omega

theorem offsetDigits_cont : ∀ (gs : List Nat) (x : Nat) (rest : Bytes), (∀ g ∈ gs, g < 128) → x < 128 →
    Spec.offsetDigits (contBytes gs ++ u8 x :: rest) = some (gs ++ [x], rest) := by
  intro gs
  induction gs with
  | nil =>
    intro x rest _ hx
    have : (u8 x).toNat = x := by simp; omega
    simp [contBytes, Spec.offsetDigits, this, hx]
  | cons g gs ih =>
    intro x rest hg hx
    have hg0 : g < 128 := hg g (by simp)
    have := contByte_toNat g hg0
    have ih' := ih x rest (fun y hy => hg y (by simp [hy])) hx
    simp only [contBytes, List.map_cons, List.cons_append] at ih' ⊢
    rw [Spec.offsetDigits, this]
    have : ¬ (g + 128 < 128) := by omega
    simp [this, ih']

theorem offsetAcc_append : ∀ (ds : List Nat) (acc x : Nat),
    offsetAcc acc (ds ++ [x]) = (ds.foldl (fun a d => a * 128 + d + 1) acc) * 128 + x := by
  intro ds
  induction ds with
  | nil => intro acc x; simp [offsetAcc]
  | cons d ds ih =>
    intro acc x
    rw [List.cons_append, offsetAcc.eq_def]
    have : ds ++ [x] ≠ [] := by simp
    cases h : ds ++ [x] with
    | nil => exact absurd h this
    | cons e es => simp only; rw [← h, ih]; simp

theorem foldl_groupsVal (gs : List Nat) :
    gs.reverse.foldl (fun a d => a * 128 + d + 1) 0 = groupsVal gs := by
  rw [List.foldl_reverse]
  induction gs with
  | nil => rfl
  | cons g gs ih => simp [groupsVal, ih]

/-- Reading what the offset writer produced, in terms of its groups. -/
theorem readOffset_groups (gs : List Nat) (x : Nat) (rest : Bytes) (hg : ∀ g ∈ gs, g < 128)
    (hx : x < 128) (hv : groupsVal gs * 128 + x < U64) :
    readOffsetEncoding ((u8 x :: contBytes gs).reverse ++ rest) = .ok (groupsVal gs * 128 + x, rest) := by
  have e : (u8 x :: contBytes gs).reverse ++ rest = contBytes gs.reverse ++ u8 x :: rest := by
    simp [contBytes]
  have hd := offsetDigits_cont gs.reverse x rest (by simpa using hg) hx
  have hacc : offsetAcc 0 (gs.reverse ++ [x]) = groupsVal gs * 128 + x := by
    rw [offsetAcc_append, foldl_groupsVal]
  have := readOffsetLoop_digits _ 0 _ _ hd (by rw [hacc]; exact hv)
  rw [e, readOffsetEncoding, this, hacc]

theorem noZeroGroup_step (n : Nat) (h0 : n % 128 ≠ 0) (h : Spec.NoZeroGroup n) :
    ∀ k, 128 ^ k ≤ n → n / 128 ^ k % 128 ≠ 0 := by
  intro k hk
  rcases Nat.eq_zero_or_pos k with rfl | hp
  · simpa using h0
  · exact h k hp hk

theorem allGroups_div (n : Nat) (h : ∀ k, 128 ^ k ≤ n → n / 128 ^ k % 128 ≠ 0) :
    ∀ k, 128 ^ k ≤ n / 128 → n / 128 / 128 ^ k % 128 ≠ 0 := by
  intro k hk
  have := h (k + 1) (by
    rw [Nat.pow_succ]
    have := (Nat.le_div_iff_mul_le (by omega : 0 < 128)).1 hk
    exact this)
  rwa [Nat.pow_succ, Nat.mul_comm, ← Nat.div_div_eq_div_mul] at this

/-- Without zero groups the writer's loop yields exactly the decremented groups. -/
theorem writeOffsetLoop_ok (p : Profile) (n : Nat)
    (h : ∀ k, 128 ^ k ≤ n → n / 128 ^ k % 128 ≠ 0) :
    ∃ gs, writeOffsetLoop p n = .ok (contBytes gs) ∧ (∀ g ∈ gs, g < 128) ∧ groupsVal gs = n := by
  induction n using Nat.strongRecOn with
  | _ n ih =>
    rw [writeOffsetLoop]
    by_cases hn : n > 0
    · have h0 : n % 128 ≠ 0 := by simpa using h 0 (by simp; omega)
      have e7 : n >>> 7 = n / 128 := by simp [Nat.shiftRight_eq_div_pow]
      obtain ⟨gs, h1, h2, h3⟩ := ih (n / 128) (by omega) (allGroups_div n h)
      refine ⟨(n % 128 - 1) :: gs, ?_, ?_, ?_⟩
      · simp [hn, groupMinusOne, and_7f, h0, e7, h1, contBytes]
      · intro g hg
        rcases List.mem_cons.1 hg with rfl | hg
        · omega
        · exact h2 g hg
      · simp only [groupsVal, h3]; omega
    · have : n = 0 := by omega
      subst this
      exact ⟨[], by simp [contBytes], by simp, rfl⟩

/-- amount by which the release-profile writer overshoots -/
def excess (n : Nat) : Nat :=
  if n = 0 then 0 else (if n % 128 = 0 then 128 else 0) + 128 * excess (n / 128)

theorem writeOffsetLoop_release (n : Nat) :
    ∃ gs, writeOffsetLoop .release n = .ok (contBytes gs) ∧ (∀ g ∈ gs, g < 128) ∧
      groupsVal gs = n + excess n := by
  induction n using Nat.strongRecOn with
  | _ n ih =>
    rw [writeOffsetLoop, excess]
    by_cases hn : n > 0
    · have e7 : n >>> 7 = n / 128 := by simp [Nat.shiftRight_eq_div_pow]
      obtain ⟨gs, h1, h2, h3⟩ := ih (n / 128) (by omega)
      by_cases h0 : n % 128 = 0
      · refine ⟨127 :: gs, ?_, ?_, ?_⟩
        · have : u8 (U64 - 1) = u8 127 ||| 0x80 := by decide
          have e : u8 (U64 - 1) ||| 128 = u8 127 ||| 128 := by decide
          simp [hn, groupMinusOne, and_7f, h0, e7, h1, contBytes, e]
        · intro g hg
          rcases List.mem_cons.1 hg with rfl | hg
          · omega
          · exact h2 g hg
        · have : n ≠ 0 := by omega
          simp only [groupsVal, h3, h0, this, if_true, if_false]; omega
      · refine ⟨(n % 128 - 1) :: gs, ?_, ?_, ?_⟩
        · simp [hn, groupMinusOne, and_7f, h0, e7, h1, contBytes]
        · intro g hg
          rcases List.mem_cons.1 hg with rfl | hg
          · omega
          · exact h2 g hg
        · have : n ≠ 0 := by omega
          simp only [groupsVal, h3, h0, this, if_false]; omega
    · have : n = 0 := by omega
      subst this
      exact ⟨[], by simp [contBytes], by simp, rfl⟩

theorem excess_eq_zero_iff (n : Nat) : excess n = 0 ↔ ∀ k, 128 ^ k ≤ n → n / 128 ^ k % 128 ≠ 0 := by
  induction n using Nat.strongRecOn with
  | _ n ih =>
    rw [excess]
    by_cases hn : n = 0
    · subst hn
      simp only [if_true, true_iff]
      intro k hk
      have : 0 < 128 ^ k := Nat.pow_pos (by omega)
      omega
    · have ih' := ih (n / 128) (by omega)
      simp only [hn, if_false]
      by_cases h0 : n % 128 = 0
      · simp only [h0, if_true]
        constructor
        · intro h; omega
        · intro h
          exact absurd h0 (by simpa using h 0 (by simp; omega))
      · simp only [h0, if_false]
        constructor
        · intro h
          have := ih'.1 (by omega)
          intro k hk
          cases k with
          | zero => simpa using h0
          | succ k =>
            have hk' : 128 ^ k ≤ n / 128 := by
              rw [Nat.le_div_iff_mul_le (by omega)]; rwa [Nat.pow_succ] at hk
            have := this k hk'
            rwa [Nat.div_div_eq_div_mul, Nat.mul_comm 128, ← Nat.pow_succ] at this
        · intro h
          have := ih'.2 (allGroups_div n h)
          omega

/-- bound on the overshoot -/
theorem excess_le (n : Nat) : 127 * excess n ≤ 128 * (n - 1) := by
  induction n using Nat.strongRecOn with
  | _ n ih =>
    rw [excess]
    by_cases hn : n = 0
    · simp [hn]
    · have ih' := ih (n / 128) (by omega)
      simp only [hn, if_false]
      by_cases h0 : n % 128 = 0
      · simp only [h0, if_true]
        omega
      · simp only [h0, if_false]
        by_cases h1 : n / 128 = 0
        · rw [h1]; rw [h1] at ih'; omega
        · omega

theorem writeOffsetLoop_dev_panic (n : Nat) (h : excess n ≠ 0) : writeOffsetLoop .dev n = .panic := by
  induction n using Nat.strongRecOn with
  | _ n ih =>
    rw [excess] at h
    rw [writeOffsetLoop]
    by_cases hn : n = 0
    · simp [hn] at h
    · have hp : n > 0 := by omega
      simp only [hn, if_false] at h
      by_cases h0 : n % 128 = 0
      · simp [hp, groupMinusOne, and_7f, h0]
      · simp only [h0, if_false] at h
        have e7 : n >>> 7 = n / 128 := by simp [Nat.shiftRight_eq_div_pow]
        simp [hp, groupMinusOne, and_7f, h0, e7, ih (n / 128) (by omega) (by omega)]

theorem noZeroGroup_iff (n : Nat) : Spec.NoZeroGroup n ↔ excess (n / 128) = 0 := by
  rw [excess_eq_zero_iff]
  constructor
  · intro h k hk
    have hk' : 128 ^ (k + 1) ≤ n := by
      rw [Nat.pow_succ]; exact (Nat.le_div_iff_mul_le (by omega : 0 < 128)).1 hk
    have := h (k + 1) (by omega) hk'
    rwa [Nat.pow_succ, Nat.mul_comm, ← Nat.div_div_eq_div_mul] at this
  · intro h k hk1 hk
    obtain ⟨k, rfl⟩ : ∃ j, k = j + 1 := ⟨k - 1, by omega⟩
    have hk' : 128 ^ k ≤ n / 128 := by
      rw [Nat.le_div_iff_mul_le (by omega)]; rwa [Nat.pow_succ] at hk
    have := h k hk'
    rwa [Nat.div_div_eq_div_mul, Nat.mul_comm 128, ← Nat.pow_succ] at this

theorem writeOffset_ok (p : Profile) (n : Nat) (rest : Bytes) (hn : n < U64) (h : Spec.NoZeroGroup n) :
    ∃ bs, writeOffsetEncoding p n = .ok bs ∧ readOffsetEncoding (bs ++ rest) = .ok (n, rest) := by
  rw [noZeroGroup_iff, excess_eq_zero_iff] at h
  obtain ⟨gs, h1, h2, h3⟩ := writeOffsetLoop_ok p (n / 128) h
  have e7 : n >>> 7 = n / 128 := by simp [Nat.shiftRight_eq_div_pow]
  refine ⟨(u8 (n % 128) :: contBytes gs).reverse, ?_, ?_⟩
  · simp [writeOffsetEncoding, e7, h1, and_7f]
  · have hv : groupsVal gs * 128 + n % 128 = n := by rw [h3]; omega
    rw [readOffset_groups gs (n % 128) rest h2 (by omega) (by omega), hv]

/-- In the release profile the value read back overshoots by `128 * excess (n / 128)`. -/
theorem writeOffset_release (n : Nat) (hn : n < 2 ^ 62) :
    ∃ bs, writeOffsetEncoding .release n = .ok bs ∧
      ∀ rest, readOffsetEncoding (bs ++ rest) = .ok (n + 128 * excess (n / 128), rest) := by
  obtain ⟨gs, h1, h2, h3⟩ := writeOffsetLoop_release (n / 128)
  have e7 : n >>> 7 = n / 128 := by simp [Nat.shiftRight_eq_div_pow]
  have hex := excess_le (n / 128)
  refine ⟨(u8 (n % 128) :: contBytes gs).reverse, ?_, ?_⟩
  · simp [writeOffsetEncoding, e7, h1, and_7f]
  · intro rest
    have hv : groupsVal gs * 128 + n % 128 = n + 128 * excess (n / 128) := by rw [h3]; omega
    rw [readOffset_groups gs (n % 128) rest h2 (by omega) (by rw [hv]; unfold U64; omega), hv]

end Gust

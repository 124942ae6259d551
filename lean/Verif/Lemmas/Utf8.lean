import Verif.Lemmas.Json
import Verif.Lemmas.Ssh

/-! # UTF-8 and the content of JSON texts -/

namespace Gust

theorem toNat_u8 {n : Nat} (h : n < 256) : (UInt8.ofNat n).toNat = n := by
  rw [UInt8.toNat_ofNat', Nat.mod_eq_of_lt h]

/-- The UTF-8 form of a character can be taken off. -/
theorem utf8Valid_char (n : Nat) (c t : Bytes) (h : Spec.Utf8 n c) : utf8Valid (c ++ t) = utf8Valid t := by
  cases h with
  | one n h =>
    rw [List.cons_append, List.nil_append, utf8Valid_cons_ascii]
    rw [UInt8.lt_iff_toNat_lt, toNat_u8 (by omega)]; exact h
  | two x y h1 h2 h3 =>
    simp only [List.cons_append, List.nil_append]
    rw [utf8Valid]
    have a1 := toNat_u8 (show 0xc0 + x < 256 by omega)
    have a2 := toNat_u8 (show 0x80 + y < 256 by omega)
    generalize UInt8.ofNat (0xc0 + x) = a at *
    generalize UInt8.ofNat (0x80 + y) = b at *
    rw [if_neg (by rw [UInt8.lt_iff_toNat_lt, a1]; show ¬ _ < 128; omega),
      if_pos (by simp only [UInt8.le_iff_toNat_le, a1]; exact ⟨by show 194 ≤ _; omega, by show _ ≤ 223; omega⟩)]
    have : (decide (0x80 ≤ b) && decide (b ≤ 0xBF)) = true := by
      simp only [UInt8.le_iff_toNat_le, a2, Bool.and_eq_true, decide_eq_true_eq]; exact ⟨by show 128 ≤ _; omega, by show _ ≤ 191; omega⟩
    simp only [this, Bool.true_and]
  | three x y z h1 h2 h3 h4 h5 =>
    simp only [List.cons_append, List.nil_append]
    rw [utf8Valid]
    have a1 := toNat_u8 (show 0xe0 + x < 256 by omega)
    have a2 := toNat_u8 (show 0x80 + y < 256 by omega)
    have a3 := toNat_u8 (show 0x80 + z < 256 by omega)
    generalize UInt8.ofNat (0xe0 + x) = a at *
    generalize UInt8.ofNat (0x80 + y) = b at *
    generalize UInt8.ofNat (0x80 + z) = c at *
    rw [if_neg (by rw [UInt8.lt_iff_toNat_lt, a1]; show ¬ _ < 128; omega),
      if_neg (by simp only [UInt8.le_iff_toNat_le, a1]; rintro ⟨-, h⟩; revert h; show ¬ _ ≤ 223; omega),
      if_pos (by simp only [UInt8.le_iff_toNat_le, a1]; exact ⟨by show 224 ≤ _; omega, by show _ ≤ 239; omega⟩)]
    have e2 : (if a = 0xE0 then decide (0xA0 ≤ b) && decide (b ≤ 0xBF) else if a = 0xED then decide (0x80 ≤ b) && decide (b ≤ 0x9F)
        else decide (0x80 ≤ b) && decide (b ≤ 0xBF)) = true := by
      simp only [← UInt8.toNat_inj, a1, UInt8.le_iff_toNat_le, a2]
      show (if 224 + x = 224 then decide (160 ≤ 128 + y) && decide (128 + y ≤ 191) else if 224 + x = 237 then decide (128 ≤ 128 + y) && decide (128 + y ≤ 159)
        else decide (128 ≤ 128 + y) && decide (128 + y ≤ 191)) = true
      split
      · simp only [Bool.and_eq_true, decide_eq_true_eq]; omega
      · split
        · simp only [Bool.and_eq_true, decide_eq_true_eq]; omega
        · simp only [Bool.and_eq_true, decide_eq_true_eq]; omega
    have e3 : (decide (0x80 ≤ c) && decide (c ≤ 0xBF)) = true := by
      simp only [UInt8.le_iff_toNat_le, a3, Bool.and_eq_true, decide_eq_true_eq]; exact ⟨by show 128 ≤ _; omega, by show _ ≤ 191; omega⟩
    simp only [e2, e3, Bool.true_and]
  | four x y z u h1 h2 h3 h4 h5 h6 =>
    simp only [List.cons_append, List.nil_append]
    rw [utf8Valid]
    have a1 := toNat_u8 (show 0xf0 + x < 256 by omega)
    have a2 := toNat_u8 (show 0x80 + y < 256 by omega)
    have a3 := toNat_u8 (show 0x80 + z < 256 by omega)
    have a4 := toNat_u8 (show 0x80 + u < 256 by omega)
    generalize UInt8.ofNat (0xf0 + x) = a at *
    generalize UInt8.ofNat (0x80 + y) = b at *
    generalize UInt8.ofNat (0x80 + z) = c at *
    generalize UInt8.ofNat (0x80 + u) = d at *
    rw [if_neg (by rw [UInt8.lt_iff_toNat_lt, a1]; show ¬ _ < 128; omega),
      if_neg (by simp only [UInt8.le_iff_toNat_le, a1]; rintro ⟨-, h⟩; revert h; show ¬ _ ≤ 223; omega),
      if_neg (by simp only [UInt8.le_iff_toNat_le, a1]; rintro ⟨-, h⟩; revert h; show ¬ _ ≤ 239; omega),
      if_pos (by simp only [UInt8.le_iff_toNat_le, a1]; exact ⟨by show 240 ≤ _; omega, by show _ ≤ 244; omega⟩)]
    have e2 : (if a = 0xF0 then decide (0x90 ≤ b) && decide (b ≤ 0xBF) else if a = 0xF4 then decide (0x80 ≤ b) && decide (b ≤ 0x8F)
        else decide (0x80 ≤ b) && decide (b ≤ 0xBF)) = true := by
      simp only [← UInt8.toNat_inj, a1, UInt8.le_iff_toNat_le, a2]
      show (if 240 + x = 240 then decide (144 ≤ 128 + y) && decide (128 + y ≤ 191) else if 240 + x = 244 then decide (128 ≤ 128 + y) && decide (128 + y ≤ 143)
        else decide (128 ≤ 128 + y) && decide (128 + y ≤ 191)) = true
      split
      · simp only [Bool.and_eq_true, decide_eq_true_eq]; omega
      · split
        · simp only [Bool.and_eq_true, decide_eq_true_eq]; omega
        · simp only [Bool.and_eq_true, decide_eq_true_eq]; omega
    have e3 : (decide (0x80 ≤ c) && decide (c ≤ 0xBF)) = true := by
      simp only [UInt8.le_iff_toNat_le, a3, Bool.and_eq_true, decide_eq_true_eq]; exact ⟨by show 128 ≤ _; omega, by show _ ≤ 191; omega⟩
    have e4 : (decide (0x80 ≤ d) && decide (d ≤ 0xBF)) = true := by
      simp only [UInt8.le_iff_toNat_le, a4, Bool.and_eq_true, decide_eq_true_eq]; exact ⟨by show 128 ≤ _; omega, by show _ ≤ 191; omega⟩
    simp only [e2, e3, e4, Bool.true_and]

/-- The encoder. -/
theorem utf8Encode_char (n : Nat) (c : Bytes) (h : Spec.Utf8 n c) : utf8Encode n = c := by
  rw [utf8Encode]
  cases h with
  | one n h => rw [if_pos h]
  | two x y h1 h2 h3 =>
    rw [if_neg (by omega), if_pos (by omega), show (x * 64 + y) / 64 = x by omega, show (x * 64 + y) % 64 = y by omega]
  | three x y z h1 h2 h3 h4 h5 =>
    have : 2048 ≤ (x * 64 + y) * 64 + z := by
      rcases Nat.eq_zero_or_pos x with h | h
      · have := h4 h; omega
      · omega
    rw [if_neg (by omega), if_neg (by omega), if_pos (by omega), show ((x * 64 + y) * 64 + z) / 4096 = x by omega, show ((x * 64 + y) * 64 + z) / 64 % 64 = y by omega,
      show ((x * 64 + y) * 64 + z) % 64 = z by omega]
  | four x y z u h1 h2 h3 h4 h5 h6 =>
    have : 65536 ≤ ((x * 64 + y) * 64 + z) * 64 + u := by
      rcases Nat.eq_zero_or_pos x with h | h
      · have := h5 h; omega
      · omega
    rw [if_neg (by omega), if_neg (by omega), if_neg (by omega), show (((x * 64 + y) * 64 + z) * 64 + u) / 262144 = x by omega,
      show (((x * 64 + y) * 64 + z) * 64 + u) / 4096 % 64 = y by omega, show (((x * 64 + y) * 64 + z) * 64 + u) / 64 % 64 = z by omega,
      show (((x * 64 + y) * 64 + z) * 64 + u) % 64 = u by omega]

/-- The scalar values have a UTF-8 form. -/
theorem utf8_encode (n : Nat) (h : n < 0x110000) (h' : ¬ (0xd800 ≤ n ∧ n ≤ 0xdfff)) : Spec.Utf8 n (utf8Encode n) := by
  rw [utf8Encode]
  split
  · exact .one n ‹_›
  split
  · have := Spec.Utf8.two (n / 64) (n % 64) (by omega) (by omega) (by omega)
    rwa [show n / 64 * 64 + n % 64 = n by omega] at this
  split
  · have := Spec.Utf8.three (n / 4096) (n / 64 % 64) (n % 64) (by omega) (by omega) (by omega) (by omega) (by omega)
    rwa [show (n / 4096 * 64 + n / 64 % 64) * 64 + n % 64 = n by omega] at this
  · have := Spec.Utf8.four (n / 262144) (n / 4096 % 64) (n / 64 % 64) (n % 64) (by omega) (by omega) (by omega) (by omega) (by omega) (by omega)
    rwa [show ((n / 262144 * 64 + n / 4096 % 64) * 64 + n / 64 % 64) * 64 + n % 64 = n by omega] at this

theorem ofNat_u8 (a : UInt8) (n : Nat) (h : a.toNat = n) : a = UInt8.ofNat n := by
  rw [← h, UInt8.ofNat_toNat]

/-- A valid text that is not empty starts with a character. -/
theorem utf8Valid_split (a : UInt8) (s : Bytes) (h : utf8Valid (a :: s) = true) : ∃ n c r, Spec.Utf8 n c ∧ a :: s = c ++ r ∧ utf8Valid r = true := by
  rw [utf8Valid.eq_def] at h
  simp only at h
  have ha := a.toNat_lt
  split at h
  · rename_i h0
    rw [UInt8.lt_iff_toNat_lt] at h0
    exact ⟨a.toNat, [a], s, by have := Spec.Utf8.one a.toNat h0; rwa [UInt8.ofNat_toNat] at this, rfl, h⟩
  split at h
  · rename_i h0
    simp only [UInt8.le_iff_toNat_le] at h0
    have h1 : 194 ≤ a.toNat := h0.1
    have h2 : a.toNat ≤ 223 := h0.2
    split at h
    · rename_i b s'
      simp only [Bool.and_eq_true, decide_eq_true_eq, UInt8.le_iff_toNat_le] at h
      have h3 : 128 ≤ b.toNat := h.1.1
      have h4 : b.toNat ≤ 191 := h.1.2
      refine ⟨(a.toNat - 192) * 64 + (b.toNat - 128), [a, b], s', ?_, rfl, h.2⟩
      have := Spec.Utf8.two (a.toNat - 192) (b.toNat - 128) (by omega) (by omega) (by omega)
      rwa [← ofNat_u8 a _ (by omega), ← ofNat_u8 b _ (by omega)] at this
    · cases h
  split at h
  · rename_i h0
    simp only [UInt8.le_iff_toNat_le] at h0
    have h1 : 224 ≤ a.toNat := h0.1
    have h2 : a.toNat ≤ 239 := h0.2
    split at h
    · rename_i b c s'
      simp only [Bool.and_eq_true] at h
      obtain ⟨⟨hb, hc⟩, hs⟩ := h
      simp only [decide_eq_true_eq, UInt8.le_iff_toNat_le] at hc
      have c1 : 128 ≤ c.toNat := hc.1
      have c2 : c.toNat ≤ 191 := hc.2
      have hb' : 128 ≤ b.toNat ∧ b.toNat ≤ 191 ∧ (a.toNat = 224 → 160 ≤ b.toNat) ∧ (a.toNat = 237 → b.toNat ≤ 159) := by
        split at hb
        · rename_i e
          simp only [Bool.and_eq_true, decide_eq_true_eq, UInt8.le_iff_toNat_le] at hb
          have x1 : 160 ≤ b.toNat := hb.1
          have x2 : b.toNat ≤ 191 := hb.2
          have x3 : a.toNat = 224 := by rw [e]; rfl
          omega
        · rename_i e
          have e' : a.toNat ≠ 224 := fun h => e (UInt8.toNat_inj.1 h)
          split at hb
          · rename_i e2
            simp only [Bool.and_eq_true, decide_eq_true_eq, UInt8.le_iff_toNat_le] at hb
            have x1 : 128 ≤ b.toNat := hb.1
            have x2 : b.toNat ≤ 159 := hb.2
            omega
          · rename_i e2
            have e2' : a.toNat ≠ 237 := fun h => e2 (UInt8.toNat_inj.1 h)
            simp only [Bool.and_eq_true, decide_eq_true_eq, UInt8.le_iff_toNat_le] at hb
            have x1 : 128 ≤ b.toNat := hb.1
            have x2 : b.toNat ≤ 191 := hb.2
            omega
      refine ⟨((a.toNat - 224) * 64 + (b.toNat - 128)) * 64 + (c.toNat - 128), [a, b, c], s', ?_, rfl, hs⟩
      have := Spec.Utf8.three (a.toNat - 224) (b.toNat - 128) (c.toNat - 128) (by omega) (by omega) (by omega) (by omega) (by omega)
      rwa [← ofNat_u8 a _ (by omega), ← ofNat_u8 b _ (by omega), ← ofNat_u8 c _ (by omega)] at this
    · cases h
  split at h
  · rename_i h0
    simp only [UInt8.le_iff_toNat_le] at h0
    have h1 : 240 ≤ a.toNat := h0.1
    have h2 : a.toNat ≤ 244 := h0.2
    split at h
    · rename_i b c d s'
      simp only [Bool.and_eq_true] at h
      obtain ⟨⟨⟨hb, hc⟩, hd⟩, hs⟩ := h
      simp only [decide_eq_true_eq, UInt8.le_iff_toNat_le] at hc hd
      have c1 : 128 ≤ c.toNat := hc.1
      have c2 : c.toNat ≤ 191 := hc.2
      have d1 : 128 ≤ d.toNat := hd.1
      have d2 : d.toNat ≤ 191 := hd.2
      have hb' : 128 ≤ b.toNat ∧ b.toNat ≤ 191 ∧ (a.toNat = 240 → 144 ≤ b.toNat) ∧ (a.toNat = 244 → b.toNat ≤ 143) := by
        split at hb
        · rename_i e
          simp only [Bool.and_eq_true, decide_eq_true_eq, UInt8.le_iff_toNat_le] at hb
          have x1 : 144 ≤ b.toNat := hb.1
          have x2 : b.toNat ≤ 191 := hb.2
          have x3 : a.toNat = 240 := by rw [e]; rfl
          omega
        · rename_i e
          have e' : a.toNat ≠ 240 := fun h => e (UInt8.toNat_inj.1 h)
          split at hb
          · rename_i e2
            simp only [Bool.and_eq_true, decide_eq_true_eq, UInt8.le_iff_toNat_le] at hb
            have x1 : 128 ≤ b.toNat := hb.1
            have x2 : b.toNat ≤ 143 := hb.2
            omega
          · rename_i e2
            have e2' : a.toNat ≠ 244 := fun h => e2 (UInt8.toNat_inj.1 h)
            simp only [Bool.and_eq_true, decide_eq_true_eq, UInt8.le_iff_toNat_le] at hb
            have x1 : 128 ≤ b.toNat := hb.1
            have x2 : b.toNat ≤ 191 := hb.2
            omega
      refine ⟨(((a.toNat - 240) * 64 + (b.toNat - 128)) * 64 + (c.toNat - 128)) * 64 + (d.toNat - 128), [a, b, c, d], s', ?_, rfl, hs⟩
      have := Spec.Utf8.four (a.toNat - 240) (b.toNat - 128) (c.toNat - 128) (d.toNat - 128) (by omega) (by omega) (by omega) (by omega) (by omega) (by omega)
      rwa [← ofNat_u8 a _ (by omega), ← ofNat_u8 b _ (by omega), ← ofNat_u8 c _ (by omega), ← ofNat_u8 d _ (by omega)] at this
    · cases h
  · cases h

/-- The bytes of a character: itself, or all of them at least 128; the first one does not continue a character. -/
theorem utf8_bytes (n : Nat) (c : Bytes) (h : Spec.Utf8 n c) : (n < 128 ∧ c = [UInt8.ofNat n]) ∨ (128 ≤ n ∧ ∀ b ∈ c, 128 ≤ b.toNat) := by
  cases h with
  | one n h => exact .inl ⟨h, rfl⟩
  | two x y h1 h2 h3 =>
    refine .inr ⟨by omega, ?_⟩
    simp only [List.mem_cons, List.not_mem_nil, or_false]
    rintro b (rfl | rfl) <;> rw [toNat_u8 (by omega)] <;> omega
  | three x y z h1 h2 h3 h4 h5 =>
    refine .inr ⟨by rcases Nat.eq_zero_or_pos x with h | h
                    · have := h4 h; omega
                    · omega, ?_⟩
    simp only [List.mem_cons, List.not_mem_nil, or_false]
    rintro b (rfl | rfl | rfl) <;> rw [toNat_u8 (by omega)] <;> omega
  | four x y z u h1 h2 h3 h4 h5 h6 =>
    refine .inr ⟨by rcases Nat.eq_zero_or_pos x with h | h
                    · have := h5 h; omega
                    · omega, ?_⟩
    simp only [List.mem_cons, List.not_mem_nil, or_false]
    rintro b (rfl | rfl | rfl | rfl) <;> rw [toNat_u8 (by omega)] <;> omega

theorem utf8_first (n : Nat) (c : Bytes) (h : Spec.Utf8 n c) : ∃ b s, c = b :: s ∧ ¬ (128 ≤ b.toNat ∧ b.toNat ≤ 191) := by
  cases h with
  | one n h => exact ⟨_, _, rfl, by rw [toNat_u8 (by omega)]; omega⟩
  | two x y h1 h2 h3 => exact ⟨_, _, rfl, by rw [toNat_u8 (by omega)]; omega⟩
  | three x y z h1 h2 h3 h4 h5 => exact ⟨_, _, rfl, by rw [toNat_u8 (by omega)]; omega⟩
  | four x y z u h1 h2 h3 h4 h5 h6 => exact ⟨_, _, rfl, by rw [toNat_u8 (by omega)]; omega⟩


/-! ## Content -/

theorem hexDigit_iff (b : UInt8) (n : Nat) : Spec.HexDigit b n ↔ hexCharValue b = some n := by
  unfold Spec.HexDigit hexCharValue
  split
  · simp only [Option.some.injEq]; omega
  split
  · simp only [Option.some.injEq]; omega
  split
  · simp only [Option.some.injEq]; omega
  · simp only [reduceCtorEq, iff_false]; omega

theorem hexDigit_hex (b : UInt8) (n : Nat) (h : Spec.HexDigit b n) : Spec.JsonHex b := by
  rw [← jsonHex_iff, jsonHex, (hexDigit_iff b n).1 h]; rfl

theorem hexDigit_of (b : UInt8) (h : Spec.JsonHex b) : Spec.HexDigit b ((hexCharValue b).getD 0) := by
  rw [← jsonHex_iff, jsonHex] at h
  rw [hexDigit_iff]
  cases hv : hexCharValue b with
  | none => rw [hv] at h; cases h
  | some n => rfl

theorem escape_quad (a b c d : UInt8) (n : Nat) (h : Spec.Escape [0x5c, 0x75, a, b, c, d] n) : hexQuad a b c d = n := by
  obtain ⟨a', b', c', d', x, y, z, u, e, h1, h2, h3, h4, rfl⟩ := h
  simp only [List.cons.injEq, and_true, true_and] at e
  obtain ⟨rfl, rfl, rfl, rfl⟩ := e
  rw [hexQuad, (hexDigit_iff _ _).1 h1, (hexDigit_iff _ _).1 h2, (hexDigit_iff _ _).1 h3, (hexDigit_iff _ _).1 h4]
  simp only [Option.getD_some]; omega

theorem quad_escape (a b c d : UInt8) (h1 : Spec.JsonHex a) (h2 : Spec.JsonHex b) (h3 : Spec.JsonHex c) (h4 : Spec.JsonHex d) :
    Spec.Escape [0x5c, 0x75, a, b, c, d] (hexQuad a b c d) ∧ hexQuad a b c d < 65536 := by
  have := hexDigit_of a h1
  have := hexDigit_of b h2
  have := hexDigit_of c h3
  have := hexDigit_of d h4
  refine ⟨⟨a, b, c, d, _, _, _, _, rfl, ‹_›, ‹_›, ‹_›, ‹_›, ?_⟩, ?_⟩
  · rw [hexQuad]; omega
  · unfold Spec.HexDigit at *; rw [hexQuad]; omega

/-- Bytes that are no backslash stay. -/
theorem unescape_plain (c s t : Bytes) (h : ∀ b ∈ c, b ≠ 0x5c) (hs : unescape s = some t) : unescape (c ++ s) = some (c ++ t) := by
  induction c with
  | nil => exact hs
  | cons b c ih =>
    rw [List.cons_append, unescape.eq_def]
    simp only [if_neg (h b (by simp)), ih (fun x hx => h x (by simp [hx])), Option.map_some]
    rfl

theorem unescape_uni (s raw t : Bytes) (n : Nat) (c : Bytes) (he : Spec.Escape s n) (hu : Spec.Utf8 n c) (ht : unescape raw = some t) :
    unescape (s ++ raw) = some (c ++ t) := by
  obtain ⟨a, b, c', d, -, -, -, -, rfl, -⟩ := id he
  have hn : ¬ (0xd800 ≤ n ∧ n ≤ 0xdfff) := by
    cases hu with
    | one n h => omega
    | two x y h1 h2 h3 => omega
    | three x y z h1 h2 h3 h4 h5 => omega
    | four x y z u h1 h2 h3 h4 h5 h6 => omega
  simp only [List.cons_append, List.nil_append]
  rw [unescape.eq_def]
  simp only [escape_quad _ _ _ _ _ he, if_true]
  rw [if_neg (by omega), if_neg (by omega), ht, utf8Encode_char n c hu]
  rfl

theorem unescape_pair (s s' raw t : Bytes) (h l : Nat) (c : Bytes) (he : Spec.Escape s (0xd800 + h)) (he' : Spec.Escape s' (0xdc00 + l)) (hh : h < 1024) (hl : l < 1024)
    (hu : Spec.Utf8 (0x10000 + h * 1024 + l) c) (ht : unescape raw = some t) : unescape (s ++ s' ++ raw) = some (c ++ t) := by
  obtain ⟨a, b, c', d, -, -, -, -, rfl, -⟩ := id he
  obtain ⟨a2, b2, c2, d2, -, -, -, -, rfl, -⟩ := id he'
  simp only [List.cons_append, List.nil_append]
  rw [unescape.eq_def]
  simp only [escape_quad _ _ _ _ _ he, escape_quad _ _ _ _ _ he', if_true]
  rw [if_neg (by omega), if_pos (by omega), if_pos ⟨trivial, trivial, by omega, by omega⟩, ht,
    show 0x10000 + (0xd800 + h - 0xd800) * 1024 + (0xdc00 + l - 0xdc00) = 0x10000 + h * 1024 + l by omega, utf8Encode_char _ c hu]
  rfl

/-- What a text stands for is what the server takes it for. -/
theorem jsonContent_reads (raw c : Bytes) (h : Spec.JsonReads raw c) : jsonContent raw = some c := by
  have : unescape raw = some c ∧ utf8Valid c = true := by
    induction h with
    | nil => exact ⟨rfl, rfl⟩
    | char n c raw t hu h1 h2 h3 h4 ih =>
      refine ⟨unescape_plain _ _ _ (fun b hb e => ?_) ih.1, by rw [utf8Valid_char n c t hu]; exact ih.2⟩
      rcases utf8_bytes n c hu with ⟨hn, rfl⟩ | ⟨-, hb'⟩
      · simp only [List.mem_singleton] at hb
        rw [hb] at e
        have := congrArg UInt8.toNat e
        rw [toNat_u8 (by omega)] at this
        exact h3 this
      · have := hb' b hb
        rw [e] at this; revert this; decide
    | esc e n c raw t he hu hr ih =>
      refine ⟨?_, by rw [utf8Valid_char n c t hu]; exact ih.2⟩
      have key : e ≠ 0x75 ∧ simpleEsc e = UInt8.ofNat n ∧ n < 128 := by
        simp only [Spec.escapes, List.mem_cons, Prod.mk.injEq, List.not_mem_nil, or_false] at he
        rcases he with ⟨rfl, rfl⟩ | ⟨rfl, rfl⟩ | ⟨rfl, rfl⟩ | ⟨rfl, rfl⟩ | ⟨rfl, rfl⟩ | ⟨rfl, rfl⟩ | ⟨rfl, rfl⟩ | ⟨rfl, rfl⟩ <;> decide
      have hc : c = [UInt8.ofNat n] := by
        rcases utf8_bytes n c hu with ⟨_, hc⟩ | ⟨hn, _⟩
        · exact hc
        · omega
      rw [unescape.eq_def]
      simp only [if_true, if_neg key.1, ih.1, Option.map_some, key.2.1, hc]
      rfl
    | uni n s c raw t he hu hr ih => exact ⟨unescape_uni s raw t n c he hu ih.1, by rw [utf8Valid_char n c t hu]; exact ih.2⟩
    | pair h l s s' c raw t he he' hh hl hu hr ih =>
      exact ⟨unescape_pair s s' raw t h l c he he' hh hl hu ih.1, by rw [utf8Valid_char _ c t hu]; exact ih.2⟩
  rw [jsonContent, this.1]
  simp only [this.2, if_true]

/-- A byte that continues a character does not come from an escape. -/
theorem unescape_cont (s t : Bytes) (b : UInt8) (hs : Spec.JsonChars s) (h1 : 128 ≤ b.toNat) (h2 : b.toNat ≤ 191) (h : unescape s = some (b :: t)) :
    ∃ s', s = b :: s' ∧ Spec.JsonChars s' ∧ unescape s' = some t := by
  cases hs with
  | nil => cases h
  | plain x s hx1 hx2 hx3 hs =>
    rw [unescape.eq_def] at h
    simp only [if_neg hx3] at h
    rw [Option.map_eq_some_iff] at h
    obtain ⟨t', ht', e⟩ := h
    simp only [List.cons.injEq] at e
    exact ⟨s, by rw [e.1], hs, by rw [← e.2]; exact ht'⟩
  | esc e s he hs =>
    exfalso
    have he' : e ≠ 0x75 := by rintro rfl; revert he; decide
    rw [unescape.eq_def] at h
    simp only [if_true, if_neg he'] at h
    rw [Option.map_eq_some_iff] at h
    obtain ⟨t', -, e'⟩ := h
    simp only [List.cons.injEq] at e'
    rw [← e'.1] at h1
    have : ∀ e ∈ ascii "\"\\/bfnrt", (simpleEsc e).toNat < 128 := by decide +kernel
    have := this e he
    omega
  | uni a b' c d s ha hb hc hd hs =>
    exfalso
    obtain ⟨hq, hq'⟩ := quad_escape a b' c d ha hb hc hd
    have first : ∀ n t t', n < 0x110000 → ¬ (0xd800 ≤ n ∧ n ≤ 0xdfff) → utf8Encode n ++ t = b :: t' → False := by
      intro n t t' hn hn' e
      obtain ⟨x, y, e', hx⟩ := utf8_first n _ (utf8_encode n hn hn')
      rw [e'] at e
      simp only [List.cons_append, List.cons.injEq] at e
      exact hx (by rw [e.1]; exact ⟨h1, h2⟩)
    rw [unescape.eq_def] at h
    simp only [if_true] at h
    split at h
    · cases h
    split at h
    · split at h
      · split at h
        · rename_i hp
          rw [Option.map_eq_some_iff] at h
          obtain ⟨t', -, e'⟩ := h
          exact first _ _ _ (by omega) (by omega) e'
        · cases h
      · cases h
    · rw [Option.map_eq_some_iff] at h
      obtain ⟨t', -, e'⟩ := h
      exact first _ _ _ (by omega) (by omega) e'

theorem jsonContent_sound : ∀ (k : Nat) (raw c : Bytes), raw.length ≤ k → Spec.JsonChars raw → unescape raw = some c → utf8Valid c = true → Spec.JsonReads raw c := by
  intro k
  induction k with
  | zero =>
    intro raw c hk hr hu hv
    have : raw = [] := List.length_eq_zero_iff.1 (by omega)
    subst this
    rw [unescape.eq_def] at hu
    cases hu
    exact .nil
  | succ k ih =>
    intro raw c hk hr hu hv
    cases hr with
    | nil =>
      rw [unescape.eq_def] at hu
      cases hu
      exact .nil
    | plain x s hx1 hx2 hx3 hs =>
      have hux := hu
      rw [unescape.eq_def] at hu
      simp only [if_neg hx3] at hu
      rw [Option.map_eq_some_iff] at hu
      obtain ⟨t, ht, rfl⟩ := hu
      obtain ⟨n, c, r, hn, e, hr⟩ := utf8Valid_split x t hv
      -- the bytes of the character are there in the text itself
      have key : ∀ (c r s t : Bytes), (∀ b ∈ c, 128 ≤ b.toNat ∧ b.toNat ≤ 191) → Spec.JsonChars s → unescape s = some t → t = c ++ r →
          ∃ s', s = c ++ s' ∧ Spec.JsonChars s' ∧ unescape s' = some r := by
        intro c
        induction c with
        | nil => intro r s t _ h1 h2 h3; exact ⟨s, rfl, h1, by rw [h2, h3]; rfl⟩
        | cons b c ihc =>
          intro r s t hb h1 h2 h3
          rw [h3, List.cons_append] at h2
          obtain ⟨s1, rfl, h4, h5⟩ := unescape_cont s _ b h1 (hb b (by simp)).1 (hb b (by simp)).2 h2
          obtain ⟨s', rfl, h6, h7⟩ := ihc r s1 _ (fun x hx => hb x (by simp [hx])) h4 h5 rfl
          exact ⟨s', rfl, h6, h7⟩
      have tails : ∃ c', c = x :: c' ∧ ∀ b ∈ c', 128 ≤ b.toNat ∧ b.toNat ≤ 191 := by
        cases hn with
        | one n h => simp only [List.cons_append, List.cons.injEq] at e; exact ⟨[], by rw [e.1], by simp⟩
        | two a b h1 h2 h3 =>
          simp only [List.cons_append, List.cons.injEq] at e
          refine ⟨_, by rw [e.1], ?_⟩
          simp only [List.mem_cons, List.not_mem_nil, or_false]
          rintro b rfl; rw [toNat_u8 (by omega)]; omega
        | three a b z h1 h2 h3 h4 h5 =>
          simp only [List.cons_append, List.cons.injEq] at e
          refine ⟨_, by rw [e.1], ?_⟩
          simp only [List.mem_cons, List.not_mem_nil, or_false]
          rintro b (rfl | rfl) <;> rw [toNat_u8 (by omega)] <;> omega
        | four a b z u h1 h2 h3 h4 h5 h6 =>
          simp only [List.cons_append, List.cons.injEq] at e
          refine ⟨_, by rw [e.1], ?_⟩
          simp only [List.mem_cons, List.not_mem_nil, or_false]
          rintro b (rfl | rfl | rfl) <;> rw [toNat_u8 (by omega)] <;> omega
      obtain ⟨c', rfl, hc'⟩ := tails
      simp only [List.cons_append, List.cons.injEq, true_and] at e
      obtain ⟨s', rfl, h6, h7⟩ := key c' r s t hc' hs ht e
      have hn1 : 0x20 ≤ n ∧ n ≠ 0x22 ∧ n ≠ 0x5c := by
        rcases utf8_bytes n _ hn with ⟨hlt, e'⟩ | ⟨hge, _⟩
        · simp only [List.cons.injEq] at e'
          have hx : x.toNat = n := by rw [e'.1, toNat_u8 (by omega)]
          rw [UInt8.le_iff_toNat_le, hx] at hx1
          exact ⟨hx1, fun h => hx2 (UInt8.toNat_inj.1 (by rw [hx, h]; rfl)), fun h => hx3 (UInt8.toNat_inj.1 (by rw [hx, h]; rfl))⟩
        · omega
      have := Spec.JsonReads.char n (x :: c') s' r hn hn1.1 hn1.2.1 hn1.2.2
        (ih s' r (by simp only [List.length_cons, List.length_append] at hk; omega) h6 h7 hr)
      rw [e]
      exact this
    | esc e s he hs =>
      have he' : e ≠ 0x75 := by rintro rfl; revert he; decide
      rw [unescape.eq_def] at hu
      simp only [if_true, if_neg he'] at hu
      rw [Option.map_eq_some_iff] at hu
      obtain ⟨t, ht, rfl⟩ := hu
      obtain ⟨n, hn, hm, hn'⟩ : ∃ n, simpleEsc e = UInt8.ofNat n ∧ (e, n) ∈ Spec.escapes ∧ n < 128 := by
        have : ∀ e ∈ ascii "\"\\/bfnrt", simpleEsc e = UInt8.ofNat (simpleEsc e).toNat ∧ (e, (simpleEsc e).toNat) ∈ Spec.escapes ∧ (simpleEsc e).toNat < 128 := by decide +kernel
        exact ⟨_, this e he⟩
      rw [hn] at hv ⊢
      have hu8 := Spec.Utf8.one n hn'
      have hv' : utf8Valid t = true := by rw [← utf8Valid_char n _ t hu8]; exact hv
      exact .esc e n [UInt8.ofNat n] s t hm hu8 (ih s t (by simp only [List.length_cons] at hk; omega) hs ht hv')
    | uni a b c' d s ha hb hc hd hs =>
      obtain ⟨hq, hq'⟩ := quad_escape a b c' d ha hb hc hd
      simp only [List.length_cons] at hk
      rw [unescape.eq_def] at hu
      simp only [if_true] at hu
      split at hu
      · cases hu
      rename_i hlow
      split at hu
      · rename_i hhigh
        split at hu
        · rename_i b0 u0 k1 k2 k3 k4 s3
          split at hu
          · rename_i hp
            rw [Option.map_eq_some_iff] at hu
            obtain ⟨t, ht, rfl⟩ := hu
            obtain ⟨rfl, rfl, hp1, hp2⟩ := hp
            have hs3 : Spec.JsonHex k1 ∧ Spec.JsonHex k2 ∧ Spec.JsonHex k3 ∧ Spec.JsonHex k4 ∧ Spec.JsonChars s3 := by
              cases hs with
              | plain _ _ _ _ h => exact absurd rfl h
              | esc _ _ h => exact absurd h (by decide)
              | uni _ _ _ _ _ h1 h2 h3 h4 h5 => exact ⟨h1, h2, h3, h4, h5⟩
            obtain ⟨hq2, -⟩ := quad_escape k1 k2 k3 k4 hs3.1 hs3.2.1 hs3.2.2.1 hs3.2.2.2.1
            have hu8 := utf8_encode (0x10000 + (hexQuad a b c' d - 0xd800) * 1024 + (hexQuad k1 k2 k3 k4 - 0xdc00)) (by omega) (by omega)
            have hv' : utf8Valid t = true := by rw [← utf8Valid_char _ _ t hu8]; exact hv
            have := Spec.JsonReads.pair (hexQuad a b c' d - 0xd800) (hexQuad k1 k2 k3 k4 - 0xdc00) [0x5c, 0x75, a, b, c', d] [0x5c, 0x75, k1, k2, k3, k4] _ s3 t
              (by rwa [show 0xd800 + (hexQuad a b c' d - 0xd800) = hexQuad a b c' d by omega])
              (by rwa [show 0xdc00 + (hexQuad k1 k2 k3 k4 - 0xdc00) = hexQuad k1 k2 k3 k4 by omega]) (by omega) (by omega) hu8
              (ih s3 t (by simp only [List.length_cons] at hk; omega) hs3.2.2.2.2 ht hv')
            exact this
          · cases hu
        · cases hu
      · rename_i hhigh
        rw [Option.map_eq_some_iff] at hu
        obtain ⟨t, ht, rfl⟩ := hu
        have hu8 := utf8_encode (hexQuad a b c' d) (by omega) (by omega)
        have hv' : utf8Valid t = true := by rw [← utf8Valid_char _ _ t hu8]; exact hv
        exact Spec.JsonReads.uni _ [0x5c, 0x75, a, b, c', d] _ s t hq hu8 (ih s t (by omega) hs ht hv')

/-- The server reads exactly the content of a text. -/
theorem jsonContent_iff (raw c : Bytes) (hr : Spec.JsonChars raw) : jsonContent raw = some c ↔ Spec.JsonReads raw c := by
  constructor
  · intro h
    rw [jsonContent] at h
    split at h
    · rename_i t ht
      split at h
      · rename_i hv
        cases h
        exact jsonContent_sound _ raw c (le_refl _) hr ht hv
      · cases h
    · cases h
  · exact jsonContent_reads raw c

end Gust

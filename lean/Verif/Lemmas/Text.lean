import Verif.Model.Text
import Verif.Lemmas.Bits

/-! # Facts about number formatting and parsing, searching and UTF-8 -/

namespace Gust

/-! ## digits -/

theorem toDigits_lt {b : Nat} (hb : 2 ≤ b) (n : Nat) : ∀ d ∈ toDigits b n, d < b := by
  induction n using Nat.strongRecOn with
  | _ n ih =>
    rw [toDigits]
    by_cases h : n < b
    · have h' : n < b ∨ b < 2 := Or.inl h
      simp only [h', dite_true, List.mem_singleton]
      rintro d rfl; exact h
    · have h' : ¬ (n < b ∨ b < 2) := by omega
      simp only [h', dite_false, List.mem_append, List.mem_singleton]
      rintro d (hd | rfl)
      · exact ih (n / b) (Nat.div_lt_self (by omega) (by omega)) d hd
      · exact Nat.mod_lt _ (by omega)

theorem toDigits_ne_nil (b n : Nat) : toDigits b n ≠ [] := by
  rw [toDigits]; split <;> simp

/-- Number of digits: `n < b^k` needs at most `k` digits (k ≥ 1). -/
theorem toDigits_length_le {b : Nat} (hb : 2 ≤ b) : ∀ (k n : Nat), 0 < k → n < b ^ k →
    (toDigits b n).length ≤ k := by
  intro k
  induction k with
  | zero => intro n h; omega
  | succ k ih =>
    intro n _ hn
    rw [toDigits]
    by_cases h : n < b
    · simp [h]
    · have h' : ¬ (n < b ∨ b < 2) := by omega
      simp only [h', dite_false, List.length_append, List.length_singleton]
      have hk : 0 < k := by
        rcases Nat.eq_zero_or_pos k with rfl | hk
        · simp at hn; omega
        · exact hk
      have : n / b < b ^ k := by
        rw [Nat.div_lt_iff_lt_mul (by omega)]
        rwa [Nat.pow_succ] at hn
      have := ih (n / b) hk this
      omega

/-- and `n ≥ b^k` needs more than `k` digits. -/
theorem toDigits_length_gt {b : Nat} (hb : 2 ≤ b) : ∀ (k n : Nat), b ^ k ≤ n →
    k < (toDigits b n).length := by
  intro k
  induction k with
  | zero => intro n _; exact List.length_pos_iff.2 (toDigits_ne_nil b n)
  | succ k ih =>
    intro n hn
    rw [toDigits]
    have hpos : 0 < b ^ k := Nat.pow_pos (by omega)
    have h : ¬ n < b := by
      rw [Nat.pow_succ] at hn
      have := Nat.le_mul_of_pos_left b hpos
      omega
    have h' : ¬ (n < b ∨ b < 2) := by omega
    simp only [h', dite_false, List.length_append, List.length_singleton]
    have : b ^ k ≤ n / b := by
      rw [Nat.le_div_iff_mul_le (by omega)]
      rwa [Nat.pow_succ] at hn
    have := ih _ this
    omega

theorem parseDigits_append (dv : UInt8 → Option Nat) (b : Nat) :
    ∀ (s t : Bytes) (acc : Nat), parseDigits dv b acc (s ++ t) =
      (parseDigits dv b acc s).bind (fun v => parseDigits dv b v t) := by
  intro s
  induction s with
  | nil => intros; simp [parseDigits]
  | cons c s ih =>
    intro t acc
    simp only [List.cons_append, parseDigits]
    cases dv c <;> simp [ih]

/-- Formatting then accumulating with the right digit table gives the number. -/
theorem parseDigits_toDigits {dv : UInt8 → Option Nat} {b : Nat} (hb : 2 ≤ b)
    (hdv : ∀ d < b, dv (digitChar d) = some d) (n : Nat) :
    parseDigits dv b 0 ((toDigits b n).map digitChar) = some n := by
  induction n using Nat.strongRecOn with
  | _ n ih =>
    rw [toDigits]
    by_cases h : n < b
    · simp [h, parseDigits, hdv n h]
    · have h' : ¬ (n < b ∨ b < 2) := by omega
      simp only [h', dite_false, List.map_append, parseDigits_append]
      rw [ih (n / b) (Nat.div_lt_self (by omega) (by omega))]
      have hm := hdv (n % b) (Nat.mod_lt _ (by omega))
      simp only [Option.bind_some, List.map_cons, List.map_nil, parseDigits, hm]
      congr 1
      rw [Nat.mul_comm]
      exact Nat.div_add_mod n b

theorem digitChar_dec : ∀ d < 10, decCharValue (digitChar d) = some d := by decide
theorem digitChar_hex : ∀ d < 16, hexCharValue (digitChar d) = some d := by decide

/-- a digit character is `0-9` or `a-f` -/
theorem digitChar_range : ∀ d < 16, (48 ≤ (digitChar d).toNat ∧ (digitChar d).toNat ≤ 57) ∨
    (97 ≤ (digitChar d).toNat ∧ (digitChar d).toNat ≤ 102) := by decide

theorem digitChar_range10 : ∀ d < 10, 48 ≤ (digitChar d).toNat ∧ (digitChar d).toNat ≤ 57 := by decide

theorem decStr_range (n : Nat) : ∀ c ∈ decStr n, 48 ≤ c.toNat ∧ c.toNat ≤ 57 := by
  intro c hc
  obtain ⟨d, hd, rfl⟩ := List.mem_map.1 hc
  exact digitChar_range10 d (toDigits_lt (by omega) n d hd)

theorem hexStr_range (n : Nat) : ∀ c ∈ hexStr n, (48 ≤ c.toNat ∧ c.toNat ≤ 57) ∨
    (97 ≤ c.toNat ∧ c.toNat ≤ 102) := by
  intro c hc
  obtain ⟨d, hd, rfl⟩ := List.mem_map.1 hc
  exact digitChar_range d (toDigits_lt (by omega) n d hd)

theorem decStr_ne_nil (n : Nat) : decStr n ≠ [] := by
  simp [decStr, toDigits_ne_nil]

theorem hexStr_ne_nil (n : Nat) : hexStr n ≠ [] := by
  simp [hexStr, toDigits_ne_nil]

theorem parseUnsigned_noplus (dv : UInt8 → Option Nat) (b : Nat) (s : Bytes)
    (hne : s ≠ []) (hplus : ∀ c ∈ s, c ≠ 43) :
    parseUnsigned dv b s = (parseDigits dv b 0 s).bind (fun v => if v < U64 then some v else none) := by
  cases s with
  | nil => exact absurd rfl hne
  | cons c s =>
    have hc : c ≠ 43 := hplus c (by simp)
    simp only [parseUnsigned, stripPlus, hc, if_false]
    cases parseDigits dv b 0 (c :: s) <;> simp

theorem parseUsize_decStr (n : Nat) (h : n < U64) : parseUsize (decStr n) = some n := by
  rw [parseUsize, parseUnsigned_noplus _ _ _ (decStr_ne_nil n)]
  · rw [decStr, parseDigits_toDigits (by omega) digitChar_dec]; simp [h]
  · rintro c hc rfl
    have := decStr_range n _ hc
    simp at this

theorem decStr_injective {m n : Nat} (h : decStr m = decStr n) : m = n := by
  have h1 := parseDigits_toDigits (b := 10) (by omega) digitChar_dec m
  have h2 := parseDigits_toDigits (b := 10) (by omega) digitChar_dec n
  simp only [decStr] at h
  rw [h] at h1
  rw [h1] at h2
  exact Option.some.inj h2

theorem parseDigits_zeros (dv : UInt8 → Option Nat) (b : Nat) (h0 : dv 48 = some 0) (s : Bytes) :
    ∀ k, parseDigits dv b 0 (List.replicate k 48 ++ s) = parseDigits dv b 0 s := by
  intro k
  induction k with
  | zero => simp
  | succ k ih => simp [List.replicate_succ, parseDigits, h0, ih]

theorem hex4_length (n : Nat) (h : n < 65536) : (hex4 n).length = 4 := by
  have : (hexStr n).length ≤ 4 := by
    simpa [hexStr] using toDigits_length_le (b := 16) (by omega) 4 n (by omega) (by simpa using h)
  simp [hex4]; omega

theorem hex4_length_gt (n : Nat) (h : 65536 ≤ n) : 4 < (hex4 n).length := by
  have : 4 < (hexStr n).length := by
    simpa [hexStr] using toDigits_length_gt (b := 16) (by omega) 4 n (by simpa using h)
  simp [hex4]; omega

theorem hex4_range (n : Nat) : ∀ c ∈ hex4 n, (48 ≤ c.toNat ∧ c.toNat ≤ 57) ∨
    (97 ≤ c.toNat ∧ c.toNat ≤ 102) := by
  intro c hc
  simp only [hex4, List.mem_append] at hc
  rcases hc with hc | hc
  · rw [List.mem_replicate] at hc
    rw [hc.2]; left; decide
  · exact hexStr_range n c hc

theorem hex4_ne_nil (n : Nat) : hex4 n ≠ [] := by
  simp [hex4, hexStr_ne_nil]

theorem parseHex_hex4 (n : Nat) (h : n < U64) : parseHexUsize (hex4 n) = some n := by
  rw [parseHexUsize, parseUnsigned_noplus _ _ _ (hex4_ne_nil n)]
  · simp only [hex4]
    rw [parseDigits_zeros _ _ (by decide), hexStr, parseDigits_toDigits (by omega) digitChar_hex]
    simp [h]
  · rintro c hc rfl
    have := hex4_range n _ hc
    simp at this

/-! ## searching -/

theorem findByte_append (b : UInt8) (l r : Bytes) (h : b ∉ l) :
    findByte b (l ++ b :: r) = some l.length := by
  induction l with
  | nil => simp [findByte, List.findIdx?_cons]
  | cons a l ih =>
    have ha : a ≠ b := fun e => h (by simp [e])
    have hl : b ∉ l := fun e => h (by simp [e])
    have := ih hl
    simp only [findByte] at this ⊢
    simp [List.findIdx?_cons, ha, this]

theorem findByte_none {b : UInt8} {l : Bytes} (h : b ∉ l) : findByte b l = none := by
  simp only [findByte, List.findIdx?_eq_none_iff]
  intro x hx
  simp
  rintro rfl
  exact h hx

theorem findByte_some {b : UInt8} {l : Bytes} {i : Nat} (h : findByte b l = some i) :
    ∃ p s, l = p ++ b :: s ∧ p.length = i ∧ b ∉ p := by
  induction l generalizing i with
  | nil => simp [findByte] at h
  | cons a l ih =>
    simp only [findByte, List.findIdx?_cons] at h
    by_cases ha : a = b
    · simp [ha] at h
      exact ⟨[], l, by simp [ha], by simp [h], by simp⟩
    · simp [ha] at h
      obtain ⟨j, hj, rfl⟩ := h
      obtain ⟨p, s, hp, hl, hb⟩ := ih (i := j) (by simpa [findByte] using hj)
      refine ⟨a :: p, s, by simp [hp], by simp [hl], ?_⟩
      simp [hb]; exact fun e => ha e.symm

end Gust

import Verif.Base.Tactics
import Verif.Spec.Json
import Mathlib.Data.List.TakeWhile

/-! # The scanner accepts exactly the JSON texts -/

namespace Gust

theorem jsonWs_iff (b : UInt8) : jsonWs b = true ↔ (b = 0x20 ∨ b = 0x09 ∨ b = 0x0a ∨ b = 0x0d) := by
  simp only [jsonWs, Bool.or_eq_true, beq_iff_eq, or_assoc]

theorem skipWs_append (w s : Bytes) (h : Spec.JsonWs w) : skipWs (w ++ s) = skipWs s := by
  induction w with
  | nil => rfl
  | cons b w ih =>
    have hb : jsonWs b = true := (jsonWs_iff b).2 (h b (by simp))
    have := ih (fun x hx => h x (by simp [hx]))
    simp only [skipWs, List.cons_append, List.dropWhile_cons, hb, if_true] at this ⊢
    exact this

theorem skipWs_stop (c : UInt8) (s : Bytes) (h : jsonWs c = false) : skipWs (c :: s) = c :: s := by
  simp [skipWs, h]

theorem skipWs_split (s : Bytes) : ∃ w, Spec.JsonWs w ∧ s = w ++ skipWs s := by
  refine ⟨s.takeWhile jsonWs, fun b hb => (jsonWs_iff b).1 ?_, (List.takeWhile_append_dropWhile).symm⟩
  exact List.mem_takeWhile_imp hb

theorem all_u8 {P : UInt8 → Prop} (h : ∀ n < 256, P (UInt8.ofNat n)) (b : UInt8) : P b := by
  have := h b.toNat b.toNat_lt
  rwa [UInt8.ofNat_toNat] at this

theorem jsonHex_iff (b : UInt8) : jsonHex b = true ↔ Spec.JsonHex b := by
  unfold Spec.JsonHex; revert b; exact all_u8 (by decide +kernel)

theorem jsonSimple_iff (b : UInt8) : jsonSimple b = true ↔ b ∈ ascii "\"\\/bfnrt" := by
  revert b; exact all_u8 (by decide +kernel)

theorem jsonDigit_iff (b : UInt8) : jsonDigit b = true ↔ 0x30 ≤ b ∧ b ≤ 0x39 := by
  simp [jsonDigit]

theorem not_lt_u8 (b c : UInt8) : ¬ b < c ↔ c ≤ b := by
  simp [UInt8.lt_iff_toNat_lt, UInt8.le_iff_toNat_le]

/-! ## Texts -/

theorem scanStr_complete (raw r : Bytes) (h : Spec.JsonChars raw) : scanStr (raw ++ 0x22 :: r) = some (raw, r) := by
  induction h with
  | nil => rw [List.nil_append, scanStr.eq_def]; simp only [if_true]
  | plain b s h1 h2 h3 h4 ih =>
    have h5 : ¬ b < 0x20 := (not_lt_u8 _ _).2 h1
    rw [List.cons_append, scanStr.eq_def]; simp only [if_neg h2, if_neg h3, if_neg h5, ih, Option.map_some]
  | esc e s h1 h2 ih =>
    have he : e ≠ 0x75 := by rintro rfl; revert h1; decide
    rw [List.cons_append, List.cons_append, scanStr.eq_def]
    simp only [if_neg (show ¬ (0x5c : UInt8) = 0x22 by decide), if_pos, if_neg he, (jsonSimple_iff e).2 h1, ih, Option.map_some]
  | uni a b c d s ha hb hc hd h ih =>
    simp only [List.cons_append]
    rw [scanStr.eq_def]
    simp only [if_neg (show ¬ (0x5c : UInt8) = 0x22 by decide), if_pos, (jsonHex_iff _).2 ha, (jsonHex_iff _).2 hb, (jsonHex_iff _).2 hc, (jsonHex_iff _).2 hd, Bool.and_self,
      ih, Option.map_some]

theorem scanStr_sound : ∀ (n : Nat) (s raw r : Bytes), s.length ≤ n → scanStr s = some (raw, r) → Spec.JsonChars raw ∧ s = raw ++ 0x22 :: r := by
  intro n
  induction n with
  | zero =>
    intro s raw r hn h
    have : s = [] := List.length_eq_zero_iff.1 (by omega)
    subst this; simp [scanStr] at h
  | succ n ih =>
    intro s raw r hn h
    match s, hn, h with
    | [], hn, h => simp [scanStr] at h
    | c :: s, hn, h =>
      rw [scanStr.eq_def] at h
      simp only at h
      split at h
      · rename_i hc; subst hc
        simp only [Option.some.injEq, Prod.mk.injEq] at h
        obtain ⟨rfl, rfl⟩ := h
        exact ⟨.nil, rfl⟩
      · rename_i hc
        split at h
        · rename_i hc'; subst hc'
          match s, hn, h with
          | [], hn, h => simp at h
          | e :: s1, hn, h =>
            simp only at h
            split at h
            · rename_i he; subst he
              match s1, hn, h with
              | [], hn, h => simp at h
              | [_], hn, h => simp at h
              | [_, _], hn, h => simp at h
              | [_, _, _], hn, h => simp at h
              | h1 :: h2 :: h3 :: h4 :: s2, hn, h =>
                simp only at h
                split at h
                · rename_i hx
                  rw [Option.map_eq_some_iff] at h
                  obtain ⟨⟨p, q⟩, hp, hq⟩ := h
                  simp only [Prod.mk.injEq] at hq
                  obtain ⟨rfl, rfl⟩ := hq
                  have := ih s2 p q (by simp only [List.length_cons] at hn; omega) hp
                  simp only [Bool.and_eq_true] at hx
                  exact ⟨.uni _ _ _ _ _ ((jsonHex_iff _).1 hx.1.1.1) ((jsonHex_iff _).1 hx.1.1.2) ((jsonHex_iff _).1 hx.1.2) ((jsonHex_iff _).1 hx.2) this.1,
                    by rw [this.2]; rfl⟩
                · cases h
            · split at h
              · rename_i hx
                rw [Option.map_eq_some_iff] at h
                obtain ⟨⟨p, q⟩, hp, hq⟩ := h
                simp only [Prod.mk.injEq] at hq
                obtain ⟨rfl, rfl⟩ := hq
                have := ih s1 p q (by simp only [List.length_cons] at hn; omega) hp
                exact ⟨.esc _ _ ((jsonSimple_iff _).1 hx) this.1, by rw [this.2]; rfl⟩
              · cases h
        · rename_i hc'
          split at h
          · cases h
          · rename_i hlt
            rw [Option.map_eq_some_iff] at h
            obtain ⟨⟨p, q⟩, hp, hq⟩ := h
            simp only [Prod.mk.injEq] at hq
            obtain ⟨rfl, rfl⟩ := hq
            have := ih s p q (by simp only [List.length_cons] at hn; omega) hp
            exact ⟨.plain _ _ ((not_lt_u8 _ _).1 hlt) hc hc' this.1, by rw [this.2]; rfl⟩

/-! ## Numbers -/

/-- Nothing that continues a number. -/
def numEnd (s : Bytes) : Prop := ∀ c, s.head? = some c → jsonDigit c = false ∧ c ≠ 0x2e ∧ c ≠ 0x65 ∧ c ≠ 0x45

/-- No digit comes first. -/
def digitEnd (s : Bytes) : Prop := ∀ c, s.head? = some c → jsonDigit c = false

theorem scanDigits_complete (d r : Bytes) (h : Spec.JsonDigits d) (hr : digitEnd r) : scanDigits (d ++ r) = some (d, r) := by
  have hd : ∀ b ∈ d, jsonDigit b = true := fun b hb => (jsonDigit_iff b).2 (h.2 b hb)
  have h1 : r.takeWhile jsonDigit = [] := by
    cases r with
    | nil => rfl
    | cons c r => simp [hr c rfl]
  have h2 : r.dropWhile jsonDigit = r := by
    cases r with
    | nil => rfl
    | cons c r => simp [hr c rfl]
  have h3 : (d ++ r).takeWhile jsonDigit = d := by rw [List.takeWhile_append_of_pos hd, h1, List.append_nil]
  have h4 : (d ++ r).dropWhile jsonDigit = r := by rw [List.dropWhile_append_of_pos hd, h2]
  rw [scanDigits, h3, h4, if_neg h.1]

theorem scanDigits_sound (s d r : Bytes) (h : scanDigits s = some (d, r)) : Spec.JsonDigits d ∧ s = d ++ r := by
  rw [scanDigits] at h
  split at h
  · cases h
  · rename_i hd
    simp only [Option.some.injEq, Prod.mk.injEq] at h
    obtain ⟨rfl, rfl⟩ := h
    exact ⟨⟨hd, fun b hb => (jsonDigit_iff b).1 (List.mem_takeWhile_imp hb)⟩, List.takeWhile_append_dropWhile.symm⟩

theorem numEnd_nil : numEnd [] := by intro c h; cases h

theorem scanExp_complete (e r : Bytes)
    (h : e = [] ∨ ∃ x g d, (x = ascii "e" ∨ x = ascii "E") ∧ (g = [] ∨ g = ascii "+" ∨ g = ascii "-") ∧ Spec.JsonDigits d ∧ e = x ++ g ++ d) (hr : numEnd r) :
    scanExp (e ++ r) = some (e, r) := by
  rcases h with rfl | ⟨x, g, d, hx, hg, hd, rfl⟩
  · cases r with
    | nil => rfl
    | cons c r =>
      have := hr c rfl
      simp [scanExp, this.2.2.1, this.2.2.2]
  · have hs := scanDigits_complete d r hd (fun c hc => (hr c hc).1)
    obtain ⟨a, ha, hxa⟩ : ∃ a, (a = 0x65 ∨ a = 0x45) ∧ x = [a] := by
      rcases hx with rfl | rfl
      · exact ⟨0x65, .inl rfl, by decide⟩
      · exact ⟨0x45, .inr rfl, by decide⟩
    subst hxa
    rcases hg with rfl | hg
    · obtain ⟨c, d', rfl⟩ : ∃ c d', d = c :: d' := List.exists_cons_of_ne_nil hd.1
      have hc := hd.2 c (by simp)
      have hc' : ¬ (c = 0x2b ∨ c = 0x2d) := by
        rintro (rfl | rfl) <;> revert hc <;> decide
      simp only [List.append_nil, List.cons_append, List.nil_append, scanExp, if_pos ha, if_neg hc'] at hs ⊢
      rw [hs]; rfl
    · obtain ⟨b, hb, hgb⟩ : ∃ b, (b = 0x2b ∨ b = 0x2d) ∧ g = [b] := by
        rcases hg with rfl | rfl
        · exact ⟨0x2b, .inl rfl, by decide⟩
        · exact ⟨0x2d, .inr rfl, by decide⟩
      subst hgb
      simp only [List.cons_append, List.nil_append, scanExp, if_pos ha, if_pos hb]
      rw [hs]; rfl

theorem scanExp_sound (s e r : Bytes) (h : scanExp s = some (e, r)) :
    (e = [] ∨ ∃ x g d, (x = ascii "e" ∨ x = ascii "E") ∧ (g = [] ∨ g = ascii "+" ∨ g = ascii "-") ∧ Spec.JsonDigits d ∧ e = x ++ g ++ d) ∧ s = e ++ r := by
  match s, h with
  | [], h =>
    simp only [scanExp, Option.some.injEq, Prod.mk.injEq] at h
    exact ⟨.inl h.1.symm, by rw [← h.1, ← h.2]; rfl⟩
  | c :: s1, h =>
    simp only [scanExp] at h
    split at h
    · rename_i hc
      have hx : [c] = ascii "e" ∨ [c] = ascii "E" := by
        rcases hc with rfl | rfl
        · exact .inl (by decide)
        · exact .inr (by decide)
      match s1, h with
      | [], h => cases h
      | g :: s2, h =>
        simp only at h
        split at h
        · rename_i hg
          rw [Option.map_eq_some_iff] at h
          obtain ⟨⟨d, q⟩, hd, hq⟩ := h
          simp only [Prod.mk.injEq] at hq
          obtain ⟨rfl, rfl⟩ := hq
          obtain ⟨h1, h2⟩ := scanDigits_sound _ _ _ hd
          refine ⟨.inr ⟨[c], [g], d, hx, .inr ?_, h1, rfl⟩, by rw [h2]; rfl⟩
          rcases hg with rfl | rfl
          · exact .inl (by decide)
          · exact .inr (by decide)
        · rw [Option.map_eq_some_iff] at h
          obtain ⟨⟨d, q⟩, hd, hq⟩ := h
          simp only [Prod.mk.injEq] at hq
          obtain ⟨rfl, rfl⟩ := hq
          obtain ⟨h1, h2⟩ := scanDigits_sound _ _ _ hd
          exact ⟨.inr ⟨[c], [], d, hx, .inl rfl, h1, by simp⟩, by rw [h2]; rfl⟩
    · simp only [Option.some.injEq, Prod.mk.injEq] at h
      exact ⟨.inl h.1.symm, by rw [← h.1, ← h.2]; rfl⟩

theorem scanFrac_complete (f r : Bytes) (h : f = [] ∨ ∃ d, Spec.JsonDigits d ∧ f = ascii "." ++ d)
    (hr : digitEnd r) (hp : r.head? ≠ some 0x2e) : scanFrac (f ++ r) = some (f, r) := by
  rcases h with rfl | ⟨d, hd, rfl⟩
  · cases r with
    | nil => rfl
    | cons c r =>
      have : c ≠ 0x2e := fun e => hp (by rw [e]; rfl)
      simp [scanFrac, this]
  · have hs := scanDigits_complete d r hd hr
    rw [show ascii "." = [0x2e] by decide]
    simp only [List.cons_append, List.nil_append, scanFrac, if_true]
    rw [hs]; rfl

theorem scanFrac_sound (s f r : Bytes) (h : scanFrac s = some (f, r)) : (f = [] ∨ ∃ d, Spec.JsonDigits d ∧ f = ascii "." ++ d) ∧ s = f ++ r := by
  match s, h with
  | [], h =>
    simp only [scanFrac, Option.some.injEq, Prod.mk.injEq] at h
    exact ⟨.inl h.1.symm, by rw [← h.1, ← h.2]; rfl⟩
  | c :: s1, h =>
    simp only [scanFrac] at h
    split at h
    · rename_i hc; subst hc
      rw [Option.map_eq_some_iff] at h
      obtain ⟨⟨d, q⟩, hd, hq⟩ := h
      simp only [Prod.mk.injEq] at hq
      obtain ⟨rfl, rfl⟩ := hq
      obtain ⟨h1, h2⟩ := scanDigits_sound _ _ _ hd
      exact ⟨.inr ⟨d, h1, by rw [show ascii "." = [0x2e] by decide]; rfl⟩, by rw [h2]; rfl⟩
    · simp only [Option.some.injEq, Prod.mk.injEq] at h
      exact ⟨.inl h.1.symm, by rw [← h.1, ← h.2]; rfl⟩

theorem scanInt_complete (d r : Bytes) (h : Spec.JsonDigits d) (h0 : d.head? = some 0x30 → d = ascii "0") (hr : digitEnd r) : scanInt (d ++ r) = some (d, r) := by
  rw [scanInt, scanDigits_complete d r h hr]
  simp only
  rw [if_neg]
  rintro ⟨h1, h2⟩
  rw [h0 h1] at h2
  exact h2 (by decide)

theorem scanInt_sound (s d r : Bytes) (h : scanInt s = some (d, r)) : (Spec.JsonDigits d ∧ (d.head? = some 0x30 → d = ascii "0")) ∧ s = d ++ r := by
  rw [scanInt] at h
  split at h
  · rename_i d' r' hd
    split at h
    · cases h
    · rename_i hn
      simp only [Option.some.injEq, Prod.mk.injEq] at h
      obtain ⟨rfl, rfl⟩ := h
      obtain ⟨h1, h2⟩ := scanDigits_sound _ _ _ hd
      refine ⟨⟨h1, fun h0 => ?_⟩, h2⟩
      have : d'.length = 1 := by
        by_contra hne; exact hn ⟨h0, hne⟩
      match d', this, h0 with
      | [x], _, h0 =>
        simp only [List.head?_cons, Option.some.injEq] at h0
        rw [h0]; decide
  · cases h

theorem digitEnd_exp (e r : Bytes)
    (h : e = [] ∨ ∃ x g d, (x = ascii "e" ∨ x = ascii "E") ∧ (g = [] ∨ g = ascii "+" ∨ g = ascii "-") ∧ Spec.JsonDigits d ∧ e = x ++ g ++ d) (hr : numEnd r) :
    digitEnd (e ++ r) ∧ (e ++ r).head? ≠ some 0x2e := by
  rcases h with rfl | ⟨x, g, d, hx, -, -, rfl⟩
  · exact ⟨fun c hc => (hr c hc).1, fun hc => (hr _ hc).2.1 rfl⟩
  · rcases hx with rfl | rfl
    · rw [show ascii "e" = [0x65] by decide]
      refine ⟨fun c hc => ?_, by simp⟩
      simp only [List.cons_append, List.head?_cons, Option.some.injEq] at hc
      rw [← hc]; decide
    · rw [show ascii "E" = [0x45] by decide]
      refine ⟨fun c hc => ?_, by simp⟩
      simp only [List.cons_append, List.head?_cons, Option.some.injEq] at hc
      rw [← hc]; decide

theorem scanNum_complete (l r : Bytes) (h : Spec.JsonNum l) (hr : numEnd r) : scanNum (l ++ r) = some (l, r) := by
  obtain ⟨sign, int, frac, exp, rfl, hs, hi, hf, he⟩ := h
  have h1 := digitEnd_exp exp r he hr
  have h2 : digitEnd (frac ++ (exp ++ r)) := by
    rcases hf with rfl | ⟨d, -, rfl⟩
    · exact h1.1
    · rw [show ascii "." = [0x2e] by decide]
      intro c hc
      simp only [List.cons_append, List.head?_cons, Option.some.injEq] at hc
      rw [← hc]; decide
  have h3 : scanSign (sign ++ (int ++ (frac ++ (exp ++ r)))) = (sign, int ++ (frac ++ (exp ++ r))) := by
    rcases hs with rfl | rfl
    · obtain ⟨c, d', rfl⟩ : ∃ c d', int = c :: d' := List.exists_cons_of_ne_nil hi.1.1
      have hc := hi.1.2 c (by simp)
      have hc' : ¬ c = 0x2d := by rintro rfl; revert hc; decide
      simp [scanSign, hc']
    · rw [show ascii "-" = [0x2d] by decide]; simp [scanSign]
  have h4 := scanInt_complete int _ hi.1 hi.2 h2
  have h5 := scanFrac_complete frac _ hf h1.1 h1.2
  have h6 := scanExp_complete exp r he hr
  simp only [List.append_assoc, scanNum, h3, h4, h5, h6, Option.bind_eq_bind, Option.bind_some]
  rfl

theorem scanSign_sound (s : Bytes) : ((scanSign s).1 = [] ∨ (scanSign s).1 = ascii "-") ∧ s = (scanSign s).1 ++ (scanSign s).2 := by
  match s with
  | [] => exact ⟨.inl rfl, rfl⟩
  | c :: r =>
    simp only [scanSign]
    split
    · rename_i hc; subst hc; exact ⟨.inr (by show [0x2d] = _; decide), rfl⟩
    · exact ⟨.inl rfl, rfl⟩

theorem scanNum_sound (s l r : Bytes) (h : scanNum s = some (l, r)) : Spec.JsonNum l ∧ s = l ++ r := by
  simp only [scanNum, Option.bind_eq_bind, Option.bind_eq_some_iff] at h
  obtain ⟨⟨d, r1⟩, h1, ⟨f, r2⟩, h2, ⟨e, r3⟩, h3, h4⟩ := h
  simp only [pure, Option.some.injEq, Prod.mk.injEq] at h4
  obtain ⟨rfl, rfl⟩ := h4
  obtain ⟨i1, i2⟩ := scanInt_sound _ _ _ h1
  obtain ⟨f1, f2⟩ := scanFrac_sound _ _ _ h2
  obtain ⟨e1, e2⟩ := scanExp_sound _ _ _ h3
  obtain ⟨s1, s2⟩ := scanSign_sound s
  refine ⟨⟨_, d, f, e, rfl, s1, i1, f1, e1⟩, ?_⟩
  rw [show ((scanSign s).1 ++ d ++ f ++ e) ++ r3 = (scanSign s).1 ++ (d ++ (f ++ (e ++ r3))) by simp only [List.append_assoc], ← e2, ← f2, ← i2]
  exact s2


/-! ## Values -/

/-- The first byte of a value: no white space, no closing bracket. -/
theorem value_head (v : Json) (t : Bytes) (h : Spec.JsonText (.value v) t) : ∃ c t', t = c :: t' ∧ jsonWs c = false ∧ c ≠ 0x5d := by
  cases h with
  | null => exact ⟨0x6e, ascii "ull", by decide, by decide, by decide⟩
  | true => exact ⟨0x74, ascii "rue", by decide, by decide, by decide⟩
  | false => exact ⟨0x66, ascii "alse", by decide, by decide, by decide⟩
  | num l hl =>
    obtain ⟨sign, int, frac, exp, rfl, hs, hi, -, -⟩ := hl
    rcases hs with rfl | rfl
    · obtain ⟨c, d', rfl⟩ : ∃ c d', int = c :: d' := List.exists_cons_of_ne_nil hi.1.1
      refine ⟨c, d' ++ frac ++ exp, rfl, ?_, ?_⟩
      · have hc := hi.1.2 c (by simp)
        cases hw : jsonWs c
        · rfl
        · rcases (jsonWs_iff c).1 hw with rfl | rfl | rfl | rfl <;> revert hc <;> decide
      · rintro rfl
        have hc := hi.1.2 _ (List.mem_cons_self)
        revert hc; decide
    · exact ⟨0x2d, int ++ frac ++ exp, by rw [show ascii "-" = [0x2d] by decide]; rfl, by decide, by decide⟩
  | str raw _ => exact ⟨0x22, raw ++ ascii "\"", by rw [show ascii "\"" = [0x22] by decide]; rfl, by decide, by decide⟩
  | emptyArr w _ => exact ⟨0x5b, w ++ ascii "]", by rw [show ascii "[" = [0x5b] by decide]; rfl, by decide, by decide⟩
  | arr l t _ => exact ⟨0x5b, t ++ ascii "]", by rw [show ascii "[" = [0x5b] by decide]; rfl, by decide, by decide⟩
  | emptyObj w _ => exact ⟨0x7b, w ++ ascii "}", by rw [show ascii "{" = [0x7b] by decide]; rfl, by decide, by decide⟩
  | obj l t _ => exact ⟨0x7b, t ++ ascii "}", by rw [show ascii "{" = [0x7b] by decide]; rfl, by decide, by decide⟩

theorem elems_head (l : List Json) (t s : Bytes) (h : Spec.JsonText (.elems l) t) : (skipWs (t ++ s)).head? ≠ some 0x5d := by
  have key : ∀ (v : Json) (w t s : Bytes), Spec.JsonWs w → Spec.JsonText (.value v) t → (skipWs (w ++ (t ++ s))).head? ≠ some 0x5d := by
    intro v w t s hw ht
    obtain ⟨c, t', rfl, hc, hne⟩ := value_head v t ht
    rw [skipWs_append _ _ hw, List.cons_append, skipWs_stop _ _ hc]
    simpa using hne
  cases h with
  | lastElem v w t w' hw ht hw' =>
    have := key v w t (w' ++ s) hw ht
    simpa only [List.append_assoc] using this
  | elem v l w t w' ts hw ht hw' hts =>
    have := key v w t (w' ++ (ascii "," ++ (ts ++ s))) hw ht
    simpa only [List.append_assoc] using this

theorem members_head (l : List (Bytes × Json)) (t s : Bytes) (h : Spec.JsonText (.members l) t) : (skipWs (t ++ s)).head? ≠ some 0x7d := by
  have key : ∀ (w s : Bytes), Spec.JsonWs w → (skipWs (w ++ (ascii "\"" ++ s))).head? ≠ some 0x7d := by
    intro w s hw
    rw [skipWs_append _ _ hw, show ascii "\"" ++ s = 0x22 :: s by rw [show ascii "\"" = [0x22] by decide]; rfl, skipWs_stop _ _ (by decide)]
    simp
  cases h with
  | lastMember k v w1 w2 w3 t w4 h1 h2 h3 h4 h5 h6 => simpa only [List.append_assoc] using key w1 _ h1
  | member k v l w1 w2 w3 t w4 ts h1 h2 h3 h4 h5 h6 h7 => simpa only [List.append_assoc] using key w1 _ h1

theorem numEnd_ws (w : Bytes) (c : UInt8) (s : Bytes) (hw : Spec.JsonWs w) (hc : c = 0x2c ∨ c = 0x5d ∨ c = 0x7d) : numEnd (w ++ c :: s) := by
  intro b hb
  cases w with
  | nil =>
    simp only [List.nil_append, List.head?_cons, Option.some.injEq] at hb
    subst hb
    rcases hc with rfl | rfl | rfl <;> decide
  | cons x w =>
    simp only [List.cons_append, List.head?_cons, Option.some.injEq] at hb
    subst hb
    rcases hw x (by simp) with rfl | rfl | rfl | rfl <;> decide

theorem numEnd_only (w : Bytes) (hw : Spec.JsonWs w) : numEnd w := by
  cases w with
  | nil => exact numEnd_nil
  | cons x w =>
    intro b hb
    simp only [List.head?_cons, Option.some.injEq] at hb
    subst hb
    rcases hw x (by simp) with rfl | rfl | rfl | rfl <;> decide

/-- What the scanner does with a part. -/
def Scans : Spec.JsonPart → Bytes → Prop
  | .value v, t => ∀ fuel w rest, Spec.JsonWs w → t.length ≤ fuel → numEnd rest → scanValue fuel (w ++ (t ++ rest)) = some (v, rest)
  | .elems l, t => ∀ fuel n rest, t.length ≤ fuel → t.length + 1 ≤ n → scanElems (scanValue fuel) n (t ++ 0x5d :: rest) = some (l, rest)
  | .members l, t => ∀ fuel n rest, t.length ≤ fuel → t.length + 1 ≤ n → scanMembers (scanValue fuel) n (t ++ 0x7d :: rest) = some (l, rest)

theorem scan_complete (p : Spec.JsonPart) (t : Bytes) (h : Spec.JsonText p t) : Scans p t := by
  induction h with
  | null =>
    intro fuel w rest hw hf hr
    obtain ⟨fuel, rfl⟩ : ∃ f, fuel = f + 1 := ⟨fuel - 1, by have : (ascii "null").length = 4 := by decide
                                                            omega⟩
    rw [scanValue, skipWs_append _ _ hw, show ascii "null" ++ rest = 0x6e :: 0x75 :: 0x6c :: 0x6c :: rest by rw [show ascii "null" = [0x6e, 0x75, 0x6c, 0x6c] by decide]; rfl,
      skipWs_stop _ _ (by decide)]
    simp [show ascii "ull" = [0x75, 0x6c, 0x6c] by decide]
  | true =>
    intro fuel w rest hw hf hr
    obtain ⟨fuel, rfl⟩ : ∃ f, fuel = f + 1 := ⟨fuel - 1, by have : (ascii "true").length = 4 := by decide
                                                            omega⟩
    rw [scanValue, skipWs_append _ _ hw, show ascii "true" ++ rest = 0x74 :: 0x72 :: 0x75 :: 0x65 :: rest by rw [show ascii "true" = [0x74, 0x72, 0x75, 0x65] by decide]; rfl,
      skipWs_stop _ _ (by decide)]
    simp [show ascii "rue" = [0x72, 0x75, 0x65] by decide]
  | false =>
    intro fuel w rest hw hf hr
    obtain ⟨fuel, rfl⟩ : ∃ f, fuel = f + 1 := ⟨fuel - 1, by have : (ascii "false").length = 5 := by decide
                                                            omega⟩
    rw [scanValue, skipWs_append _ _ hw,
      show ascii "false" ++ rest = 0x66 :: 0x61 :: 0x6c :: 0x73 :: 0x65 :: rest by rw [show ascii "false" = [0x66, 0x61, 0x6c, 0x73, 0x65] by decide]; rfl,
      skipWs_stop _ _ (by decide)]
    simp [show ascii "alse" = [0x61, 0x6c, 0x73, 0x65] by decide]
  | num l hl =>
    intro fuel w rest hw hf hr
    obtain ⟨c, t', rfl, hc, -⟩ := value_head _ _ (.num l hl)
    obtain ⟨fuel, rfl⟩ : ∃ f, fuel = f + 1 := ⟨fuel - 1, by simp only [List.length_cons] at hf; omega⟩
    have hn := scanNum_complete _ rest hl hr
    have hd : c = 0x2d ∨ (0x30 ≤ c ∧ c ≤ 0x39) := by
      obtain ⟨sign, int, frac, exp, e, hs, hi, -, -⟩ := hl
      rcases hs with rfl | rfl
      · obtain ⟨x, d', rfl⟩ : ∃ c d', int = c :: d' := List.exists_cons_of_ne_nil hi.1.1
        simp only [List.nil_append, List.cons_append, List.cons.injEq] at e
        rw [e.1]
        exact .inr (hi.1.2 x (by simp))
      · rw [show ascii "-" = [0x2d] by decide] at e
        simp only [List.cons_append, List.cons.injEq] at e
        exact .inl e.1
    have hx : ∀ x : UInt8, (x = 0x6e ∨ x = 0x74 ∨ x = 0x66 ∨ x = 0x22 ∨ x = 0x5b ∨ x = 0x7b) → c ≠ x := by
      rintro x (rfl | rfl | rfl | rfl | rfl | rfl) rfl <;> revert hd <;> decide
    rw [scanValue, skipWs_append _ _ hw, List.cons_append, skipWs_stop _ _ hc]
    simp only
    rw [if_neg (hx _ (by simp)), if_neg (hx _ (by simp)), if_neg (hx _ (by simp)), if_neg (hx _ (by simp)), if_neg (hx _ (by simp)), if_neg (hx _ (by simp)),
      ← List.cons_append, hn]
    rfl
  | str raw hraw =>
    intro fuel w rest hw hf hr
    obtain ⟨fuel, rfl⟩ : ∃ f, fuel = f + 1 := ⟨fuel - 1, by simp only [List.length_append, show (ascii "\"").length = 1 by decide] at hf; omega⟩
    rw [scanValue, skipWs_append _ _ hw, show ascii "\"" ++ raw ++ ascii "\"" ++ rest = 0x22 :: (raw ++ 0x22 :: rest) by
      rw [show ascii "\"" = [0x22] by decide]; simp, skipWs_stop _ _ (by decide)]
    simp only [scanStr_complete raw rest hraw]
    simp
  | emptyArr w0 hw0 =>
    intro fuel w rest hw hf hr
    obtain ⟨fuel, rfl⟩ : ∃ f, fuel = f + 1 := ⟨fuel - 1, by simp only [List.length_append, show (ascii "[").length = 1 by decide] at hf; omega⟩
    rw [scanValue, skipWs_append _ _ hw, show ascii "[" ++ w0 ++ ascii "]" ++ rest = 0x5b :: (w0 ++ 0x5d :: rest) by
      rw [show ascii "[" = [0x5b] by decide, show ascii "]" = [0x5d] by decide]; simp, skipWs_stop _ _ (by decide)]
    simp only [skipWs_append _ _ hw0, skipWs_stop 0x5d rest (by decide)]
    simp
  | arr l t ht ih =>
    intro fuel w rest hw hf hr
    simp only [List.length_append, show (ascii "[").length = 1 by decide, show (ascii "]").length = 1 by decide] at hf
    obtain ⟨fuel, rfl⟩ : ∃ f, fuel = f + 1 := ⟨fuel - 1, by omega⟩
    rw [scanValue, skipWs_append _ _ hw, show ascii "[" ++ t ++ ascii "]" ++ rest = 0x5b :: (t ++ 0x5d :: rest) by
      rw [show ascii "[" = [0x5b] by decide, show ascii "]" = [0x5d] by decide]; simp, skipWs_stop _ _ (by decide)]
    simp only [if_neg (elems_head l t (0x5d :: rest) ht), ih fuel fuel rest (by omega) (by omega)]
    simp
  | emptyObj w0 hw0 =>
    intro fuel w rest hw hf hr
    obtain ⟨fuel, rfl⟩ : ∃ f, fuel = f + 1 := ⟨fuel - 1, by simp only [List.length_append, show (ascii "{").length = 1 by decide] at hf; omega⟩
    rw [scanValue, skipWs_append _ _ hw, show ascii "{" ++ w0 ++ ascii "}" ++ rest = 0x7b :: (w0 ++ 0x7d :: rest) by
      rw [show ascii "{" = [0x7b] by decide, show ascii "}" = [0x7d] by decide]; simp, skipWs_stop _ _ (by decide)]
    simp only [skipWs_append _ _ hw0, skipWs_stop 0x7d rest (by decide)]
    simp
  | obj l t ht ih =>
    intro fuel w rest hw hf hr
    simp only [List.length_append, show (ascii "{").length = 1 by decide, show (ascii "}").length = 1 by decide] at hf
    obtain ⟨fuel, rfl⟩ : ∃ f, fuel = f + 1 := ⟨fuel - 1, by omega⟩
    rw [scanValue, skipWs_append _ _ hw, show ascii "{" ++ t ++ ascii "}" ++ rest = 0x7b :: (t ++ 0x7d :: rest) by
      rw [show ascii "{" = [0x7b] by decide, show ascii "}" = [0x7d] by decide]; simp, skipWs_stop _ _ (by decide)]
    simp only [if_neg (members_head l t (0x7d :: rest) ht), ih fuel fuel rest (by omega) (by omega)]
    simp
  | lastElem v w t w' hw ht hw' ih =>
    intro fuel n rest hf hn
    simp only [List.length_append] at hf hn
    obtain ⟨n, rfl⟩ : ∃ f, n = f + 1 := ⟨n - 1, by omega⟩
    have h1 := ih fuel w (w' ++ 0x5d :: rest) hw (by omega) (numEnd_ws _ _ _ hw' (by simp))
    rw [scanElems, show w ++ t ++ w' ++ 0x5d :: rest = w ++ (t ++ (w' ++ 0x5d :: rest)) by simp, h1]
    simp only [skipWs_append _ _ hw', skipWs_stop 0x5d rest (by decide), if_true]
  | elem v l w t w' ts hw ht hw' hts ih ihs =>
    intro fuel n rest hf hn
    simp only [List.length_append, show (ascii ",").length = 1 by decide] at hf hn
    obtain ⟨n, rfl⟩ : ∃ f, n = f + 1 := ⟨n - 1, by omega⟩
    have h1 := ih fuel w (w' ++ 0x2c :: (ts ++ 0x5d :: rest)) hw (by omega) (numEnd_ws _ _ _ hw' (by simp))
    have h2 := ihs fuel n rest (by omega) (by omega)
    rw [scanElems, show w ++ t ++ w' ++ ascii "," ++ ts ++ 0x5d :: rest = w ++ (t ++ (w' ++ 0x2c :: (ts ++ 0x5d :: rest))) by
      rw [show ascii "," = [0x2c] by decide]; simp, h1]
    simp only [skipWs_append _ _ hw', skipWs_stop 0x2c _ (show jsonWs 0x2c = false by decide), h2]
    simp
  | lastMember k v w1 w2 w3 t w4 h1 h2 h3 h4 h5 h6 ih =>
    intro fuel n rest hf hn
    simp only [List.length_append] at hf hn
    obtain ⟨n, rfl⟩ : ∃ f, n = f + 1 := ⟨n - 1, by omega⟩
    have e1 := ih fuel w3 (w4 ++ 0x7d :: rest) h4 (by omega) (numEnd_ws _ _ _ h6 (by simp))
    rw [scanMembers, show w1 ++ ascii "\"" ++ k ++ ascii "\"" ++ w2 ++ ascii ":" ++ w3 ++ t ++ w4 ++ 0x7d :: rest
      = w1 ++ 0x22 :: (k ++ 0x22 :: (w2 ++ 0x3a :: (w3 ++ (t ++ (w4 ++ 0x7d :: rest))))) by
        rw [show ascii "\"" = [0x22] by decide, show ascii ":" = [0x3a] by decide]; simp]
    simp only [skipWs_append _ _ h1, skipWs_stop 0x22 _ (show jsonWs 0x22 = false by decide), List.head?_cons, if_true, List.tail_cons, scanStr_complete _ _ h2,
      skipWs_append _ _ h3, skipWs_stop 0x3a _ (show jsonWs 0x3a = false by decide), e1, skipWs_append _ _ h6, skipWs_stop 0x7d _ (show jsonWs 0x7d = false by decide)]
  | member k v l w1 w2 w3 t w4 ts h1 h2 h3 h4 h5 h6 h7 ih ihs =>
    intro fuel n rest hf hn
    simp only [List.length_append, show (ascii ",").length = 1 by decide] at hf hn
    obtain ⟨n, rfl⟩ : ∃ f, n = f + 1 := ⟨n - 1, by omega⟩
    have e1 := ih fuel w3 (w4 ++ 0x2c :: (ts ++ 0x7d :: rest)) h4 (by omega) (numEnd_ws _ _ _ h6 (by simp))
    have e2 := ihs fuel n rest (by omega) (by omega)
    rw [scanMembers, show w1 ++ ascii "\"" ++ k ++ ascii "\"" ++ w2 ++ ascii ":" ++ w3 ++ t ++ w4 ++ ascii "," ++ ts ++ 0x7d :: rest
      = w1 ++ 0x22 :: (k ++ 0x22 :: (w2 ++ 0x3a :: (w3 ++ (t ++ (w4 ++ 0x2c :: (ts ++ 0x7d :: rest)))))) by
        rw [show ascii "\"" = [0x22] by decide, show ascii ":" = [0x3a] by decide, show ascii "," = [0x2c] by decide]; simp]
    simp only [skipWs_append _ _ h1, skipWs_stop 0x22 _ (show jsonWs 0x22 = false by decide), List.head?_cons, if_true, List.tail_cons, scanStr_complete _ _ h2,
      skipWs_append _ _ h3, skipWs_stop 0x3a _ (show jsonWs 0x3a = false by decide), e1, skipWs_append _ _ h6, skipWs_stop 0x2c _ (show jsonWs 0x2c = false by decide), e2]
    simp

/-- A scanner that takes only values. -/
def ScansValues (value : Bytes → Option (Json × Bytes)) : Prop :=
  ∀ s v r, value s = some (v, r) → ∃ w t, Spec.JsonWs w ∧ Spec.JsonText (.value v) t ∧ s = w ++ (t ++ r)

theorem scanElems_sound {value : Bytes → Option (Json × Bytes)} (ihv : ScansValues value) : ∀ n s l r, scanElems value n s = some (l, r) → ∃ t, Spec.JsonText (.elems l) t ∧ s = t ++ 0x5d :: r := by
  intro n
  induction n with
  | zero => intro s v r h; rw [scanElems] at h; cases h
  | succ n ihe =>
    intro s v r h
    rw [scanElems] at h
    split at h
    · cases h
    · rename_i x r1 hx
      obtain ⟨w, t, hw, ht, hs⟩ := ihv _ _ _ hx
      obtain ⟨w', hw', hr1⟩ := skipWs_split r1
      split at h
      · cases h
      · rename_i c r2 hz
        rw [hz] at hr1
        split at h
        · rename_i hc; subst hc
          simp only [Option.some.injEq, Prod.mk.injEq] at h
          obtain ⟨rfl, rfl⟩ := h
          exact ⟨_, .lastElem x w t w' hw ht hw', by rw [hs, hr1]; simp⟩
        split at h
        · rename_i hc; subst hc
          rw [Option.map_eq_some_iff] at h
          obtain ⟨⟨p, q'⟩, hp, hq⟩ := h
          simp only [Prod.mk.injEq] at hq
          obtain ⟨rfl, rfl⟩ := hq
          obtain ⟨ts, h1, h2⟩ := ihe _ _ _ hp
          exact ⟨_, .elem x p w t w' ts hw ht hw' h1, by rw [hs, hr1, h2, show ascii "," = [0x2c] by decide]; simp⟩
        · cases h

theorem scanMembers_sound {value : Bytes → Option (Json × Bytes)} (ihv : ScansValues value) : ∀ n s l r, scanMembers value n s = some (l, r) → ∃ t, Spec.JsonText (.members l) t ∧ s = t ++ 0x7d :: r := by
  intro n
  induction n with
  | zero => intro s v r h; rw [scanMembers] at h; cases h
  | succ n ihm =>
    intro s v r h
    rw [scanMembers] at h
    obtain ⟨w1, hw1, hs1⟩ := skipWs_split s
    generalize skipWs s = z at h hs1
    split at h
    · rename_i hh
      match z, hh, hs1, h with
      | [], hh, _, _ => cases hh
      | a :: z', hh, hs1, h =>
        simp only [List.head?_cons, Option.some.injEq] at hh
        subst hh
        simp only [List.tail_cons] at h
        split at h
        · cases h
        · rename_i k r1 hk
          obtain ⟨k1, k2⟩ := scanStr_sound _ _ _ _ (le_refl _) hk
          obtain ⟨w2, hw2, hs2⟩ := skipWs_split r1
          generalize skipWs r1 = y at h hs2
          split at h
          · rename_i hh2
            match y, hh2, hs2, h with
            | [], hh2, _, _ => cases hh2
            | b :: y', hh2, hs2, h =>
              simp only [List.head?_cons, Option.some.injEq] at hh2
              subst hh2
              simp only [List.tail_cons] at h
              split at h
              · cases h
              · rename_i x r2 hx
                obtain ⟨w3, t, hw3, ht, hs3⟩ := ihv _ _ _ hx
                obtain ⟨w4, hw4, hs4⟩ := skipWs_split r2
                split at h
                · cases h
                · rename_i c r3 hz
                  rw [hz] at hs4
                  split at h
                  · rename_i hc; subst hc
                    simp only [Option.some.injEq, Prod.mk.injEq] at h
                    obtain ⟨rfl, rfl⟩ := h
                    exact ⟨_, .lastMember k x w1 w2 w3 t w4 hw1 k1 hw2 hw3 ht hw4, by
                      rw [hs1, k2, hs2, hs3, hs4, show ascii "\"" = [0x22] by decide, show ascii ":" = [0x3a] by decide]; simp⟩
                  split at h
                  · rename_i hc; subst hc
                    rw [Option.map_eq_some_iff] at h
                    obtain ⟨⟨p, q'⟩, hp, hq⟩ := h
                    simp only [Prod.mk.injEq] at hq
                    obtain ⟨rfl, rfl⟩ := hq
                    obtain ⟨ts, h1, h2⟩ := ihm _ _ _ hp
                    exact ⟨_, .member k x p w1 w2 w3 t w4 ts hw1 k1 hw2 hw3 ht hw4 h1, by
                      rw [hs1, k2, hs2, hs3, hs4, h2, show ascii "\"" = [0x22] by decide, show ascii ":" = [0x3a] by decide, show ascii "," = [0x2c] by decide]; simp⟩
                  · cases h
          · cases h
    · cases h

theorem scan_sound : ∀ fuel, ScansValues (scanValue fuel) := by
  intro fuel
  induction fuel with
  | zero => intro s v r h; rw [scanValue] at h; cases h
  | succ fuel ihv =>
    intro s v r h
    obtain ⟨w, hw, hs⟩ := skipWs_split s
    rw [scanValue] at h
    generalize skipWs s = z at h hs
    have lit : ∀ (x : Json) (c : UInt8) (m q : Bytes) (k : Nat), m.length = k → Spec.JsonText (.value x) (c :: m) → z = c :: q → m.isPrefixOf q = true →
        some (x, q.drop k) = some (v, r) → ∃ w t, Spec.JsonWs w ∧ Spec.JsonText (.value v) t ∧ s = w ++ (t ++ r) := by
      intro x c m q k hk hx hz hp he
      simp only [Option.some.injEq, Prod.mk.injEq] at he
      obtain ⟨rfl, rfl⟩ := he
      refine ⟨w, c :: m, hw, hx, ?_⟩
      rw [List.isPrefixOf_iff_prefix] at hp
      obtain ⟨q', rfl⟩ := hp
      rw [hs, hz, ← hk, List.drop_left]; rfl
    match z, hs, h, lit with
    | [], hs, h, lit => cases h
    | c :: q, hs, h, lit =>
      simp only at h
      split at h
      · rename_i hc; subst hc
        split at h
        · rename_i hp
          exact lit .null 0x6e (ascii "ull") q 3 (by decide) .null rfl hp h
        · cases h
      split at h
      · rename_i hc; subst hc
        split at h
        · rename_i hp
          exact lit (.bool true) 0x74 (ascii "rue") q 3 (by decide) .true rfl hp h
        · cases h
      split at h
      · rename_i hc; subst hc
        split at h
        · rename_i hp
          exact lit (.bool false) 0x66 (ascii "alse") q 4 (by decide) .false rfl hp h
        · cases h
      split at h
      · rename_i hc; subst hc
        rw [Option.map_eq_some_iff] at h
        obtain ⟨⟨p, q'⟩, hp, hq⟩ := h
        simp only [Prod.mk.injEq] at hq
        obtain ⟨rfl, rfl⟩ := hq
        obtain ⟨h1, h2⟩ := scanStr_sound _ _ _ _ (le_refl _) hp
        refine ⟨w, _, hw, .str p h1, ?_⟩
        rw [hs, h2, show ascii "\"" = [0x22] by decide]; simp
      split at h
      · rename_i hc; subst hc
        obtain ⟨w0, hw0, hq0⟩ := skipWs_split q
        split at h
        · rename_i hh
          simp only [Option.some.injEq, Prod.mk.injEq] at h
          obtain ⟨rfl, rfl⟩ := h
          refine ⟨w, _, hw, .emptyArr w0 hw0, ?_⟩
          match hz : skipWs q, hh, hq0 with
          | [], hh, hq0 => cases hh
          | a :: q', hh, hq0 =>
            simp only [List.head?_cons, Option.some.injEq] at hh
            rw [hs, hq0, hh, show ascii "[" = [0x5b] by decide, show ascii "]" = [0x5d] by decide]; simp
        · rw [Option.map_eq_some_iff] at h
          obtain ⟨⟨p, q'⟩, hp, hq⟩ := h
          simp only [Prod.mk.injEq] at hq
          obtain ⟨rfl, rfl⟩ := hq
          obtain ⟨t, h1, h2⟩ := scanElems_sound ihv _ _ _ _ hp
          refine ⟨w, _, hw, .arr p t h1, ?_⟩
          rw [hs, h2, show ascii "[" = [0x5b] by decide, show ascii "]" = [0x5d] by decide]; simp
      split at h
      · rename_i hc; subst hc
        obtain ⟨w0, hw0, hq0⟩ := skipWs_split q
        split at h
        · rename_i hh
          simp only [Option.some.injEq, Prod.mk.injEq] at h
          obtain ⟨rfl, rfl⟩ := h
          refine ⟨w, _, hw, .emptyObj w0 hw0, ?_⟩
          match hz : skipWs q, hh, hq0 with
          | [], hh, hq0 => cases hh
          | a :: q', hh, hq0 =>
            simp only [List.head?_cons, Option.some.injEq] at hh
            rw [hs, hq0, hh, show ascii "{" = [0x7b] by decide, show ascii "}" = [0x7d] by decide]; simp
        · rw [Option.map_eq_some_iff] at h
          obtain ⟨⟨p, q'⟩, hp, hq⟩ := h
          simp only [Prod.mk.injEq] at hq
          obtain ⟨rfl, rfl⟩ := hq
          obtain ⟨t, h1, h2⟩ := scanMembers_sound ihv _ _ _ _ hp
          refine ⟨w, _, hw, .obj p t h1, ?_⟩
          rw [hs, h2, show ascii "{" = [0x7b] by decide, show ascii "}" = [0x7d] by decide]; simp
      · rw [Option.map_eq_some_iff] at h
        obtain ⟨⟨p, q'⟩, hp, hq⟩ := h
        simp only [Prod.mk.injEq] at hq
        obtain ⟨rfl, rfl⟩ := hq
        obtain ⟨h1, h2⟩ := scanNum_sound _ _ _ hp
        exact ⟨w, p, hw, .num p h1, by rw [hs, h2]⟩

theorem skipWs_nil (s : Bytes) : skipWs s = [] ↔ Spec.JsonWs s := by
  constructor
  · intro h
    obtain ⟨w, hw, hs⟩ := skipWs_split s
    rw [h, List.append_nil] at hs
    rw [hs]; exact hw
  · intro h
    have := skipWs_append s [] h
    rwa [List.append_nil] at this

/-- The parser accepts exactly the JSON texts, and gives the value. -/
theorem parseJson_iff (s : Bytes) (v : Json) : parseJson s = some v ↔ Spec.JsonDoc v s := by
  rw [parseJson]
  constructor
  · intro h
    split at h
    · rename_i x r hx
      split at h
      · rename_i hr
        cases h
        obtain ⟨w, t, hw, ht, hs⟩ := scan_sound _ _ _ _ hx
        exact ⟨w, t, r, hw, ht, (skipWs_nil r).1 hr, by rw [hs, List.append_assoc]⟩
      · cases h
    · cases h
  · rintro ⟨w, t, w', hw, ht, hw', rfl⟩
    have := scan_complete _ _ ht ((w ++ t ++ w').length + 1) w w' hw (by simp only [List.length_append]; omega) (numEnd_only w' hw')
    rw [← List.append_assoc] at this
    rw [this]
    simp only [(skipWs_nil w').2 hw', if_true]

end Gust

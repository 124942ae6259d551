import Verif.Lemmas.JsonReq
import Verif.Lemmas.LfsLock
import Verif.Spec.JsonReply

/-! # The texts that are written are JSON texts of the values -/

namespace Gust

/-- What `jsonText` writes between the quotation marks. -/
def rawText (c : Bytes) : Bytes := c.flatMap jsonByte

theorem jsonByte_small : ∀ n < 128,
    (jsonByte (UInt8.ofNat n) = [UInt8.ofNat n] ∧ 0x20 ≤ n ∧ n ≠ 0x22 ∧ n ≠ 0x5c) ∨
    (∃ p ∈ Spec.escapes, p.2 = n ∧ jsonByte (UInt8.ofNat n) = [0x5c, p.1]) ∨
    (∃ h1 ∈ ascii "01", ∃ h2 ∈ ascii "0123456789abcdef", jsonByte (UInt8.ofNat n) = [0x5c, 0x75, 0x30, 0x30, h1, h2] ∧ hexCharValue h1 = some (n / 16) ∧ hexCharValue h2 = some (n % 16)) := by
  decide +kernel

theorem jsonByte_big (b : UInt8) (h : 128 ≤ b.toNat) : jsonByte b = [b] := by
  have e : ∀ x : UInt8, x.toNat < 128 → b ≠ x := by rintro x hx rfl; omega
  rw [jsonByte, if_neg (e _ (by decide)), if_neg (e _ (by decide)), if_neg (e _ (by decide)), if_neg (e _ (by decide)), if_neg (e _ (by decide)), if_neg (e _ (by decide)),
    if_neg (e _ (by decide)), if_neg (by omega)]

theorem chars_plain (c raw : Bytes) (h : ∀ b ∈ c, 128 ≤ b.toNat) (hr : Spec.JsonChars raw) : Spec.JsonChars (c ++ raw) := by
  induction c with
  | nil => exact hr
  | cons b c ih =>
    have hb := h b (by simp)
    have e : ∀ x : UInt8, x.toNat < 128 → b ≠ x := by rintro x hx rfl; omega
    exact .plain b _ (by rw [UInt8.le_iff_toNat_le]; show 32 ≤ _; omega) (e _ (by decide)) (e _ (by decide)) (ih (fun x hx => h x (by simp [hx])))

/-- A text is written so that it reads as itself. -/
theorem rawText_reads (c : Bytes) (h : utf8Valid c = true) : Spec.JsonChars (rawText c) ∧ Spec.JsonReads (rawText c) c := by
  have : ∀ (k : Nat) (c : Bytes), c.length ≤ k → utf8Valid c = true → Spec.JsonChars (rawText c) ∧ Spec.JsonReads (rawText c) c := by
    intro k
    induction k with
    | zero =>
      intro c hk _
      have : c = [] := List.length_eq_zero_iff.1 (by omega)
      subst this
      exact ⟨.nil, .nil⟩
    | succ k ih =>
      intro c hk hv
      match c, hk, hv with
      | [], _, _ => exact ⟨.nil, .nil⟩
      | a :: s, hk, hv =>
        obtain ⟨n, x, r, hu, e, hr⟩ := utf8Valid_split a s hv
        have hlen : r.length ≤ k := by
          have h1 := congrArg List.length e
          obtain ⟨b, y, rfl, -⟩ := utf8_first n x hu
          simp only [List.length_cons, List.length_append] at h1 hk
          omega
        obtain ⟨ih1, ih2⟩ := ih r hlen hr
        rw [e]
        have hsplit : rawText (x ++ r) = rawText x ++ rawText r := by simp [rawText]
        rw [hsplit]
        rcases utf8_bytes n x hu with ⟨hn, rfl⟩ | ⟨hn, hb⟩
        · have hx : rawText [UInt8.ofNat n] = jsonByte (UInt8.ofNat n) := by simp [rawText]
          rw [hx]
          rcases jsonByte_small n hn with ⟨e1, e2, e3, e4⟩ | ⟨p, hp, rfl, e1⟩ | ⟨h1, m1, h2, m2, e1, e2, e3⟩
          · rw [e1]
            have ht := toNat_u8 (show n < 256 by omega)
            refine ⟨.plain _ _ (by rw [UInt8.le_iff_toNat_le, ht]; exact e2) (fun h => e3 (by rw [← ht, h]; rfl)) (fun h => e4 (by rw [← ht, h]; rfl)) ih1,
              .char n _ _ _ hu e2 e3 e4 ih2⟩
          · rw [e1]
            refine ⟨.esc _ _ ?_ ih1, .esc p.1 p.2 _ _ _ hp hu ih2⟩
            have : ∀ p ∈ Spec.escapes, p.1 ∈ ascii "\"\\/bfnrt" := by decide
            exact this p hp
          · rw [e1]
            have d1 := (hexDigit_iff _ _).2 e2
            have d2 := (hexDigit_iff _ _).2 e3
            have d0 : Spec.HexDigit 0x30 0 := (hexDigit_iff _ _).2 (by decide)
            refine ⟨.uni _ _ _ _ _ (hexDigit_hex _ _ d0) (hexDigit_hex _ _ d0) (hexDigit_hex _ _ d1) (hexDigit_hex _ _ d2) ih1, .uni n _ _ _ _ ?_ hu ih2⟩
            exact ⟨_, _, _, _, 0, 0, n / 16, n % 16, rfl, d0, d0, d1, d2, by omega⟩
        · have hx : rawText x = x := by
            clear hsplit hu e
            induction x with
            | nil => rfl
            | cons b x ihx =>
              have := ihx (fun y hy => hb y (by simp [hy]))
              rw [rawText, List.flatMap_cons, jsonByte_big b (hb b (by simp))]
              rw [rawText] at this
              rw [this]; rfl
          rw [hx]
          exact ⟨chars_plain x _ hb ih1, .char n x _ _ hu (by omega) (by omega) (by omega) ih2⟩
  exact this c.length c (le_refl _) h

theorem text_text (c : Bytes) (h : utf8Valid c = true) : Spec.JsonText (.value (.str (rawText c))) (jsonText c) := .str _ (rawText_reads c h).1

theorem text_is (c : Bytes) (h : utf8Valid c = true) : Spec.IsText (.str (rawText c)) c := ⟨_, rfl, (rawText_reads c h).2⟩

/-! ## Numbers -/

theorem decimal_decStr (n : Nat) : Spec.decimal (decStr n) = n := by
  have h1 := parseDigits_decStr n
  rw [parseDigits_decimal _ _ (fun b hb => by
    have := decStr_range n b hb
    simp only [UInt8.le_iff_toNat_le]; exact this)] at h1
  simpa [Spec.decimal] using h1

theorem decStr_digits (n : Nat) : Spec.JsonDigits (decStr n) ∧ ((decStr n).head? = some 0x30 → decStr n = ascii "0") := by
  refine ⟨⟨decStr_ne_nil n, fun b hb => ?_⟩, fun h => ?_⟩
  · have := decStr_range n b hb
    simp only [UInt8.le_iff_toNat_le]; exact this
  · have h0 : n = 0 := by
      refine toDigits_head (b := 10) (by decide) n ?_
      rw [decStr, List.head?_map, Option.map_eq_some_iff] at h
      obtain ⟨d, hd, e⟩ := h
      have hlt := toDigits_lt (b := 10) (by decide) n d (List.mem_of_head? hd)
      have : ∀ d < 10, digitChar d = 0x30 → d = 0 := by decide +kernel
      rw [hd, this d hlt e]
    rw [h0]; decide +kernel

theorem int_text (n : Int) (h : -2 ^ 63 ≤ n ∧ n < 2 ^ 63) : Spec.JsonText (.value (.num (jsonInt n))) (jsonInt n) ∧ Spec.IsInt (.num (jsonInt n)) n := by
  obtain ⟨h1, h2⟩ := decStr_digits n.natAbs
  by_cases hn : n < 0
  · have e : jsonInt n = ascii "-" ++ decStr n.natAbs := by rw [jsonInt, i64Str, if_pos hn, show ascii "-" = [45] by decide]; rfl
    rw [e]
    refine ⟨.num _ ⟨ascii "-", decStr n.natAbs, [], [], by simp, .inr rfl, ⟨h1, h2⟩, .inl rfl, .inl rfl⟩, h, decStr n.natAbs, h1, .inr ⟨rfl, ?_, ?_⟩⟩
    · rw [decimal_decStr]; omega
    · rw [decimal_decStr]; omega
  · have e : jsonInt n = decStr n.natAbs := by rw [jsonInt, i64Str, if_neg hn]
    rw [e]
    refine ⟨.num _ ⟨[], decStr n.natAbs, [], [], by simp, .inl rfl, ⟨h1, h2⟩, .inl rfl, .inl rfl⟩, h, decStr n.natAbs, h1, .inl ⟨rfl, ?_⟩⟩
    rw [decimal_decStr]; omega

/-! ## Arrays and objects -/

theorem intercalate_cons2 (a b c : Bytes) (l : List Bytes) : a.intercalate (b :: c :: l) = b ++ a ++ a.intercalate (c :: l) := by
  simp [List.intercalate, List.intersperse]

theorem ws_nil : Spec.JsonWs [] := by intro b hb; cases hb

theorem arr_text (l : List (Bytes × Json)) (h : ∀ m ∈ l, Spec.JsonText (.value m.2) m.1) : Spec.JsonText (.value (.arr (l.map Prod.snd))) (jsonArr (l.map Prod.fst)) := by
  have key : ∀ (m : Bytes × Json) (l : List (Bytes × Json)), (∀ x ∈ m :: l, Spec.JsonText (.value x.2) x.1) →
      Spec.JsonText (.elems ((m :: l).map Prod.snd)) ((ascii ",").intercalate ((m :: l).map Prod.fst)) := by
    intro m l
    induction l generalizing m with
    | nil =>
      intro h
      have := Spec.JsonText.lastElem m.2 [] m.1 [] ws_nil (h m (by simp)) ws_nil
      simpa [List.intercalate, List.intersperse] using this
    | cons x l ih =>
      intro h
      have := Spec.JsonText.elem m.2 _ [] m.1 [] _ ws_nil (h m (by simp)) ws_nil (ih x (fun y hy => h y (by simp only [List.mem_cons] at hy ⊢; exact .inr hy)))
      simp only [List.map_cons, intercalate_cons2] at this ⊢
      simpa using this
  cases l with
  | nil => exact .emptyArr [] ws_nil
  | cons m l => exact .arr _ _ (key m l h)

/-- The members with their names as they are written. -/
def rawMembers (ms : List (Bytes × Json)) : List (Bytes × Json) := ms.map (fun m => (rawText m.1, m.2))

theorem obj_text (ms : List (Bytes × Bytes × Json)) (h : ∀ m ∈ ms, utf8Valid m.1 = true ∧ Spec.JsonText (.value m.2.2) m.2.1) :
    Spec.JsonText (.value (.obj (rawMembers (ms.map (fun m => (m.1, m.2.2)))))) (jsonObj (ms.map (fun m => (m.1, m.2.1)))) := by
  have key : ∀ (m : Bytes × Bytes × Json) (l : List (Bytes × Bytes × Json)), (∀ x ∈ m :: l, utf8Valid x.1 = true ∧ Spec.JsonText (.value x.2.2) x.2.1) →
      Spec.JsonText (.members (rawMembers ((m :: l).map (fun m => (m.1, m.2.2)))))
        ((ascii ",").intercalate (((m :: l).map (fun m => (m.1, m.2.1))).map (fun m => jsonText m.1 ++ ascii ":" ++ m.2))) := by
    intro m l
    induction l generalizing m with
    | nil =>
      intro h
      have := Spec.JsonText.lastMember (rawText m.1) m.2.2 [] [] [] m.2.1 [] ws_nil (rawText_reads _ (h m (by simp)).1).1 ws_nil ws_nil (h m (by simp)).2 ws_nil
      simpa [List.intercalate, List.intersperse, rawMembers, jsonText, rawText] using this
    | cons x l ih =>
      intro h
      have := Spec.JsonText.member (rawText m.1) m.2.2 _ [] [] [] m.2.1 [] _ ws_nil (rawText_reads _ (h m (by simp)).1).1 ws_nil ws_nil (h m (by simp)).2 ws_nil
        (ih x (fun y hy => h y (by simp only [List.mem_cons] at hy ⊢; exact .inr hy)))
      simp only [List.map_cons, intercalate_cons2] at this ⊢
      simpa [rawMembers, jsonText, rawText] using this
  cases ms with
  | nil => exact .emptyObj [] ws_nil
  | cons m l => exact .obj _ _ (key m l h)

theorem reads_raw {c c' : Bytes} (h : utf8Valid c = true) : Spec.JsonReads (rawText c) c' ↔ c' = c :=
  ⟨fun h' => reads_unique h' (rawText_reads c h).2, fun e => e ▸ (rawText_reads c h).2⟩

theorem names_raw (ms : List (Bytes × Json)) (h : ∀ m ∈ ms, utf8Valid m.1 = true) : Spec.Names (rawMembers ms) := by
  intro m hm
  obtain ⟨x, hx, rfl⟩ := List.mem_map.1 hm
  exact ⟨x.1, (rawText_reads _ (h x hx)).2⟩

theorem lacks_raw (ms : List (Bytes × Json)) (h : ∀ m ∈ ms, utf8Valid m.1 = true) (k : Bytes) (hk : k ∉ ms.map Prod.fst) : Spec.Lacks (rawMembers ms) k := by
  intro m hm hr
  obtain ⟨x, hx, rfl⟩ := List.mem_map.1 hm
  exact hk (by rw [(reads_raw (h x hx)).1 hr]; exact List.mem_map_of_mem hx)

theorem says_raw (pre post : List (Bytes × Json)) (k : Bytes) (v : Json) (h : ∀ m ∈ pre ++ (k, v) :: post, utf8Valid m.1 = true) (hk : k ∉ (pre ++ post).map Prod.fst) :
    Spec.Says (rawMembers (pre ++ (k, v) :: post)) k v := by
  refine ⟨rawMembers pre, rawText k, rawMembers post, by simp [rawMembers], (rawText_reads k (h (k, v) (by simp))).2, ?_⟩
  have := lacks_raw (pre ++ post) (fun m hm => h m (by rcases List.mem_append.1 hm with hm | hm <;> simp [hm])) k hk
  simpa [rawMembers, Spec.Lacks] using this

/-- Names that are texts, none twice. -/
def GoodKeys (ks : List Bytes) : Prop := ks.Nodup ∧ ∀ k ∈ ks, utf8Valid k = true

theorem says_at {ks : List Bytes} (h : GoodKeys ks) {ms : List (Bytes × Json)} (i : Nat) {k : Bytes} {v : Json} (hi : ms[i]? = some (k, v)) (e : ms.map Prod.fst = ks := by rfl) :
    Spec.Says (rawMembers ms) k v := by
  subst e
  have hv : ∀ m ∈ ms, utf8Valid m.1 = true := fun m hm => h.2 _ (List.mem_map_of_mem hm)
  obtain ⟨pre, post, rfl⟩ := List.append_of_mem (List.mem_of_getElem? hi)
  refine says_raw pre post k v hv ?_
  have hn := h.1
  simp only [List.map_append, List.map_cons] at hn ⊢
  rw [List.nodup_append] at hn
  obtain ⟨-, h2, h3⟩ := hn
  rw [List.nodup_cons] at h2
  intro hk
  rcases List.mem_append.1 hk with hk | hk
  · exact h3 k hk k (by simp) rfl
  · exact h2.1 hk

theorem lacks_at {ks : List Bytes} (h : GoodKeys ks) {ms : List (Bytes × Json)} {k : Bytes} (hk : k ∉ ks) (e : ms.map Prod.fst = ks := by rfl) : Spec.Lacks (rawMembers ms) k := by
  subst e
  exact lacks_raw ms (fun _ hm => h.2 _ (List.mem_map_of_mem hm)) k hk

theorem names_at {ks : List Bytes} (h : GoodKeys ks) {ms : List (Bytes × Json)} (e : ms.map Prod.fst = ks := by rfl) : Spec.Names (rawMembers ms) := by
  subst e
  exact names_raw ms (fun _ hm => h.2 _ (List.mem_map_of_mem hm))

/-- An object with its text. -/
theorem obj_at (ms : List (Bytes × Bytes × Json)) (h : GoodKeys (ms.map Prod.fst)) (ht : ∀ m ∈ ms, Spec.JsonText (.value m.2.2) m.2.1) :
    Spec.JsonText (.value (.obj (rawMembers (ms.map (fun m => (m.1, m.2.2)))))) (jsonObj (ms.map (fun m => (m.1, m.2.1)))) :=
  obj_text ms (fun m hm => ⟨h.2 _ (List.mem_map_of_mem hm), ht m hm⟩)

end Gust

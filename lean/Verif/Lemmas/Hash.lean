import Verif.Model.MetaData
import Verif.Lemmas.Text
import Verif.Spec.Object

/-! # Facts about hashes and loose objects -/

namespace Gust

theorem hexChar_lower (c : UInt8) : hexCharValue (Spec.lower c) = hexCharValue c := by
  revert c; apply forall_byte; decide +kernel

theorem hexChar_isSome_iff (c : UInt8) : (hexCharValue c).isSome = decide (Spec.IsHexDigit c) := by
  revert c; apply forall_byte; decide +kernel

theorem hexChar_digit (c : UInt8) : ∀ d, hexCharValue c = some d → d < 16 ∧ digitChar d = Spec.lower c := by
  have : (match hexCharValue c with
      | some d => decide (d < 16) && digitChar d == Spec.lower c
      | none => true) = true := by
    revert c; apply forall_byte; decide +kernel
  intro d hd
  rw [hd] at this
  simpa using this

theorem hexByte_value (b : UInt8) :
    hexCharValue (digitChar (b.toNat / 16)) = some (b.toNat / 16) ∧
    hexCharValue (digitChar (b.toNat % 16)) = some (b.toNat % 16) ∧
    ((u8 (b.toNat / 16) <<< 4) ||| u8 (b.toNat % 16)) = b := by
  revert b; apply forall_byte; decide +kernel

theorem nibbles (x y : Nat) (hx : x < 16) (hy : y < 16) :
    ((u8 x <<< 4) ||| u8 y).toNat / 16 = x ∧ ((u8 x <<< 4) ||| u8 y).toNat % 16 = y := by
  have : ∀ a b : Fin 16, ((u8 a.val <<< 4) ||| u8 b.val).toNat / 16 = a.val ∧
      ((u8 a.val <<< 4) ||| u8 b.val).toNat % 16 = b.val := by decide +kernel
  exact this ⟨x, hx⟩ ⟨y, hy⟩

namespace Hash

theorem hexPairs_encode (bs : Bytes) : hexPairs (bs.flatMap hexByte) = some bs := by
  induction bs with
  | nil => rfl
  | cons b bs ih =>
    obtain ⟨h1, h2, h3⟩ := hexByte_value b
    simp only [List.flatMap_cons, hexByte, List.cons_append, List.nil_append] at ih ⊢
    simp only [hexPairs, h1, h2, h3, ih]

theorem hexPairs_some : ∀ {s bs : Bytes}, hexPairs s = some bs →
    bs.flatMap hexByte = s.map Spec.lower ∧ s.length = 2 * bs.length ∧ ∀ c ∈ s, Spec.IsHexDigit c
  | [], bs, h => by simp [hexPairs] at h; subst h; simp
  | [_], bs, h => by simp [hexPairs] at h
  | a :: b :: s, bs, h => by
    rw [hexPairs] at h
    cases ha : hexCharValue a with
    | none => simp [ha] at h
    | some x =>
      cases hb : hexCharValue b with
      | none => simp [ha, hb] at h
      | some y =>
        cases hs : hexPairs s with
        | none => simp [ha, hb, hs] at h
        | some cs =>
          simp [ha, hb, hs] at h
          subst h
          obtain ⟨h1, h2, h3⟩ := hexPairs_some hs
          obtain ⟨hx, hxa⟩ := hexChar_digit a x ha
          obtain ⟨hy, hyb⟩ := hexChar_digit b y hb
          obtain ⟨e1, e2⟩ := nibbles x y hx hy
          refine ⟨?_, by simp [h2]; omega, ?_⟩
          · simp only [List.flatMap_cons, h1, hexByte, e1, e2, hxa, hyb, List.map_cons,
              List.cons_append, List.nil_append]
          · intro c hc
            simp only [List.mem_cons] at hc
            rcases hc with rfl | rfl | hc
            · have := hexChar_isSome_iff c; rw [ha] at this; simpa using this.symm
            · have := hexChar_isSome_iff c; rw [hb] at this; simpa using this.symm
            · exact h3 c hc

theorem hexPairs_isSome : ∀ (s : Bytes), s.length % 2 = 0 → (∀ c ∈ s, Spec.IsHexDigit c) →
    ∃ bs, hexPairs s = some bs
  | [], _, _ => ⟨[], rfl⟩
  | [_], h, _ => by simp at h
  | a :: b :: s, h, hc => by
    obtain ⟨bs, hbs⟩ := hexPairs_isSome s (by simp at h; omega) (fun c hcs => hc c (by simp [hcs]))
    have ha := hexChar_isSome_iff a
    have hb := hexChar_isSome_iff b
    rw [decide_eq_true (hc a (by simp))] at ha
    rw [decide_eq_true (hc b (by simp))] at hb
    obtain ⟨x, hx⟩ := Option.isSome_iff_exists.1 ha
    obtain ⟨y, hy⟩ := Option.isSome_iff_exists.1 hb
    exact ⟨((u8 x <<< 4) ||| u8 y) :: bs, by simp only [hexPairs, hx, hy, hbs]⟩

theorem hexPairs_lower : ∀ (s : Bytes), hexPairs (s.map Spec.lower) = hexPairs s
  | [] => rfl
  | [_] => rfl
  | a :: b :: s => by simp [hexPairs, hexChar_lower, hexPairs_lower s]

theorem toPlainStr_length (h : Hash) : (toPlainStr h).length = 40 := by
  have : ∀ bs : Bytes, (bs.flatMap hexByte).length = 2 * bs.length := by
    intro bs
    induction bs with
    | nil => rfl
    | cons b bs ih => simp [List.flatMap_cons, hexByte] at *; omega
  rw [toPlainStr, this, h.2]

theorem fromBytes_toPlainStr (h : Hash) : fromBytes (toPlainStr h) = some h := by
  rw [fromBytes, toPlainStr, hexPairs_encode]
  simp [h.2]

theorem fromBytes_some {s : Bytes} {h : Hash} (hs : fromBytes s = some h) :
    toPlainStr h = s.map Spec.lower ∧ s.length = 40 ∧ ∀ c ∈ s, Spec.IsHexDigit c := by
  rw [fromBytes] at hs
  cases hp : hexPairs s with
  | none => simp [hp] at hs
  | some bs =>
    simp only [hp] at hs
    by_cases hl : bs.length = 20
    · simp only [hl, dite_true, Option.some.injEq] at hs
      obtain ⟨h1, h2, h3⟩ := hexPairs_some hp
      subst hs
      exact ⟨h1, by omega, h3⟩
    · simp [hl] at hs

theorem fromBytes_isSome (s : Bytes) (hl : s.length = 40) (hc : ∀ c ∈ s, Spec.IsHexDigit c) :
    ∃ h, fromBytes s = some h := by
  obtain ⟨bs, hbs⟩ := hexPairs_isSome s (by omega) hc
  have := (hexPairs_some hbs).2.1
  exact ⟨⟨bs, by omega⟩, by simp [fromBytes, hbs, (by omega : bs.length = 20)]⟩

theorem toPlainStr_injective {a b : Hash} (h : toPlainStr a = toPlainStr b) : a = b := by
  have := fromBytes_toPlainStr a
  rw [h, fromBytes_toPlainStr] at this
  exact (Option.some.inj this).symm

/-- printed ids consist of digits and `a-f` -/
theorem toPlainStr_range (h : Hash) : ∀ c ∈ toPlainStr h, (48 ≤ c.toNat ∧ c.toNat ≤ 57) ∨
    (97 ≤ c.toNat ∧ c.toNat ≤ 102) := by
  intro c hc
  simp only [toPlainStr, List.mem_flatMap, hexByte, List.mem_cons, List.not_mem_nil, or_false] at hc
  obtain ⟨b, _, rfl | rfl⟩ := hc
  · exact digitChar_range _ (by have := b.toNat_lt; omega)
  · exact digitChar_range _ (by omega)

end Hash

/-! ## object header -/

/-- the header `name SP decimal NUL` can be cut off unambiguously -/
theorem header_split {n1 n2 d1 d2 x1 x2 : Bytes} (hn1 : (0x20 : UInt8) ∉ n1) (hn2 : (0x20 : UInt8) ∉ n2)
    (hd1 : (0 : UInt8) ∉ d1) (hd2 : (0 : UInt8) ∉ d2)
    (h : n1 ++ [0x20] ++ d1 ++ [0] ++ x1 = n2 ++ [0x20] ++ d2 ++ [0] ++ x2) :
    n1 = n2 ∧ d1 = d2 ∧ x1 = x2 := by
  simp only [List.append_assoc, List.cons_append, List.nil_append] at h
  have e1 := findByte_append 0x20 n1 (d1 ++ 0 :: x1) hn1
  have e2 := findByte_append 0x20 n2 (d2 ++ 0 :: x2) hn2
  rw [h, e2] at e1
  obtain ⟨hn, h'⟩ := List.append_inj h (Option.some.inj e1).symm
  simp only [List.cons.injEq, true_and] at h'
  have e1 := findByte_append 0 d1 x1 hd1
  have e2 := findByte_append 0 d2 x2 hd2
  rw [h', e2] at e1
  obtain ⟨hd, h''⟩ := List.append_inj h' (Option.some.inj e1).symm
  simp only [List.cons.injEq, true_and] at h''
  exact ⟨hn, hd, h''⟩

theorem zero_notin_decStr (n : Nat) : (0 : UInt8) ∉ decStr n := by
  intro h
  have := decStr_range n _ h
  simp at this

theorem space_notin_decStr (n : Nat) : (0x20 : UInt8) ∉ decStr n := by
  intro h
  have := decStr_range n _ h
  simp at this

theorem toBytes_nospace (t : ObjectType) : (0x20 : UInt8) ∉ t.toBytes ∧ (0 : UInt8) ∉ t.toBytes := by
  cases t <;> decide

theorem preimage_eq (t : ObjectType) (data p : Bytes) (h : Hash.preimage t data = .ok p) :
    p = t.toBytes ++ [0x20] ++ decStr data.length ++ [0] ++ data ∧
      (t = .commit ∨ t = .tree ∨ t = .blob ∨ t = .tag) := by
  have e1 : ascii "commit" = ObjectType.toBytes .commit := by decide
  have e2 : ascii "tree" = ObjectType.toBytes .tree := by decide
  have e3 : ascii "blob" = ObjectType.toBytes .blob := by decide
  have e4 : ascii "tag" = ObjectType.toBytes .tag := by decide
  have e5 : ascii " " = [0x20] := by decide
  cases t <;> simp only [Hash.preimage, Res.ok.injEq, reduceCtorEq, e1, e2, e3, e4, e5] at h
  all_goals (subst h; simp)

/-- the four types that have an id -/
def ObjectType.isBase : ObjectType → Bool
  | .commit | .tree | .blob | .tag => true
  | _ => false

theorem preimage_base (t : ObjectType) (data : Bytes) (h : t.isBase = true) :
    Hash.preimage t data = .ok (t.toBytes ++ [0x20] ++ decStr data.length ++ [0] ++ data) := by
  have e1 : ascii "commit" = ObjectType.toBytes .commit := by decide
  have e2 : ascii "tree" = ObjectType.toBytes .tree := by decide
  have e3 : ascii "blob" = ObjectType.toBytes .blob := by decide
  have e4 : ascii "tag" = ObjectType.toBytes .tag := by decide
  have e5 : ascii " " = [0x20] := by decide
  cases t <;> simp_all [Hash.preimage, ObjectType.isBase]

theorem toBytes_inj {a b : ObjectType} (ha : a.isBase = true) (h : a.toBytes = b.toBytes) : a = b := by
  cases a <;> cases b <;> first | rfl | (exact absurd ha (by decide)) | (exact absurd h (by decide))

theorem new_base (X : Ext) (t : ObjectType) (data : Bytes) (h : t.isBase = true) :
    MetaData.new X t data = .ok
      { t := t, id := X.sha1 (t.toBytes ++ [0x20] ++ decStr data.length ++ [0] ++ data),
        size := data.length, data := data, deltaHeader := [] } := by
  simp [MetaData.new, Hash.fromMeta, preimage_base t data h]

theorem new_ok {X : Ext} {t : ObjectType} {data : Bytes} {m : MetaData}
    (h : MetaData.new X t data = .ok m) :
    t.isBase = true ∧ m.t = t ∧ m.data = data ∧ m.size = data.length ∧ m.deltaHeader = [] ∧
      m.id = X.sha1 (t.toBytes ++ [0x20] ++ decStr data.length ++ [0] ++ data) := by
  have hb : t.isBase = true := by
    cases t <;> first | rfl | simp [MetaData.new, Hash.fromMeta, Hash.preimage] at h
  rw [new_base X t data hb] at h
  cases h
  simp [hb]

/-! ## decimal notation -/

theorem toDigits_head {b : Nat} (hb : 2 ≤ b) (n : Nat) : (toDigits b n).head? = some 0 → n = 0 := by
  induction n using Nat.strongRecOn with
  | _ n ih =>
    rw [toDigits]
    by_cases h : n < b
    · simp [h]
    · have h' : ¬ (n < b ∨ b < 2) := by omega
      simp only [h', dite_false]
      intro hh
      have hne := toDigits_ne_nil b (n / b)
      rw [List.head?_append, List.head?_eq_some_head hne, Option.some_or, ← List.head?_eq_some_head hne] at hh
      have h0 := ih (n / b) (Nat.div_lt_self (by omega) (by omega)) hh
      have := Nat.div_eq_zero_iff.1 h0
      omega

theorem digitChar_eq_zero : ∀ d < 16, digitChar d = 48 → d = 0 := by decide

theorem foldl_parse (s : Bytes) (h : ∀ c ∈ s, 48 ≤ c.toNat ∧ c.toNat ≤ 57) : ∀ acc,
    parseDigits decCharValue 10 acc s = some (s.foldl (fun a c => 10 * a + (c.toNat - 48)) acc) := by
  induction s with
  | nil => intro acc; rfl
  | cons c s ih =>
    intro acc
    have hc := h c (by simp)
    rw [parseDigits]
    simp only [decCharValue, hc, and_self, if_true]
    rw [ih (fun x hx => h x (by simp [hx]))]
    simp [Nat.mul_comm]

theorem decStr_isDecimal (n : Nat) : Spec.IsDecimal (decStr n) n := by
  refine ⟨decStr_ne_nil n, decStr_range n, ?_, ?_⟩
  · intro h
    have h0 : (toDigits 10 n).head? = some 0 := by
      have hne := toDigits_ne_nil 10 n
      cases hd : toDigits 10 n with
      | nil => exact absurd hd hne
      | cons d ds =>
        have hlt := toDigits_lt (b := 10) (by omega) n d (by rw [hd]; simp)
        simp [decStr, hd] at h
        have := digitChar_eq_zero d (by omega) h
        simp [this]
    have := toDigits_head (by omega) n h0
    subst this
    simp [decStr, toDigits]; decide
  · have h1 := parseDigits_toDigits (b := 10) (by omega) digitChar_dec n
    have h2 := foldl_parse (decStr n) (decStr_range n) 0
    rw [decStr] at h2
    rw [h1] at h2
    exact (Option.some.inj h2).symm

/-! ## loose objects -/

theorem slice_mid {α : Type} (a b c : List α) : slice (a ++ (b ++ c)) a.length (a.length + b.length) = .ok b := by
  have h : a.length ≤ a.length + b.length ∧ a.length + b.length ≤ (a ++ (b ++ c)).length := by
    simp
  rw [slice, if_pos h]
  congr 1
  rw [← List.append_assoc, List.take_append_of_le_length (by simp)]
  rw [List.take_of_length_le (by simp)]
  simp

theorem slice_zero {α : Type} (a c : List α) : slice (a ++ c) 0 a.length = .ok a := by
  have h : 0 ≤ a.length ∧ a.length ≤ (a ++ c).length := by simp
  rw [slice, if_pos h]
  simp

theorem sliceFrom_append {α : Type} (a c : List α) (n : Nat) (h : n = a.length) :
    sliceFrom (a ++ c) n = .ok c := by
  subst h; simp [sliceFrom]

theorem parseLoose_looseBytes (X : Ext) (t : ObjectType) (data : Bytes) (hb : t.isBase = true)
    (hl : data.length < U64) :
    MetaData.parseLoose X (t.toBytes ++ [0x20] ++ decStr data.length ++ [0] ++ data) =
      MetaData.new X t data := by
  have hsp := (toBytes_nospace t).1
  have hz := (toBytes_nospace t).2
  have hdz := zero_notin_decStr data.length
  have e0 : t.toBytes ++ [0x20] ++ decStr data.length ++ [0] ++ data
      = t.toBytes ++ 0x20 :: (decStr data.length ++ 0 :: data) := by simp
  have f1 : findByte 0x20 (t.toBytes ++ [0x20] ++ decStr data.length ++ [0] ++ data)
      = some t.toBytes.length := by rw [e0]; exact findByte_append _ _ _ hsp
  have hz' : (0 : UInt8) ∉ t.toBytes ++ [0x20] ++ decStr data.length := by
    simp only [List.mem_append, List.mem_singleton, not_or]
    exact ⟨⟨hz, by decide⟩, hdz⟩
  have f2 : findByte 0 (t.toBytes ++ [0x20] ++ decStr data.length ++ [0] ++ data)
      = some (t.toBytes.length + 1 + (decStr data.length).length) := by
    have := findByte_append 0 (t.toBytes ++ [0x20] ++ decStr data.length) data hz'
    simpa [Nat.add_assoc, Nat.add_comm 1] using this
  have s1 : slice (t.toBytes ++ [0x20] ++ decStr data.length ++ [0] ++ data) 0 t.toBytes.length
      = .ok t.toBytes := by rw [e0]; exact slice_zero _ _
  have s2 : slice (t.toBytes ++ [0x20] ++ decStr data.length ++ [0] ++ data) (t.toBytes.length + 1)
      (t.toBytes.length + 1 + (decStr data.length).length) = .ok (decStr data.length) := by
    have := slice_mid (t.toBytes ++ [0x20]) (decStr data.length) ([0] ++ data)
    simpa using this
  have s3 : sliceFrom (t.toBytes ++ [0x20] ++ decStr data.length ++ [0] ++ data)
      (t.toBytes.length + 1 + (decStr data.length).length + 1) = .ok data := by
    apply sliceFrom_append; simp; omega
  simp only [MetaData.parseLoose, f1, f2, s1, s2, s3, Res.unwrapOpt_some, Res.bind_ok,
    parseUsize_decStr _ hl]
  have hu : utf8Valid t.toBytes = true := by cases t <;> decide
  simp only [hu, Bool.not_true, Bool.false_eq_true, if_false]
  cases t
  · have h1 : ¬ ObjectType.toBytes .commit = ascii "blob" := by decide
    have h2 : ¬ ObjectType.toBytes .commit = ascii "tree" := by decide
    have h3 : ObjectType.toBytes .commit = ascii "commit" := by decide
    rw [if_neg h1, if_neg h2, if_pos h3]
  · have h1 : ¬ ObjectType.toBytes .tree = ascii "blob" := by decide
    have h2 : ObjectType.toBytes .tree = ascii "tree" := by decide
    rw [if_neg h1, if_pos h2]
  · have h1 : ObjectType.toBytes .blob = ascii "blob" := by decide
    rw [if_pos h1]
  · have h1 : ¬ ObjectType.toBytes .tag = ascii "blob" := by decide
    have h2 : ¬ ObjectType.toBytes .tag = ascii "tree" := by decide
    have h3 : ¬ ObjectType.toBytes .tag = ascii "commit" := by decide
    have h4 : ObjectType.toBytes .tag = ascii "tag" := by decide
    rw [if_neg h1, if_neg h2, if_neg h3, if_pos h4]
  · simp [ObjectType.isBase] at hb
  · simp [ObjectType.isBase] at hb

/-- the part of the path in front of a pushed component -/
def pathPre (p : Bytes) : Bytes := if p = [] ∨ p.getLast? = some 0x2f then p else p ++ [0x2f]

theorem pathPush_eq (p c : Bytes) : MetaData.pathPush p c = pathPre p ++ c := by
  unfold MetaData.pathPush pathPre; split <;> simp

theorem loosePath_eq (root : Bytes) (id : Hash) :
    MetaData.loosePath root id = pathPre root ++ Hash.toFolder id ++ [0x2f] ++ Hash.toFilename id := by
  have hlen : (Hash.toFolder id).length = 2 := by simp [Hash.toFolder, Hash.toPlainStr_length]
  have hne : Hash.toFolder id ≠ [] := by intro h; rw [h] at hlen; simp at hlen
  have hlast : (Hash.toFolder id).getLast? ≠ some 0x2f := by
    intro h
    have hm := List.mem_of_getLast? h
    have := Hash.toPlainStr_range id _ (List.mem_of_mem_take hm)
    simp at this
  rw [MetaData.loosePath, pathPush_eq, pathPush_eq]
  congr 1
  rw [pathPre, if_neg]
  simp only [not_or]
  constructor
  · simp [hne]
  · rw [List.getLast?_append]
    cases hg : (Hash.toFolder id).getLast? with
    | none => exact absurd (List.getLast?_eq_none_iff.1 hg) hne
    | some x => rw [hg] at hlast; simpa using hlast

theorem loosePath_injective {root : Bytes} {a b : Hash}
    (h : MetaData.loosePath root a = MetaData.loosePath root b) : a = b := by
  rw [loosePath_eq, loosePath_eq] at h
  simp only [List.append_assoc] at h
  have h := List.append_cancel_left h
  have ha : (Hash.toFolder a).length = 2 := by simp [Hash.toFolder, Hash.toPlainStr_length]
  have hb : (Hash.toFolder b).length = 2 := by simp [Hash.toFolder, Hash.toPlainStr_length]
  obtain ⟨h1, h2⟩ := List.append_inj h (by omega)
  have h2 := List.append_cancel_left h2
  apply Hash.toPlainStr_injective
  rw [← List.take_append_drop 2 (Hash.toPlainStr a), ← List.take_append_drop 2 (Hash.toPlainStr b)]
  exact congr (congrArg _ h1) h2

end Gust

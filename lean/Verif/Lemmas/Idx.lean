import Verif.Lemmas.Decoded
import Verif.Model.Idx
import Verif.Lemmas.Bits

/-! # Reading back an index file -/

namespace Gust.Idx

theorem slice_mid {α : Type} (a b c : List α) (i j : Nat) (hi : i = a.length) (hj : j = i + b.length) :
    slice (a ++ (b ++ c)) i j = .ok b := by
  subst hi hj
  rw [slice, if_pos (by simp only [List.length_append]; omega)]
  rw [← List.append_assoc, List.take_left' (by simp), List.drop_left' rfl]

theorem sliceLoop_flatten (w : Nat) : ∀ (l : List Bytes) (pre post : Bytes) (i : Nat), i = pre.length →
    (∀ x ∈ l, x.length = w) → sliceLoop (pre ++ (l.flatten ++ post)) w l.length i = .ok l := by
  intro l
  induction l with
  | nil => intro pre post i _ _; rfl
  | cons x l ih =>
    intro pre post i hi hw
    have hx := hw x (by simp)
    have e : pre ++ ((x :: l).flatten ++ post) = pre ++ (x ++ (l.flatten ++ post)) := by simp
    rw [List.length_cons, sliceLoop, e, slice_mid pre x _ i _ hi (by rw [hx])]
    simp only [Res.bind_ok]
    have := ih (pre ++ x) post (i + w) (by rw [List.length_append, hx, hi]) (fun y hy => hw y (List.mem_cons_of_mem _ hy))
    rw [List.append_assoc] at this
    rw [this]
    rfl

theorem rowsToHashes_val (hs : List Hash) : rowsToHashes (hs.map Subtype.val) = .ok hs := by
  induction hs with
  | nil => rfl
  | cons h hs ih =>
    rw [List.map_cons, rowsToHashes, Hash.fromRow, dif_pos h.2]
    simp only [Res.bind_ok, ih]
    rfl

theorem beNat_u32Vec (n : Nat) (h : n < 2 ^ 32) : beNat (u32Vec n) = n := by
  simp only [u32Vec, and_ff, Nat.shiftRight_eq_div_pow, beNat, List.foldl_cons, List.foldl_nil, u8_toNat]
  omega

theorem u32Vec_length (n : Nat) : (u32Vec n).length = 4 := rfl

/-! ## Counting -/

/-- The first byte of an id. -/
def first (h : Hash) : Nat := (h.1.headD 0).toNat

theorem countFirst_eq (hs : List Hash) (f : Nat → Nat) (i : Nat) :
    countFirst hs f i = f i + hs.countP (fun h => first h = i) := by
  induction hs generalizing f with
  | nil => simp [countFirst]
  | cons h hs ih =>
    rw [countFirst, ih, List.countP_cons]
    have hd : (h.1.headD 0).toNat = first h := rfl
    simp only [hd]
    by_cases e : i = first h
    · rw [if_pos e, if_pos (decide_eq_true e.symm)]; omega
    · rw [if_neg e, if_neg (fun e' => e (of_decide_eq_true e').symm)]; omega

theorem countP_succ (hs : List Hash) (i : Nat) :
    hs.countP (fun h => decide (first h < i + 1)) =
      hs.countP (fun h => decide (first h < i)) + hs.countP (fun h => decide (first h = i)) := by
  induction hs with
  | nil => rfl
  | cons h hs ih =>
    simp only [List.countP_cons, ih, decide_eq_true_eq]
    by_cases h1 : first h < i
    · rw [if_pos h1, if_pos (by omega), if_neg (by omega)]; omega
    · by_cases h2 : first h = i
      · rw [if_neg h1, if_pos (by omega), if_pos h2]; omega
      · rw [if_neg h1, if_neg (by omega), if_neg h2]; omega

theorem fanSums_eq (hs : List Hash) : ∀ (k i : Nat),
    fanSums (countFirst hs (fun _ => 0)) k i (hs.countP (fun h => decide (first h < i))) =
      (List.range' i k).map (fun j => hs.countP (fun h => decide (first h < j + 1))) := by
  intro k
  induction k with
  | zero => intro i; rfl
  | succ k ih =>
    intro i
    rw [fanSums, List.range'_succ, List.map_cons]
    have e : hs.countP (fun h => decide (first h < i)) + countFirst hs (fun _ => 0) i =
        hs.countP (fun h => decide (first h < i + 1)) := by
      rw [countFirst_eq, countP_succ]; omega
    rw [e, ih]

theorem countP_lt_zero (hs : List Hash) : hs.countP (fun h => decide (first h < 0)) = 0 := by
  simp

theorem countP_lt_256 (hs : List Hash) : hs.countP (fun h => decide (first h < 256)) = hs.length := by
  rw [List.countP_eq_length]
  intro h _
  exact decide_eq_true (h.1.headD 0).toNat_lt

/-! ## The fan-out table -/

/-- Counts by prefix after reading entries `0 … i-1` of the table of `hs`. -/
def prefixMap (hs : List Hash) (f : Bytes → Option Nat) : Nat → Bytes → Option Nat
  | 0 => f
  | i + 1 => fun k =>
    if hs.countP (fun h => decide (first h = i)) ≠ 0 ∧ k = sha1Prefix i then some (hs.countP (fun h => decide (first h = i)))
    else prefixMap hs f i k

theorem fanLoop_table (hs : List Hash) (hlen : hs.length < 2 ^ 32) (post : Bytes) (f : Bytes → Option Nat) (num : Nat) :
    ∀ (k i : Nat) (pre : Bytes), pre.length = 8 + 4 * i → ∀ st : FanState,
      st.n = hs.countP (fun h => decide (first h < i)) → st.mapOfPrefix = prefixMap hs f i →
      st.numberOfObjects = (if st.n = 0 then num else st.n) →
      ∃ st', fanLoop (pre ++ ((((List.range' i k).map (fun j => hs.countP (fun h => decide (first h < j + 1)))).map
          u32Vec).flatten ++ post)) k (8 + 4 * i) st = .ok st' ∧
        st'.n = hs.countP (fun h => decide (first h < i + k)) ∧ st'.mapOfPrefix = prefixMap hs f (i + k) ∧
        st'.numberOfObjects = (if st'.n = 0 then num else st'.n) := by
  intro k
  induction k with
  | zero => intro i pre hp st h1 h2 h3; exact ⟨st, rfl, h1, h2, h3⟩
  | succ k ih =>
    intro i pre hp st h1 h2 h3
    rw [List.range'_succ]
    simp only [List.map_cons, List.flatten_cons, List.append_assoc]
    have hc : hs.countP (fun h => decide (first h < i + 1)) < 2 ^ 32 := Nat.lt_of_le_of_lt List.countP_le_length hlen
    have hs1 := countP_succ hs i
    set tail := (((List.range' (i + 1) k).map (fun j => hs.countP (fun h => decide (first h < j + 1)))).map
      u32Vec).flatten with htail
    set cnt := hs.countP (fun h => decide (first h < i + 1)) with hcnt
    have hsl : slice (pre ++ (u32Vec cnt ++ (tail ++ post))) (8 + 4 * i) (8 + 4 * i + 4) = .ok (u32Vec cnt) :=
      slice_mid _ _ _ _ _ hp.symm rfl
    have hstep : ∃ st1, fanStep (pre ++ (u32Vec cnt ++ (tail ++ post))) (8 + 4 * i) st = .ok st1 ∧ st1.n = cnt ∧
        st1.mapOfPrefix = prefixMap hs f (i + 1) ∧ st1.numberOfObjects = (if st1.n = 0 then num else st1.n) := by
      rw [fanStep, hsl]
      simp only [Res.bind_ok, beNat_u32Vec _ hc]
      by_cases e : cnt = st.n
      · rw [if_pos e]
        refine ⟨st, rfl, e.symm, ?_, h3⟩
        rw [h2]
        funext key
        simp only [prefixMap]
        rw [if_neg]
        rintro ⟨hne, _⟩
        exact hne (by omega)
      · rw [if_neg e, if_neg (by omega)]
        refine ⟨_, rfl, rfl, ?_, ?_⟩
        · funext key
          have e1 : (8 + 4 * i - 8) / 4 = i := by omega
          have e2 : cnt - st.n = hs.countP (fun h => decide (first h = i)) := by omega
          simp only [e1, e2, h2]
          rw [prefixMap]
          have hne : hs.countP (fun h => decide (first h = i)) ≠ 0 := by omega
          simp only [hne, ne_eq, not_false_eq_true, true_and]
        · simp only
          rw [if_neg (by omega)]
    obtain ⟨st1, g1, g2, g3, g4⟩ := hstep
    rw [fanLoop, g1]
    simp only [Res.bind_ok]
    have hp' : (pre ++ u32Vec cnt).length = 8 + 4 * (i + 1) := by
      rw [List.length_append, u32Vec_length]; omega
    obtain ⟨st', q1, q2, q3, q4⟩ := ih (i + 1) (pre ++ u32Vec cnt) hp' st1 g2 g3 g4
    rw [List.append_assoc] at q1
    refine ⟨st', q1, ?_, ?_, q4⟩
    · rw [q2]; congr 2; funext h; congr 1; simp only [eq_iff_iff]; omega
    · rw [q3]; congr 1; omega

theorem sums_flatten_length (l : List Nat) : (l.map u32Vec).flatten.length = 4 * l.length := by
  induction l with
  | nil => rfl
  | cons a l ih =>
    simp only [List.map_cons, List.flatten_cons, List.length_append, u32Vec_length, ih, List.length_cons]; omega

theorem flatten_length_const (w : Nat) (l : List Bytes) (h : ∀ x ∈ l, x.length = w) : l.flatten.length = w * l.length := by
  induction l with
  | nil => simp
  | cons a l ih =>
    simp only [List.flatten_cons, List.length_append, List.length_cons, h a (by simp),
      ih (fun x hx => h x (List.mem_cons_of_mem _ hx))]
    ring

/-- Decoding a file laid out as `encode` does. -/
theorem decode_layout (hs : List Hash) (crcs offs : List Bytes) (sig sha : Hash) (hlen : hs.length < 2 ^ 32)
    (hc : crcs.length = hs.length) (ho : offs.length = hs.length) (hc4 : ∀ x ∈ crcs, x.length = 4)
    (ho4 : ∀ x ∈ offs, x.length = 4) (self : Idx) :
    ∃ d, decode self ([255, 116, 79, 99] ++ [0, 0, 0, 2] ++
        ((fanSums (countFirst hs (fun _ => 0)) 256 0 0).map u32Vec).flatten ++ (hs.map Subtype.val).flatten ++
        crcs.flatten ++ offs.flatten ++ sig.1 ++ sha.1) = .ok d ∧
      d.version = 2 ∧ d.idxItems = self.idxItems ++ mkItems hs crcs offs ∧ d.packSignature = sig ∧ d.idxSignature = sha ∧
      d.mapOfPrefix = prefixMap hs self.mapOfPrefix 256 ∧
      d.numberOfObjects = (if hs.length = 0 then self.numberOfObjects else hs.length) ∧
      d.itemHash = fillItemHash d.idxItems 0 self.itemHash := by
  have hf := fanSums_eq hs 256 0
  rw [countP_lt_zero] at hf
  rw [hf]
  set T := ((List.range' 0 256).map (fun j => hs.countP (fun h => decide (first h < j + 1)))).map u32Vec with hT
  have hTl : T.flatten.length = 1024 := by
    rw [hT, sums_flatten_length, List.length_map, List.length_range']
  have hHl : (hs.map Subtype.val).flatten.length = 20 * hs.length := by
    rw [flatten_length_const 20 _ (by intro x hx; obtain ⟨h, _, rfl⟩ := List.mem_map.1 hx; exact h.2), List.length_map]
  have hCl : crcs.flatten.length = 4 * hs.length := by rw [flatten_length_const 4 _ hc4, hc]
  have hOl : offs.flatten.length = 4 * hs.length := by rw [flatten_length_const 4 _ ho4, ho]
  set H := hs.map Subtype.val with hH
  have hHn : H.length = hs.length := by rw [hH, List.length_map]
  simp only [List.append_assoc]
  set A : Bytes := [255, 116, 79, 99] with hA
  set B : Bytes := [0, 0, 0, 2] with hB
  have lA : A.length = 4 := rfl
  have lB : B.length = 4 := rfl
  have s1 : slice (A ++ (B ++ (T.flatten ++ (H.flatten ++ (crcs.flatten ++ (offs.flatten ++ (sig.1 ++ sha.1))))))) 0 4 = .ok A :=
    slice_mid [] A _ 0 4 rfl rfl
  have s2 : slice (A ++ (B ++ (T.flatten ++ (H.flatten ++ (crcs.flatten ++ (offs.flatten ++ (sig.1 ++ sha.1))))))) 4 8 = .ok B :=
    slice_mid A B _ 4 8 rfl rfl
  obtain ⟨st, s3, s4, s5, s6⟩ := fanLoop_table hs hlen (H.flatten ++ (crcs.flatten ++ (offs.flatten ++ (sig.1 ++ sha.1))))
    self.mapOfPrefix self.numberOfObjects 256 0 (A ++ B) rfl
    { n := 0, numberOfObjects := self.numberOfObjects, mapOfPrefix := self.mapOfPrefix } (by rw [countP_lt_zero]) rfl rfl
  rw [← hT, List.append_assoc] at s3
  simp only [Nat.zero_add] at s4 s5
  rw [countP_lt_256] at s4
  have s7 := sliceLoop_flatten 20 H (A ++ (B ++ T.flatten)) (crcs.flatten ++ (offs.flatten ++ (sig.1 ++ sha.1))) 1032
    (by simp only [List.length_append, lA, lB, hTl]) (by intro x hx; obtain ⟨h, _, rfl⟩ := List.mem_map.1 hx; exact h.2)
  have s8 := sliceLoop_flatten 4 crcs (A ++ (B ++ (T.flatten ++ H.flatten))) (offs.flatten ++ (sig.1 ++ sha.1))
    (1032 + 20 * hs.length) (by simp only [List.length_append, lA, lB, hTl, hHl]; omega) hc4
  have s9 := sliceLoop_flatten 4 offs (A ++ (B ++ (T.flatten ++ (H.flatten ++ crcs.flatten)))) (sig.1 ++ sha.1)
    (1032 + 20 * hs.length + 4 * hs.length) (by simp only [List.length_append, lA, lB, hTl, hHl, hCl]; omega) ho4
  have s10 := slice_mid (A ++ (B ++ (T.flatten ++ (H.flatten ++ (crcs.flatten ++ offs.flatten))))) sig.1 sha.1
    (1032 + 20 * hs.length + 4 * hs.length + 4 * hs.length) (1032 + 20 * hs.length + 4 * hs.length + 4 * hs.length + 20)
    (by simp only [List.length_append, lA, lB, hTl, hHl, hCl, hOl]; omega) (by rw [sig.2])
  rw [hHn] at s7
  rw [hc] at s8
  rw [ho] at s9
  simp only [List.append_assoc] at s7 s8 s9 s10
  have s11 : sliceFrom (A ++ (B ++ (T.flatten ++ (H.flatten ++ (crcs.flatten ++ (offs.flatten ++ (sig.1 ++ sha.1)))))))
      (1032 + 20 * hs.length + 4 * hs.length + 4 * hs.length + 20) = .ok sha.1 := by
    rw [sliceFrom, if_pos (by simp only [List.length_append, lA, lB, hTl, hHl, hCl, hOl, sig.2]; omega)]
    congr 1
    have e : A ++ (B ++ (T.flatten ++ (H.flatten ++ (crcs.flatten ++ (offs.flatten ++ (sig.1 ++ sha.1)))))) =
        (A ++ (B ++ (T.flatten ++ (H.flatten ++ (crcs.flatten ++ (offs.flatten ++ sig.1)))))) ++ sha.1 := by
      simp only [List.append_assoc]
    rw [e]
    exact List.drop_left' (by simp only [List.length_append, lA, lB, hTl, hHl, hCl, hOl, sig.2]; omega)
  have hrow : ∀ h : Hash, Hash.fromRow h.1 = .ok h := by intro h; rw [Hash.fromRow, dif_pos h.2]
  have hrows : rowsToHashes H = .ok hs := by rw [hH, rowsToHashes_val]
  rw [decode, s1]
  simp only [Res.bind_ok]
  rw [if_neg (by simp [hA])]
  simp only [s2, Nat.mul_zero, Nat.add_zero] at s3 ⊢
  simp only [s3, Res.bind_ok, s4, s7, s8, s9, s10, s11, hrows, hrow]
  refine ⟨_, rfl, ?_⟩
  refine ⟨rfl, rfl, rfl, rfl, s5, ?_, by rfl⟩
  simp only [s6, s4]

/-! ## Items -/

theorem mkItems_map {α : Type} (f : α → Hash) (g k : α → Bytes) (l : List α) :
    mkItems (l.map f) (l.map g) (l.map k) =
      l.map (fun x => { id := f x, crc32 := hexEncode (g x), offset := beNat (k x) }) := by
  induction l with
  | nil => rfl
  | cons x l ih => simp only [List.map_cons, mkItems, ih]

theorem fillItemHash_none : ∀ (items : List IdxItem) (i : Nat) (f : Hash → Option Nat) (h : Hash),
    (∀ it ∈ items, it.id ≠ h) → fillItemHash items i f h = f h
  | [], _, _, _, _ => rfl
  | it :: items, i, f, h, hn => by
    rw [fillItemHash, fillItemHash_none items _ _ h (fun x hx => hn x (List.mem_cons_of_mem _ hx)),
      if_neg (fun e => hn it (by simp) e.symm)]

theorem fillItemHash_some : ∀ (items : List IdxItem) (i : Nat) (f : Hash → Option Nat) (j : Nat) (it : IdxItem),
    (items.map IdxItem.id).Nodup → items[j]? = some it → fillItemHash items i f it.id = some (i + j)
  | [], _, _, _, _, _, h => by simp at h
  | x :: items, i, f, 0, it, hn, h => by
    simp only [List.getElem?_cons_zero, Option.some.injEq] at h
    subst h
    rw [fillItemHash, fillItemHash_none, if_pos rfl, Nat.add_zero]
    intro y hy e
    simp only [List.map_cons, List.nodup_cons] at hn
    exact hn.1 (List.mem_map.2 ⟨y, hy, e⟩)
  | x :: items, i, f, j + 1, it, hn, h => by
    simp only [List.map_cons, List.nodup_cons] at hn
    rw [fillItemHash, fillItemHash_some items (i + 1) _ j it hn.2 (by simpa using h)]
    congr 1; omega

theorem offsetRows_ok {at' : Hash → Option Nat} : ∀ (hs : List Hash), (∀ h ∈ hs, ∃ o, at' h = some o) →
    offsetRows at' hs = .ok (hs.map (fun h => u32Vec ((at' h).getD 0 % 2 ^ 32)))
  | [], _ => rfl
  | h :: hs, hk => by
    obtain ⟨o, ho⟩ := hk h (by simp)
    rw [offsetRows, ho, offsetRows_ok hs (fun x hx => hk x (List.mem_cons_of_mem _ hx))]
    simp only [Res.unwrapOpt_some, Res.bind_ok, List.map_cons, ho, Option.getD_some]
    rfl

/-- Lookup after decoding into a fresh index. -/
theorem getOffset_iff {idx : Idx} (hn : (idx.idxItems.map IdxItem.id).Nodup)
    (hi : idx.itemHash = fillItemHash idx.idxItems 0 (fun _ => none)) (h : Hash) (item : IdxItem) :
    idx.getOffset h = .ok item ↔ item ∈ idx.idxItems ∧ item.id = h := by
  constructor
  · intro e
    simp only [getOffset, Res.bind_eq_ok, Res.unwrapOpt_eq_ok] at e
    obtain ⟨i, e1, e2⟩ := e
    refine ⟨List.mem_of_getElem? e2, ?_⟩
    by_contra hne
    rw [hi] at e1
    by_cases hex : ∃ it ∈ idx.idxItems, it.id = h
    · obtain ⟨it, hit, rfl⟩ := hex
      obtain ⟨j, hj⟩ := List.mem_iff_getElem?.1 hit
      rw [fillItemHash_some _ 0 _ j it hn hj] at e1
      simp only [Nat.zero_add, Option.some.injEq] at e1
      subst e1
      rw [e2] at hj
      exact hne (congrArg IdxItem.id (Option.some.inj hj))
    · rw [fillItemHash_none _ _ _ _ (fun it hit e => hex ⟨it, hit, e⟩)] at e1
      cases e1
  · rintro ⟨hit, rfl⟩
    obtain ⟨j, hj⟩ := List.mem_iff_getElem?.1 hit
    rw [getOffset, hi, fillItemHash_some _ 0 _ j item hn hj]
    simp only [Res.unwrapOpt_some, Res.bind_ok, Nat.zero_add, hj]

theorem getOffset_panic {idx : Idx} (hi : idx.itemHash = fillItemHash idx.idxItems 0 (fun _ => none)) (h : Hash)
    (hn : ∀ it ∈ idx.idxItems, it.id ≠ h) : idx.getOffset h = .panic := by
  rw [getOffset, hi, fillItemHash_none _ _ _ _ hn]
  rfl

/-! ## Prefixes -/

theorem sha1Prefix_eq (n : Nat) (h : n < 256) : sha1Prefix n = [digitChar (n / 16), digitChar (n % 16)] := by
  rw [sha1Prefix, hexStr, toDigits]
  by_cases h1 : n < 16
  · rw [dif_pos (.inl h1)]
    have e1 : n / 16 = 0 := by omega
    have e2 : n % 16 = n := by omega
    rw [e1, e2]
    rfl
  · rw [dif_neg (by omega), toDigits, dif_pos (.inl (by omega))]
    rfl

theorem digitChar_inj {a b : Nat} (ha : a < 16) (hb : b < 16) (h : digitChar a = digitChar b) : a = b := by
  have : ∀ a < 16, ∀ b < 16, digitChar a = digitChar b → a = b := by decide +kernel
  exact this a ha b hb h

theorem sha1Prefix_inj {a b : Nat} (ha : a < 256) (hb : b < 256) (h : sha1Prefix a = sha1Prefix b) : a = b := by
  rw [sha1Prefix_eq a ha, sha1Prefix_eq b hb] at h
  simp only [List.cons.injEq, and_true] at h
  have h1 := digitChar_inj (by omega) (by omega) h.1
  have h2 := digitChar_inj (by omega) (by omega) h.2
  omega

theorem prefixMap_get (hs : List Hash) (b : Nat) (hb : b < 256) : ∀ i, i ≤ 256 →
    prefixMap hs (fun _ => none) i (sha1Prefix b) =
      if b < i ∧ hs.countP (fun h => decide (first h = b)) ≠ 0 then some (hs.countP (fun h => decide (first h = b)))
      else none := by
  intro i
  induction i with
  | zero => intro _; simp [prefixMap]
  | succ i ih =>
    intro hi
    simp only [prefixMap]
    rw [ih (by omega)]
    by_cases e : b = i
    · subst e
      by_cases hc : hs.countP (fun h => decide (first h = b)) = 0
      · rw [if_neg (fun h => h.1 hc), if_neg (fun h => h.2 hc), if_neg (fun h => h.2 hc)]
      · rw [if_pos ⟨hc, rfl⟩, if_pos ⟨by omega, hc⟩]
    · rw [if_neg (fun h => e (sha1Prefix_inj hb (by omega) h.2))]
      by_cases hc : b < i ∧ hs.countP (fun h => decide (first h = b)) ≠ 0
      · rw [if_pos hc, if_pos ⟨by omega, hc.2⟩]
      · rw [if_neg hc, if_neg (fun h => hc ⟨by omega, h.2⟩)]

end Gust.Idx

import Verif.Lemmas.Utf8
import Verif.Spec.JsonReq

/-! # Reading the fields of requests -/

namespace Gust

/-- A value that has a text. -/
def Json.Written (v : Json) : Prop := ∃ t, Spec.JsonText (.value v) t

theorem doc_written {v : Json} {s : Bytes} (h : Spec.JsonDoc v s) : v.Written := by
  obtain ⟨_, t, _, _, ht, _⟩ := h; exact ⟨t, ht⟩

theorem str_written {raw : Bytes} (h : (Json.str raw).Written) : Spec.JsonChars raw := by
  obtain ⟨t, ht⟩ := h
  cases ht; assumption

theorem num_written {l : Bytes} (h : (Json.num l).Written) : Spec.JsonNum l := by
  obtain ⟨t, ht⟩ := h
  cases ht; assumption

theorem parts_written (p : Spec.JsonPart) (t : Bytes) (h : Spec.JsonText p t) :
    match p with
    | .value _ => True
    | .elems l => ∀ v ∈ l, v.Written
    | .members l => ∀ m ∈ l, Spec.JsonChars m.1 ∧ m.2.Written := by
  induction h with
  | lastElem v w t w' hw ht hw' => intro x hx; rw [List.mem_singleton] at hx; exact hx ▸ ⟨t, ht⟩
  | elem v l w t w' ts hw ht hw' hts ih ihs =>
    intro x hx
    rcases List.mem_cons.1 hx with rfl | hx
    · exact ⟨t, ht⟩
    · exact ihs x hx
  | lastMember k v w1 w2 w3 t w4 h1 h2 h3 h4 h5 h6 => intro x hx; rw [List.mem_singleton] at hx; exact hx ▸ ⟨h2, t, h5⟩
  | member k v l w1 w2 w3 t w4 ts h1 h2 h3 h4 h5 h6 h7 ih ihs =>
    intro x hx
    rcases List.mem_cons.1 hx with rfl | hx
    · exact ⟨h2, t, h5⟩
    · exact ihs x hx
  | _ => trivial

theorem obj_written {l : List (Bytes × Json)} (h : (Json.obj l).Written) : ∀ m ∈ l, Spec.JsonChars m.1 ∧ m.2.Written := by
  obtain ⟨t, ht⟩ := h
  cases ht with
  | emptyObj => simp
  | obj _ t ht => exact parts_written _ _ ht

theorem arr_written {l : List Json} (h : (Json.arr l).Written) : ∀ v ∈ l, v.Written := by
  obtain ⟨t, ht⟩ := h
  cases ht with
  | emptyArr => simp
  | arr _ t ht => exact parts_written _ _ ht

/-! ## Values of simple types -/

theorem text_iff {v : Json} (h : v.Written) (c : Bytes) : v.text = some c ↔ Spec.IsText v c := by
  cases v with
  | str raw =>
    rw [Json.text, jsonContent_iff raw c (str_written h)]
    exact ⟨fun h => ⟨raw, rfl, h⟩, fun ⟨_, e, h⟩ => by cases e; exact h⟩
  | _ => constructor
         · intro h; cases h
         · rintro ⟨_, e, _⟩; cases e

theorem flag_iff (v : Json) (b : Bool) : v.flag = some b ↔ Spec.IsFlag v b := by
  rw [Spec.IsFlag]
  cases v with
  | bool x => rw [Json.flag, Option.some.injEq, Json.bool.injEq]
  | _ => simp [Json.flag]

theorem parseDigits_decimal (d : Bytes) : ∀ a, (∀ b ∈ d, 0x30 ≤ b ∧ b ≤ 0x39) → parseDigits decCharValue 10 a d = some (d.foldl (fun a b => 10 * a + (b.toNat - 0x30)) a) := by
  induction d with
  | nil => intro a _; rfl
  | cons c d ih =>
    intro a h
    have hc := h c (by simp)
    simp only [UInt8.le_iff_toNat_le] at hc
    have h1 : 48 ≤ c.toNat := hc.1
    have h2 : c.toNat ≤ 57 := hc.2
    rw [parseDigits, decCharValue, if_pos ⟨h1, h2⟩]
    simp only
    rw [ih _ (fun b hb => h b (by simp [hb])), List.foldl_cons, Nat.mul_comm]

theorem int_iff {v : Json} (h : v.Written) (n : Int) : v.int = some n ↔ Spec.IsInt v n := by
  have dig : ∀ d : Bytes, (d.all jsonDigit = true ↔ ∀ b ∈ d, 0x30 ≤ b ∧ b ≤ 0x39) := fun d => by
    simp only [List.all_eq_true, jsonDigit_iff]
  have sgn : ∀ c (d : Bytes), c ≠ 0x2d → scanSign (c :: d) = ([], c :: d) := by
    intro c d hc; simp [scanSign, hc]
  cases v with
  | num l =>
    rw [Json.int]
    have hl := num_written h
    have hne : ((scanSign l).2 ≠ []) := by
      intro e
      obtain ⟨sign, int, frac, exp, rfl, hs, hi, -, -⟩ := hl
      obtain ⟨c, d', rfl⟩ : ∃ c d', int = c :: d' := List.exists_cons_of_ne_nil hi.1.1
      rcases hs with rfl | rfl
      · have hc := hi.1.2 c (by simp)
        rw [List.nil_append, List.cons_append, List.cons_append, sgn c _ (by rintro rfl; revert hc; decide)] at e
        cases e
      · rw [show ascii "-" = [0x2d] by decide] at e
        simp [scanSign] at e
    constructor
    · intro he
      rw [lexemeI64] at he
      simp only at he
      split at he
      · rename_i hd
        have hd' := (dig _).1 hd
        rw [parseDigits_decimal _ 0 hd'] at he
        simp only at he
        obtain ⟨hs, hsp⟩ := scanSign_sound l
        split at he
        · rename_i hs0
          split at he
          · rename_i hlt
            simp only [Option.some.injEq] at he
            refine ⟨⟨by omega, by rw [← he]; exact_mod_cast hlt⟩, _, ⟨hne, hd'⟩, .inl ⟨?_, he.symm⟩⟩
            rw [hs0, List.nil_append] at hsp; rw [← hsp]
          · cases he
        · rename_i hs0
          have hs1 := hs.resolve_left hs0
          split at he
          · rename_i hlt
            simp only [Option.some.injEq] at he
            have hlt2 := hlt.2
            refine ⟨⟨by rw [← he]; omega, by rw [← he]; omega⟩, _, ⟨hne, hd'⟩, .inr ⟨?_, hlt.1, he.symm⟩⟩
            rw [hs1] at hsp; rw [← hsp]
          · cases he
      · cases he
    · rintro ⟨⟨h1, h2⟩, d, hd, ⟨e, hn⟩ | ⟨e, h0, hn⟩⟩
      · cases e
        obtain ⟨c, d', rfl⟩ : ∃ c d', l = c :: d' := List.exists_cons_of_ne_nil hd.1
        have hc := hd.2 c (by simp)
        rw [lexemeI64, sgn c d' (by rintro rfl; revert hc; decide)]
        simp only [(dig _).2 hd.2, if_true, parseDigits_decimal _ 0 hd.2]
        rw [hn] at h2
        change ((Spec.decimal (c :: d') : Nat) : Int) < _ at h2
        show (if Spec.decimal (c :: d') < 2 ^ 63 then some ((Spec.decimal (c :: d') : Nat) : Int) else none) = _
        rw [if_pos (by exact_mod_cast h2), hn]
      · cases e
        have e1 : scanSign (ascii "-" ++ d) = (ascii "-", d) := by rw [show ascii "-" = [0x2d] by decide]; simp [scanSign]
        rw [lexemeI64, e1]
        simp only [(dig _).2 hd.2, if_true, parseDigits_decimal _ 0 hd.2]
        rw [if_neg (by decide)]
        show (if Spec.decimal d ≠ 0 ∧ Spec.decimal d ≤ 2 ^ 63 then some (-((Spec.decimal d : Nat) : Int)) else none) = _
        rw [if_pos ⟨h0, by rw [hn] at h1; omega⟩, hn]
  | _ => constructor
         · intro h; cases h
         · rintro ⟨_, d, _, ⟨e, _⟩ | ⟨e, _⟩⟩ <;> cases e

/-! ## Fields -/

/-- The members with their names read. -/
theorem fields_names {l : List (Bytes × Json)} (h : (Json.obj l).Written) (n : Nat) (f : Fields) :
    (Json.obj l).fields n = some f ↔ Spec.Names l ∧ ∃ l', f = .named l' ∧ List.Forall₂ (fun m m' => Spec.JsonReads m.1 m'.1 ∧ m.2 = m'.2) l l' := by
  have key : ∀ l : List (Bytes × Json), (∀ m ∈ l, Spec.JsonChars m.1) → ∀ l', l.mapM (fun p => (jsonContent p.1).map (fun k => (k, p.2))) = some l' ↔
      List.Forall₂ (fun m m' => Spec.JsonReads m.1 m'.1 ∧ m.2 = m'.2) l l' := by
    intro l
    induction l with
    | nil => intro _ l'; simp [eq_comm]
    | cons m l ih =>
      intro hm l'
      rw [List.mapM_cons]
      simp only [Option.bind_eq_bind, Option.bind_eq_some_iff, Option.map_eq_some_iff]
      constructor
      · rintro ⟨_, ⟨k, hk, rfl⟩, l1, h1, h2⟩
        cases h2
        exact .cons ⟨(jsonContent_iff _ _ (hm m (by simp))).1 hk, rfl⟩ ((ih (fun x hx => hm x (by simp [hx])) l1).1 h1)
      · intro hf
        cases hf with
        | cons hx hl =>
          rename_i m' l1
          exact ⟨m', ⟨m'.1, (jsonContent_iff _ _ (hm m (by simp))).2 hx.1, by rw [hx.2]⟩, l1, (ih (fun x hx => hm x (by simp [hx])) l1).2 hl, rfl⟩
  rw [Json.fields, Option.map_eq_some_iff]
  have hc := fun m hm => (obj_written h m hm).1
  constructor
  · rintro ⟨l', h1, rfl⟩
    have h2 := (key l hc l').1 h1
    refine ⟨fun m hm => ?_, l', rfl, h2⟩
    obtain ⟨m', -, h3⟩ : ∃ m' ∈ l', Spec.JsonReads m.1 m'.1 ∧ m.2 = m'.2 := by
      clear h1 key h
      induction h2 with
      | nil => cases hm
      | cons hx hl ih =>
        rcases List.mem_cons.1 hm with rfl | hm
        · exact ⟨_, List.mem_cons_self, hx⟩
        · obtain ⟨m', h4, h5⟩ := ih (fun x hx => hc x (by simp [hx])) hm
          exact ⟨m', List.mem_cons_of_mem _ h4, h5⟩
    exact ⟨_, h3.1⟩
  · rintro ⟨-, l', rfl, h2⟩
    exact ⟨l', (key l hc l').2 h2, rfl⟩

theorem names_fields {l : List (Bytes × Json)} (h : (Json.obj l).Written) (hn : Spec.Names l) (n : Nat) :
    ∃ l', (Json.obj l).fields n = some (.named l') ∧ List.Forall₂ (fun m m' => Spec.JsonReads m.1 m'.1 ∧ m.2 = m'.2) l l' := by
  have : ∃ l' : List (Bytes × Json), List.Forall₂ (fun m m' => Spec.JsonReads m.1 m'.1 ∧ m.2 = m'.2) l l' := by
    clear h
    induction l with
    | nil => exact ⟨[], .nil⟩
    | cons m l ih =>
      obtain ⟨k, hk⟩ := hn m (by simp)
      obtain ⟨l', hl'⟩ := ih (fun x hx => hn x (by simp [hx]))
      exact ⟨(k, m.2) :: l', .cons ⟨hk, rfl⟩ hl'⟩
  obtain ⟨l', hl'⟩ := this
  exact ⟨l', (fields_names h n _).2 ⟨hn, l', rfl, hl'⟩, hl'⟩

theorem reads_unique {raw c c' : Bytes} (h : Spec.JsonReads raw c) (h' : Spec.JsonReads raw c') : c = c' := by
  have h1 := jsonContent_reads _ _ h
  rw [jsonContent_reads _ _ h'] at h1
  cases h1; rfl

/-- No member of the name, or exactly one, or more. -/
theorem find_cases {l l' : List (Bytes × Json)} (h : List.Forall₂ (fun m m' => Spec.JsonReads m.1 m'.1 ∧ m.2 = m'.2) l l') (i : Nat) (k : Bytes) :
    ((Fields.named l').find i k = some none ↔ Spec.Lacks l k) ∧ (∀ v, (Fields.named l').find i k = some (some v) ↔ Spec.Says l k v) := by
  have h0 : l'.filter (fun p => p.1 == k) = [] ↔ Spec.Lacks l k := by
    clear i
    induction h with
    | nil => simp [Spec.Lacks]
    | cons hx hl ih =>
      rename_i m m' l l'
      rw [List.filter_cons]
      split
      · rename_i e
        simp only [reduceCtorEq, false_iff]
        intro hk
        exact hk m (by simp) (by rw [← beq_iff_eq.1 e]; exact hx.1)
      · rename_i e
        rw [ih]
        constructor
        · intro hk x hxm
          rcases List.mem_cons.1 hxm with rfl | hxm
          · intro hr; exact e (beq_iff_eq.2 (reads_unique hx.1 hr))
          · exact hk x hxm
        · exact fun hk x hxm => hk x (by simp [hxm])
  have h1 : ∀ v, (∃ q, l'.filter (fun p => p.1 == k) = [(q, v)]) ↔ Spec.Says l k v := by
    intro v
    clear h0 i
    induction h with
    | nil =>
      constructor
      · rintro ⟨q, e⟩; cases e
      · rintro ⟨pre, raw, post, e, -⟩; simp at e
    | cons hx hl ih =>
      rename_i m m' l l'
      have hlacks : l'.filter (fun p => p.1 == k) = [] ↔ Spec.Lacks l k := by
        clear ih hx
        induction hl with
        | nil => simp [Spec.Lacks]
        | cons hx hl ih =>
          rename_i m m' l l'
          rw [List.filter_cons]
          split
          · rename_i e
            simp only [reduceCtorEq, false_iff]
            intro hk
            exact hk m (by simp) (by rw [← beq_iff_eq.1 e]; exact hx.1)
          · rename_i e
            rw [ih]
            constructor
            · intro hk x hxm
              rcases List.mem_cons.1 hxm with rfl | hxm
              · intro hr; exact e (beq_iff_eq.2 (reads_unique hx.1 hr))
              · exact hk x hxm
            · exact fun hk x hxm => hk x (by simp [hxm])
      rw [List.filter_cons]
      split
      · rename_i e
        have e' := beq_iff_eq.1 e
        constructor
        · rintro ⟨q, he⟩
          simp only [List.cons.injEq] at he
          refine ⟨[], m.1, l, ?_, by rw [← e']; exact hx.1, ?_⟩
          · rw [List.nil_append]; congr 1; exact Prod.ext rfl (by rw [hx.2, he.1])
          · exact fun x hxm => hlacks.1 he.2 x hxm
        · rintro ⟨pre, raw, post, hl', hr, hno⟩
          cases pre with
          | nil =>
            simp only [List.nil_append, List.cons.injEq] at hl'
            obtain ⟨rfl, rfl⟩ := hl'
            exact ⟨m'.1, by rw [hlacks.2 (fun x hxm => hno x (by simp [hxm]))]; congr 1; exact Prod.ext rfl hx.2.symm⟩
          | cons a pre =>
            simp only [List.cons_append, List.cons.injEq] at hl'
            exact absurd (by rw [← hl'.1, ← e']; exact hx.1) (hno a (by simp))
      · rename_i e
        rw [ih]
        have hm : ¬ Spec.JsonReads m.1 k := fun hr => e (beq_iff_eq.2 (reads_unique hx.1 hr))
        constructor
        · rintro ⟨pre, raw, post, rfl, hr, hno⟩
          refine ⟨m :: pre, raw, post, rfl, hr, fun x hxm => ?_⟩
          rcases List.mem_cons.1 hxm with rfl | hxm
          · exact hm
          · exact hno x hxm
        · rintro ⟨pre, raw, post, hl', hr, hno⟩
          cases pre with
          | nil =>
            simp only [List.nil_append, List.cons.injEq] at hl'
            exact absurd (by rw [hl'.1]; exact hr) hm
          | cons a pre =>
            simp only [List.cons_append, List.cons.injEq] at hl'
            exact ⟨pre, raw, post, hl'.2, hr, fun x hxm => hno x (List.mem_cons_of_mem _ hxm)⟩
  constructor
  · rw [← h0, Fields.find]
    split
    · rename_i e; simp [e]
    · rename_i e; simp [e]
    · rename_i e1 e2; constructor
      · intro h; cases h
      · intro h; exact absurd h e1
  · intro v
    rw [← h1 v, Fields.find]
    split
    · rename_i e; simp [e]
    · rename_i p e
      rw [e]
      constructor
      · intro h; cases h; exact ⟨p.1, rfl⟩
      · rintro ⟨q, he⟩; cases he; rfl
    · rename_i e1 e2
      constructor
      · intro h; cases h
      · rintro ⟨q, he⟩; exact absurd he (e2 _)

/-- Reading a field that has to be there. -/
theorem need_iff {α : Type} {l l' : List (Bytes × Json)} (h : List.Forall₂ (fun m m' => Spec.JsonReads m.1 m'.1 ∧ m.2 = m'.2) l l') (i : Nat) (k : Bytes)
    (rd : Json → Option α) (a : α) : (Fields.named l').need i k rd = some a ↔ ∃ v, Spec.Says l k v ∧ rd v = some a := by
  obtain ⟨h0, h1⟩ := find_cases h i k
  rw [Fields.need]
  constructor
  · intro e
    split at e
    · rename_i v hv; exact ⟨v, (h1 v).1 hv, e⟩
    · cases e
  · rintro ⟨v, hv, hr⟩
    rw [(h1 v).2 hv]; exact hr

/-- Reading a field that may be absent or `null`. -/
theorem opt_iff {α : Type} {l l' : List (Bytes × Json)} (h : List.Forall₂ (fun m m' => Spec.JsonReads m.1 m'.1 ∧ m.2 = m'.2) l l') (i : Nat) (k : Bytes)
    (rd : Json → Option α) (hrd : rd .null = none) (o : Option α) :
    (Fields.named l').opt i k rd = some o ↔ Spec.MaySay l k (fun v a => rd v = some a) o := by
  obtain ⟨h0, h1⟩ := find_cases h i k
  rw [Fields.opt]
  constructor
  · intro e
    split at e
    · rename_i hv
      cases e; exact .inr ((h1 _).1 hv)
    · rename_i v _ hv
      rw [Option.map_eq_some_iff] at e
      obtain ⟨a, ha, rfl⟩ := e
      exact ⟨v, (h1 v).1 hv, ha⟩
    · rename_i hv
      cases e; exact .inl (h0.1 hv)
    · cases e
  · intro e
    cases o with
    | none =>
      rcases e with e | e
      · rw [h0.2 e]
      · rw [(h1 _).2 e]
    | some a =>
      obtain ⟨v, hv, ha⟩ := e
      rw [(h1 v).2 hv]
      cases v with
      | null => rw [hrd] at ha; cases ha
      | _ => simp only [ha, Option.map_some]

/-- Reading a field that may be absent. -/
theorem dflt_iff {l l' : List (Bytes × Json)} (h : List.Forall₂ (fun m m' => Spec.JsonReads m.1 m'.1 ∧ m.2 = m'.2) l l') (i : Nat) (k : Bytes)
    (hw : ∀ m ∈ l, m.2.Written) (c : Bytes) : (Fields.named l').dflt i k Json.text [] = some c ↔ Spec.TextOr l k c := by
  obtain ⟨h0, h1⟩ := find_cases h i k
  have hv : ∀ v, Spec.Says l k v → v.Written := by
    rintro v ⟨pre, raw, post, rfl, -, -⟩
    exact hw (raw, v) (by simp)
  rw [Fields.dflt]
  constructor
  · intro e
    split at e
    · rename_i v hf
      have := (h1 v).1 hf
      exact .inl ⟨v, this, (text_iff (hv v this) c).1 e⟩
    · rename_i hf
      cases e
      exact .inr ⟨h0.1 hf, rfl⟩
    · cases e
  · rintro (⟨v, hs, ht⟩ | ⟨hl, rfl⟩)
    · rw [(h1 v).2 hs]; exact (text_iff (hv v hs) c).2 ht
    · rw [h0.2 hl]

theorem says_written {l : List (Bytes × Json)} {k : Bytes} {v : Json} (h : (Json.obj l).Written) (hs : Spec.Says l k v) : v.Written := by
  obtain ⟨pre, raw, post, rfl, -, -⟩ := hs
  exact (obj_written h (raw, v) (by simp)).2

end Gust

import Verif.Base.Tactics
import Verif.Model.Pack

/-! # The hash-keyed maps and the object cache -/

namespace Gust

/-! ## Order of ids -/

theorem bytesLt_irrefl : ∀ a : Bytes, bytesLt a a = false
  | [] => rfl
  | a :: s => by simp [bytesLt, bytesLt_irrefl s]

theorem bytesLt_trans : ∀ {a b c : Bytes}, bytesLt a b = true → bytesLt b c = true → bytesLt a c = true
  | [], [], _, h, _ => by simp [bytesLt] at h
  | [], _ :: _, [], _, h => by simp [bytesLt] at h
  | [], _ :: _, _ :: _, _, _ => by simp [bytesLt]
  | _ :: _, [], _, h, _ => by simp [bytesLt] at h
  | _ :: _, _ :: _, [], _, h => by simp [bytesLt] at h
  | x :: a, y :: b, z :: c, h1, h2 => by
    simp only [bytesLt] at h1 h2 ⊢
    by_cases hxy : x.toNat < y.toNat
    · by_cases hyz : y.toNat < z.toNat
      · simp [show x.toNat < z.toNat by omega]
      · rw [if_neg hyz] at h2
        by_cases hzy : z.toNat < y.toNat
        · simp [hzy] at h2
        · simp [show x.toNat < z.toNat by omega]
    · rw [if_neg hxy] at h1
      by_cases hyx : y.toNat < x.toNat
      · simp [hyx] at h1
      · rw [if_neg hyx] at h1
        by_cases hyz : y.toNat < z.toNat
        · simp [show x.toNat < z.toNat by omega]
        · rw [if_neg hyz] at h2
          by_cases hzy : z.toNat < y.toNat
          · simp [hzy] at h2
          · rw [if_neg hzy] at h2
            rw [if_neg (by omega), if_neg (by omega)]
            exact bytesLt_trans h1 h2

theorem bytesLt_total : ∀ {a b : Bytes}, bytesLt a b = false → bytesLt b a = false → a.length = b.length → a = b
  | [], [], _, _, _ => rfl
  | [], _ :: _, _, _, h => by simp at h
  | _ :: _, [], _, _, h => by simp at h
  | x :: a, y :: b, h1, h2, hl => by
    simp only [bytesLt] at h1 h2
    by_cases hxy : x.toNat < y.toNat
    · simp [hxy] at h1
    · by_cases hyx : y.toNat < x.toNat
      · simp [hyx] at h2
      · rw [if_neg hxy, if_neg hyx] at h1
        rw [if_neg hyx, if_neg hxy] at h2
        have hx : x = y := UInt8.toNat_inj.1 (by omega)
        rw [hx, bytesLt_total h1 h2 (by simpa using hl)]

theorem bytesLt_asymm {a b : Bytes} (h : bytesLt a b = true) : bytesLt b a = false := by
  cases h' : bytesLt b a with
  | false => rfl
  | true => simpa [bytesLt_irrefl] using bytesLt_trans h h'

/-! ## Maps -/

namespace HashMap

theorem get_insert {V : Type} (m : HashMap V) (h k : Hash) (x : V) :
    (HashMap.insert m h x).get k = if h = k then some x else m.get k := by
  induction m with
  | nil => simp [HashMap.insert, HashMap.get]
  | cons p m ih =>
    obtain ⟨k', v⟩ := p
    simp only [HashMap.insert]
    by_cases h1 : k' = h
    · subst h1
      simp only [if_true, HashMap.get]
      split <;> simp_all
    · simp only [h1, if_false]
      by_cases h2 : bytesLt h.1 k'.1 = true
      · simp only [h2, if_true, HashMap.get]
      · simp only [h2, Bool.false_eq_true, if_false, HashMap.get, ih]
        by_cases h3 : k' = k
        · subst h3
          simp [fun e : h = k' => h1 e.symm, show ¬ h = k' from fun e => h1 e.symm]
        · simp [h3]

/-- The entries are in strictly increasing order of ids. -/
def Sorted {V : Type} (m : HashMap V) : Prop := m.Pairwise (fun a b => bytesLt a.1.1 b.1.1 = true)

theorem mem_insert {V : Type} (m : HashMap V) (h : Hash) (x : V) (p : Hash × V) (hp : p ∈ HashMap.insert m h x) :
    p = (h, x) ∨ p ∈ m := by
  induction m with
  | nil => simp_all [HashMap.insert]
  | cons q m ih =>
    obtain ⟨k', v⟩ := q
    simp only [HashMap.insert] at hp
    split at hp
    · rcases List.mem_cons.1 hp with h | h
      · exact .inl h
      · exact .inr (List.mem_cons_of_mem _ h)
    · split at hp
      · rcases List.mem_cons.1 hp with h | h
        · exact .inl h
        · exact .inr h
      · rcases List.mem_cons.1 hp with h | h
        · exact .inr (by simp [h])
        · rcases ih h with h | h
          · exact .inl h
          · exact .inr (List.mem_cons_of_mem _ h)

theorem sorted_insert {V : Type} (m : HashMap V) (h : Hash) (x : V) (hm : Sorted m) : Sorted (HashMap.insert m h x) := by
  induction m with
  | nil => simp [HashMap.insert, Sorted]
  | cons q m ih =>
    obtain ⟨k', v⟩ := q
    obtain ⟨h1, h2⟩ := List.pairwise_cons.1 hm
    simp only [HashMap.insert]
    by_cases hk : k' = h
    · subst hk
      simp only [if_true]
      exact List.pairwise_cons.2 ⟨h1, h2⟩
    · simp only [hk, if_false]
      by_cases hlt : bytesLt h.1 k'.1 = true
      · simp only [hlt, if_true]
        refine List.pairwise_cons.2 ⟨?_, hm⟩
        intro p hp
        rcases List.mem_cons.1 hp with rfl | hp
        · exact hlt
        · exact bytesLt_trans hlt (h1 p hp)
      · rw [if_neg hlt]
        refine List.pairwise_cons.2 ⟨?_, ih h2⟩
        intro p hp
        rcases mem_insert m h x p hp with rfl | hp
        · cases hgt : bytesLt k'.1 h.1 with
          | true => rfl
          | false =>
            exact absurd (Subtype.ext (bytesLt_total hgt (by simpa using hlt) (by rw [k'.2, h.2]))) hk
        · exact h1 p hp

/-- In a sorted map membership and lookup agree. -/
theorem mem_iff_get {V : Type} {m : HashMap V} (hm : Sorted m) (h : Hash) (x : V) : (h, x) ∈ m ↔ m.get h = some x := by
  induction m with
  | nil => simp [HashMap.get]
  | cons q m ih =>
    obtain ⟨k', v⟩ := q
    obtain ⟨h1, h2⟩ := List.pairwise_cons.1 hm
    simp only [HashMap.get, List.mem_cons]
    by_cases hk : k' = h
    · subst hk
      simp only [if_true, Option.some.injEq]
      constructor
      · rintro (h | h)
        · simp only [Prod.mk.injEq] at h; exact h.2.symm
        · have := h1 _ h
          simp [bytesLt_irrefl] at this
      · rintro rfl; exact .inl rfl
    · simp only [hk, if_false, ← ih h2]
      constructor
      · rintro (h | h)
        · exact absurd (Prod.mk.inj h).1.symm hk
        · exact h
      · exact .inr

theorem sorted_nodup {V : Type} {m : HashMap V} (hm : Sorted m) : (m.map Prod.fst).Nodup := by
  rw [List.nodup_iff_pairwise_ne, List.pairwise_map]
  refine List.Pairwise.imp ?_ hm
  intro a b h e
  rw [e, bytesLt_irrefl] at h
  exact absurd h (by decide)

end HashMap

/-! ## The cache after a history of insertions -/

namespace PackCache

/-- Insert the objects of a history (object and offset, oldest first). -/
def run (c : PackCache) (hist : List (MetaData × Nat)) : PackCache := hist.foldl (fun c p => c.update p.1 p.2) c

theorem run_append (c : PackCache) (h1 h2 : List (MetaData × Nat)) : c.run (h1 ++ h2) = (c.run h1).run h2 := by
  simp [run]

theorem run_snoc (c : PackCache) (h : List (MetaData × Nat)) (m : MetaData) (o : Nat) :
    c.run (h ++ [(m, o)]) = (c.run h).update m o := by
  simp [run]

end PackCache

end Gust

namespace Gust.Spec

/-- The last element of a history with a property. -/
def lastWith {α : Type} (p : α → Bool) (hist : List α) : Option α := hist.reverse.find? p

end Gust.Spec

namespace Gust.PackCache

theorem lastWith_snoc {α : Type} (p : α → Bool) (h : List α) (a : α) :
    Spec.lastWith p (h ++ [a]) = if p a = true then some a else Spec.lastWith p h := by
  simp only [Spec.lastWith, List.reverse_append, List.reverse_cons, List.reverse_nil, List.nil_append,
    List.singleton_append, List.find?_cons]
  split <;> simp_all

theorem snoc_induction {α : Type} {P : List α → Prop} (h0 : P []) (h1 : ∀ l a, P l → P (l ++ [a])) : ∀ l, P l := by
  intro l
  have : ∀ r : List α, P r.reverse := by
    intro r
    induction r with
    | nil => exact h0
    | cons a r ih => rw [List.reverse_cons]; exact h1 _ _ ih
  simpa using this l.reverse

theorem hashObject_run (hist : List (MetaData × Nat)) (h : Hash) :
    (empty.run hist).hashObject h = (Spec.lastWith (fun p => decide (p.1.id = h)) hist).map Prod.fst := by
  induction hist using snoc_induction with
  | h0 => simp [run, empty, hashObject, HashMap.get, Spec.lastWith]
  | h1 l a ih =>
    obtain ⟨m, o⟩ := a
    rw [run_snoc, lastWith_snoc]
    simp only [hashObject, update, HashMap.get_insert, decide_eq_true_eq]
    by_cases hh : m.id = h
    · simp [hh]
    · simp only [hh, if_false]
      exact ih

theorem byOffset_run (hist : List (MetaData × Nat)) (h : Hash) :
    (empty.run hist).byOffset h = (Spec.lastWith (fun p => decide (p.1.id = h)) hist).map Prod.snd := by
  induction hist using snoc_induction with
  | h0 => simp [run, empty, Spec.lastWith]
  | h1 l a ih =>
    obtain ⟨m, o⟩ := a
    rw [run_snoc, lastWith_snoc]
    simp only [update, decide_eq_true_eq]
    by_cases hh : m.id = h
    · simp [hh]
    · have hh' : ¬ h = m.id := fun e => hh e.symm
      simp only [hh, hh', if_false]
      exact ih

theorem offsetHash_run (hist : List (MetaData × Nat)) (o : Nat) :
    (empty.run hist).offsetHash o = (Spec.lastWith (fun p => decide (p.2 = o)) hist).map (fun p => p.1.id) := by
  induction hist using snoc_induction with
  | h0 => simp [run, empty, Spec.lastWith]
  | h1 l a ih =>
    obtain ⟨m, o'⟩ := a
    rw [run_snoc, lastWith_snoc]
    simp only [update, decide_eq_true_eq]
    by_cases hh : o' = o
    · simp [hh]
    · have hh' : ¬ o = o' := fun e => hh e.symm
      simp only [hh, hh', if_false]
      exact ih

theorem sorted_run (hist : List (MetaData × Nat)) : HashMap.Sorted (empty.run hist).byHash := by
  induction hist using snoc_induction with
  | h0 => exact List.Pairwise.nil
  | h1 l a ih => rw [run_snoc]; exact HashMap.sorted_insert _ _ _ ih

theorem lastWith_some {α : Type} {p : α → Bool} {h : List α} {a : α} (e : Spec.lastWith p h = some a) : a ∈ h ∧ p a = true := by
  unfold Spec.lastWith at e
  exact ⟨by simpa using List.mem_of_find?_eq_some e, List.find?_some e⟩

theorem lastWith_exists {α : Type} {p : α → Bool} {h : List α} {a : α} (ha : a ∈ h) (hp : p a = true) :
    ∃ b, Spec.lastWith p h = some b := by
  unfold Spec.lastWith
  cases e : h.reverse.find? p with
  | some b => exact ⟨b, rfl⟩
  | none =>
    rw [List.find?_eq_none] at e
    exact absurd hp (e a (by simpa using ha))

/-- With ids identifying contents, looking up an offset gives the object most recently stored there. -/
theorem offsetObject_run (hist : List (MetaData × Nat)) (hid : ∀ a ∈ hist, ∀ b ∈ hist, a.1.id = b.1.id → a.1 = b.1)
    (o : Nat) : (empty.run hist).offsetObject o = (Spec.lastWith (fun p => decide (p.2 = o)) hist).map Prod.fst := by
  unfold offsetObject
  rw [offsetHash_run]
  cases e : Spec.lastWith (fun p => decide (p.2 = o)) hist with
  | none => rfl
  | some a =>
    have ha := (lastWith_some e).1
    simp only [Option.map_some]
    have := hashObject_run hist a.1.id
    unfold hashObject at this
    rw [this]
    obtain ⟨b, hb⟩ := lastWith_exists (p := fun p => decide (p.1.id = a.1.id)) ha (by simp)
    rw [hb]
    have hb' := lastWith_some hb
    simp only [decide_eq_true_eq] at hb'
    simp only [Option.map_some, Option.some.injEq]
    exact hid b hb'.1 a ha hb'.2

theorem offsetHash_iff (hist : List (MetaData × Nat)) (o : Nat) :
    (empty.run hist).offsetHash o = none ↔ ∀ p ∈ hist, p.2 ≠ o := by
  rw [offsetHash_run]
  constructor
  · intro h p hp e
    obtain ⟨b, hb⟩ := lastWith_exists (p := fun p : MetaData × Nat => decide (p.2 = o)) hp (by simp [e])
    simp [hb] at h
  · intro h
    cases e : Spec.lastWith (fun p => decide (p.2 = o)) hist with
    | none => rfl
    | some a =>
      have := lastWith_some e
      exact absurd (by simpa using this.2) (h a this.1)

end Gust.PackCache

import Verif.Lemmas.LfsStore
import Verif.Spec.Router
import Verif.Base.Tactics

/-! # Lemmas on removing texts, suffixes and tokens -/

namespace Gust

/-! ## Removing -/

/-- No proper suffix of the pattern begins the text: no occurrence can reach into it from the left. -/
def NoStraddle (pat v : Bytes) : Prop := ∀ k < pat.length, 0 < k → ¬ (pat.drop k) <+: v

instance (pat v : Bytes) : Decidable (NoStraddle pat v) := by unfold NoStraddle; infer_instance

theorem removeGo_skip (pat : Bytes) : ∀ (a s : Bytes), removeGo pat a.length (a ++ s) = removeGo pat 0 s
  | [], s => rfl
  | _ :: a, s => removeGo_skip pat a s

theorem removeGo_match (pat s : Bytes) (h : pat ≠ []) : removeGo pat 0 (pat ++ s) = removeGo pat 0 s := by
  obtain ⟨c, p, rfl⟩ := List.exists_cons_of_ne_nil h
  have : (c :: p).isPrefixOf (c :: (p ++ s)) = true := List.isPrefixOf_iff_prefix.2 ⟨s, rfl⟩
  simp only [List.cons_append, removeGo, this, if_true, List.length_cons, Nat.add_sub_cancel]
  exact removeGo_skip _ p s

theorem removeGo_nomatch (pat : Bytes) (c : UInt8) (s : Bytes) (h : ¬ pat <+: c :: s) :
    removeGo pat 0 (c :: s) = c :: removeGo pat 0 s := by
  have : ¬ pat.isPrefixOf (c :: s) = true := fun e => h (List.isPrefixOf_iff_prefix.1 e)
  simp only [removeGo, this, Bool.false_eq_true, if_false]

theorem removeAll_none (pat : Bytes) : ∀ s : Bytes, ¬ pat <:+: s → removeAll pat s = s
  | [], _ => rfl
  | c :: s, h => by
    have h1 : ¬ pat <+: c :: s := fun e => h e.isInfix
    have h2 : ¬ pat <:+: s := fun e => h (e.trans ⟨[c], [], by simp⟩)
    exact (removeGo_nomatch pat c s h1).trans (congrArg (c :: ·) (removeAll_none pat s h2))

theorem removeAll_self (pat : Bytes) (h : pat ≠ []) : removeAll pat pat = [] := by
  have := removeGo_match pat [] h
  rw [List.append_nil] at this
  exact this

/-- When no occurrence straddles the cut, the two parts are treated separately. -/
theorem removeAll_append (pat v : Bytes) (hp : pat ≠ []) (hv : NoStraddle pat v) : ∀ (n : Nat) (u : Bytes), u.length ≤ n →
    removeAll pat (u ++ v) = removeAll pat u ++ removeAll pat v := by
  intro n
  induction n with
  | zero =>
    intro u hu
    have : u = [] := List.length_eq_zero_iff.1 (by omega)
    subst this
    rfl
  | succ n ih =>
    intro u hu
    by_cases hpu : pat <+: u
    · obtain ⟨w, rfl⟩ := hpu
      have hl : 0 < pat.length := List.length_pos_iff.2 hp
      rw [List.length_append] at hu
      show removeGo pat 0 (pat ++ w ++ v) = removeGo pat 0 (pat ++ w) ++ _
      rw [List.append_assoc, removeGo_match _ _ hp, removeGo_match _ _ hp]
      exact ih w (by omega)
    · cases u with
      | nil => rfl
      | cons c u =>
        have hn : ¬ pat <+: c :: (u ++ v) := by
          intro e
          have e : pat <+: (c :: u) ++ v := e
          rcases List.prefix_or_prefix_of_prefix e (List.prefix_append (c :: u) v) with h | ⟨w, hw⟩
          · exact hpu h
          · have hw := hw.symm
            have hwv : w <+: v := (List.prefix_append_right_inj _).1 (hw ▸ e)
            have hk : pat.drop (c :: u).length = w := by rw [hw, List.drop_left]
            by_cases hlt : (c :: u).length < pat.length
            · exact hv _ hlt (by simp) (hk ▸ hwv)
            · have : w = [] := by rw [← hk]; exact List.drop_eq_nil_of_le (by omega)
              subst this
              rw [List.append_nil] at hw
              exact hpu (hw ▸ List.prefix_refl _)
        show removeGo pat 0 (c :: (u ++ v)) = removeGo pat 0 (c :: u) ++ _
        rw [removeGo_nomatch _ _ _ hn, removeGo_nomatch _ _ _ hpu]
        exact congrArg (c :: ·) (ih u (by simpa using hu))

/-! ## Suffixes and tokens -/

theorem endsWith_iff (path lit : Bytes) : endsWith path lit = true ↔ lit <:+ path := List.isSuffixOf_iff_suffix

theorem endsWith_append (pre lit : Bytes) : endsWith (pre ++ lit) lit = true :=
  (endsWith_iff _ _).2 (List.suffix_append pre lit)

theorem endsWith_false {pre a b : Bytes} (h : ¬ a <:+ b ∧ ¬ b <:+ a) : endsWith (pre ++ b) a = false := by
  rw [Bool.eq_false_iff]
  intro e
  rcases List.suffix_or_suffix_of_suffix ((endsWith_iff _ _).1 e) (List.suffix_append pre b) with h1 | h1
  · exact h.1 h1
  · exact h.2 h1

theorem isOidByte_iff (b : UInt8) :
    isOidByte b = true ↔ (97 ≤ b.toNat ∧ b.toNat ≤ 122) ∨ (48 ≤ b.toNat ∧ b.toNat ≤ 57) := by
  simp only [isOidByte, Bool.or_eq_true, Bool.and_eq_true, decide_eq_true_eq, UInt8.le_iff_toNat_le]
  exact Iff.rfl

/-- What the pattern `/objects/[a-z0-9]+$` matches. -/
theorem matchObjects_iff (path : Bytes) :
    matchObjects path = true ↔ ∃ pre oid, Spec.RouteOid oid ∧ path = pre ++ ascii "/objects/" ++ oid := by
  constructor
  · intro h
    simp only [matchObjects, Bool.and_eq_true, decide_eq_true_eq, endsWith_iff] at h
    obtain ⟨hr, pre, hpre⟩ := h
    refine ⟨pre, (path.reverse.takeWhile isOidByte).reverse, ⟨by simpa using hr, fun c hc => ?_⟩, ?_⟩
    · rw [List.mem_reverse] at hc
      exact (isOidByte_iff c).1 (List.all_eq_true.1 List.all_takeWhile c hc)
    · rw [hpre, ← List.reverse_append, List.takeWhile_append_dropWhile, List.reverse_reverse]
  · rintro ⟨pre, oid, ⟨hne, ho⟩, rfl⟩
    have hall : ∀ c ∈ oid.reverse, isOidByte c = true := fun c hc => (isOidByte_iff c).2 (ho c (List.mem_reverse.1 hc))
    have e : (pre ++ ascii "/objects/" ++ oid).reverse = oid.reverse ++ (0x2f :: (ascii "/objects").reverse ++ pre.reverse) := by
      simp [ascii]
    have hz : isOidByte 0x2f = false := by decide
    simp only [matchObjects, e, List.takeWhile_append_of_pos hall, List.dropWhile_append_of_pos hall, List.cons_append,
      List.takeWhile_cons, List.dropWhile_cons, hz, Bool.and_eq_true, decide_eq_true_eq, endsWith_iff]
    refine ⟨by simpa using hne, pre, ?_⟩
    simp [ascii]

theorem token_last (pre last : Bytes) (h : (0x2f : UInt8) ∉ last) (f : Bytes → Route) :
    withToken (pre ++ 0x2f :: last) 0 f = f last := by
  simp only [withToken, token, splitOn_glue, splitOn_plain _ _ h, List.reverse_append]
  rfl

theorem token_before (pre id last : Bytes) (h : (0x2f : UInt8) ∉ last) (hi : (0x2f : UInt8) ∉ id) (f : Bytes → Route) :
    withToken (pre ++ 0x2f :: (id ++ 0x2f :: last)) 1 f = f id := by
  simp only [withToken, token, splitOn_glue, splitOn_plain _ _ h, splitOn_plain _ _ hi, List.reverse_append]
  rfl

end Gust

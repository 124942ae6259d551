import Verif.Props.Query

/-! # C146: parameters that are not UTF-8

`C146_read` is about values that are UTF-8. Names of branches need not be, nor are those of files. -/

namespace Gust

/-- What remains of a text in some encoding: characters stay, and every byte that belongs to no character becomes U+FFFD. A byte belongs to no character if no character begins with it, or if a character of
several bytes begins with it and the next byte is not a later byte of one. (Characters that are cut off after their second byte are left out.) -/
inductive Spec.Lossy : Bytes → Bytes → Prop
  | nil : Spec.Lossy [] []
  | text (t r w : Bytes) : utf8Valid t = true → Spec.Lossy r w → Spec.Lossy (t ++ r) (t ++ w)
  | byte (b : UInt8) (r w : Bytes) : 0x80 ≤ b → (b < 0xC2 ∨ 0xF4 < b ∨ ∀ c, r.head? = some c → c < 0x80 ∨ 0xBF < c) → Spec.Lossy r w →
      Spec.Lossy (b :: r) (0xEF :: 0xBF :: 0xBD :: w)

/-- A text that is UTF-8 is kept. -/
theorem lossyStep_append (a : UInt8) (s r : Bytes) (h : utf8Valid (a :: s) = true) :
    lossyStep (a :: (s ++ r)) = lossyStep (a :: s) ∧ (lossyStep (a :: s)).1 ≤ (a :: s).length := by
  rw [utf8Valid.eq_def] at h
  simp only at h
  simp only [lossyStep]
  split at h
  · rename_i h1
    rw [if_pos h1, if_pos h1]; exact ⟨rfl, by simp⟩
  rename_i h1
  rw [if_neg h1, if_neg h1]
  split at h
  · rename_i h2
    rw [if_pos h2, if_pos h2]
    split at h
    · rename_i b s'
      rw [Bool.and_eq_true] at h
      simp only [List.cons_append, if_pos h.1]
      exact ⟨trivial, by simp⟩
    · exact absurd h (by decide)
  rename_i h2
  rw [if_neg h2, if_neg h2]
  split at h
  · rename_i h3
    rw [if_pos h3, if_pos h3]
    split at h
    · rename_i b c s'
      rw [Bool.and_eq_true, Bool.and_eq_true] at h
      simp only [List.cons_append, if_pos h.1.1, if_pos h.1.2]
      exact ⟨trivial, by simp⟩
    · exact absurd h (by decide)
  rename_i h3
  rw [if_neg h3, if_neg h3]
  split at h
  · rename_i h4
    rw [if_pos h4, if_pos h4]
    split at h
    · rename_i b c d s'
      rw [Bool.and_eq_true, Bool.and_eq_true, Bool.and_eq_true] at h
      simp only [List.cons_append, if_pos h.1.1.1, if_pos h.1.1.2, if_pos h.1.2]
      exact ⟨trivial, by simp⟩
    · exact absurd h (by decide)
  · exact absurd h (by decide)

theorem lossyStep_byte (b : UInt8) (r : Bytes) (h1 : 0x80 ≤ b) (h2 : b < 0xC2 ∨ 0xF4 < b ∨ ∀ c, r.head? = some c → c < 0x80 ∨ 0xBF < c) : lossyStep (b :: r) = (1, false) := by
  have n1 : ¬ b < 0x80 := by simpa using h1
  have key : ∀ c s, r = c :: s → ¬ (b < 0xC2 ∨ 0xF4 < b) → ¬ (0x80 ≤ c ∧ c ≤ 0xBF) := by
    rintro c s rfl hb ⟨h3, h4⟩
    rcases h2 with h | h | h
    · exact hb (.inl h)
    · exact hb (.inr h)
    · rcases h c rfl with k | k
      · exact absurd h3 (by simpa using k)
      · exact absurd h4 (by simpa using k)
  have le : ∀ {x y : UInt8}, x ≤ y ↔ x.toNat ≤ y.toNat := UInt8.le_iff_toNat_le
  have lt : ∀ {x y : UInt8}, x < y ↔ x.toNat < y.toNat := UInt8.lt_iff_toNat_lt
  have cont : ∀ c s, r = c :: s → ¬ (b < 0xC2 ∨ 0xF4 < b) → ∀ p : Bool, (p = true → 0x80 ≤ c ∧ c ≤ 0xBF) → p = false := by
    intro c s e hb p hp
    cases p with
    | false => rfl
    | true => exact absurd (hp rfl) (key c s e hb)
  unfold lossyStep
  simp only
  rw [if_neg n1]
  by_cases g2 : 0xC2 ≤ b ∧ b ≤ 0xDF
  · have hb : ¬ (b < 0xC2 ∨ 0xF4 < b) := by
      simp only [le, lt] at g2 ⊢
      simp at g2 ⊢
      omega
    rw [if_pos g2]
    match r, cont with
    | [], _ => rfl
    | c :: s, cont =>
      simp only [cont c s rfl hb (decide (0x80 ≤ c) && decide (c ≤ 0xBF)) (by simp)]
      rfl
  rw [if_neg g2]
  by_cases g3 : 0xE0 ≤ b ∧ b ≤ 0xEF
  · have hb : ¬ (b < 0xC2 ∨ 0xF4 < b) := by
      simp only [le, lt] at g3 ⊢
      simp at g3 ⊢
      omega
    rw [if_pos g3]
    have hs : ∀ c s, r = c :: s → (if b = 0xE0 then decide (0xA0 ≤ c) && decide (c ≤ 0xBF) else if b = 0xED then decide (0x80 ≤ c) && decide (c ≤ 0x9F)
        else decide (0x80 ≤ c) && decide (c ≤ 0xBF)) = false := by
      intro c s e
      refine cont c s e hb _ ?_
      simp only [le]
      split
      · simp; omega
      · split
        · simp; omega
        · simp
    match r, hs with
    | [], _ => rfl
    | [c], hs => simp only [hs c [] rfl]; rfl
    | c :: d :: s, hs => simp only [hs c (d :: s) rfl]; rfl
  rw [if_neg g3]
  by_cases g4 : 0xF0 ≤ b ∧ b ≤ 0xF4
  · have hb : ¬ (b < 0xC2 ∨ 0xF4 < b) := by
      simp only [le, lt] at g4 ⊢
      simp at g4 ⊢
      omega
    rw [if_pos g4]
    have hs : ∀ c s, r = c :: s → (if b = 0xF0 then decide (0x90 ≤ c) && decide (c ≤ 0xBF) else if b = 0xF4 then decide (0x80 ≤ c) && decide (c ≤ 0x8F)
        else decide (0x80 ≤ c) && decide (c ≤ 0xBF)) = false := by
      intro c s e
      refine cont c s e hb _ ?_
      simp only [le]
      split
      · simp; omega
      · split
        · simp; omega
        · simp
    match r, hs with
    | [], _ => rfl
    | [c], hs => simp only [hs c [] rfl]; rfl
    | [c, d], hs => simp only [hs c [d] rfl]; rfl
    | c :: d :: e :: s, hs => simp only [hs c (d :: e :: s) rfl]; rfl
  rw [if_neg g4]

theorem lossyGo_nil (n : Nat) : lossyGo n [] = [] := by cases n <;> rfl

theorem lossyGo_text : ∀ (n : Nat) (t r : Bytes), utf8Valid t = true → (t ++ r).length ≤ n → ∃ k, r.length ≤ k ∧ lossyGo n (t ++ r) = t ++ lossyGo k r
  | n, [], r, _, hl => ⟨n, hl, rfl⟩
  | 0, a :: t, r, _, hl => by simp at hl
  | n + 1, a :: t, r, h, hl => by
    obtain ⟨h1, h2, h3⟩ := lossyStep_valid a t h
    obtain ⟨h4, h5⟩ := lossyStep_append a t r h
    generalize hk : lossyStep (a :: t) = p at h1 h2 h3 h4 h5
    obtain ⟨k, ok⟩ := p
    simp only at h1 h2 h3 h5
    have ed : (a :: t ++ r).drop k = (a :: t).drop k ++ r := List.drop_append_of_le_length h5
    obtain ⟨j, hj, e⟩ := lossyGo_text n ((a :: t).drop k) r h3 (by
      rw [List.length_append, List.length_drop]
      rw [List.length_append] at hl
      omega)
    refine ⟨j, hj, ?_⟩
    rw [List.cons_append, lossyGo, h4]
    · simp only [h1, if_true]
      rw [← List.cons_append, ed, e, List.take_append_of_le_length h5, ← List.append_assoc, List.take_append_drop]
    · exact fun e => by cases e

theorem lossyGo_lossy {s w : Bytes} (h : Spec.Lossy s w) : ∀ n, s.length ≤ n → lossyGo n s = w := by
  induction h with
  | nil => exact fun n _ => lossyGo_nil n
  | text t r w ht _ ih =>
    intro n hn
    obtain ⟨k, hk, e⟩ := lossyGo_text n t r ht hn
    rw [e, ih k hk]
  | byte b r w h1 h2 _ ih =>
    intro n hn
    cases n with
    | zero => simp at hn
    | succ n =>
      rw [lossyGo, lossyStep_byte b r h1 h2]
      · simp only [List.drop_one, List.tail_cons]
        rw [ih n (by simpa using hn)]
        rfl
      · exact fun e => by cases e

theorem decodePart_lossy {raw v w : Bytes} (h : Spec.Written raw v) (hv : Spec.Lossy v w) : decodePart raw = w := by
  rw [decodePart, written_decode h]
  exact lossyGo_lossy hv _ (Nat.le_refl _)

/-- Parameters as they are read. -/
def Spec.ReadAs (p p' : Bytes × Bytes) : Prop := Spec.Lossy p.1 p'.1 ∧ Spec.Lossy p.2 p'.2

theorem lossy_nil {w : Bytes} (h : Spec.Lossy [] w) : w = [] := by
  have := lossyGo_lossy h 0 (by simp)
  rw [← this]; rfl

theorem piece_lossy {raw : Bytes} {l l' : List (Bytes × Bytes)} (h : Spec.Piece raw l) (hl : List.Forall₂ Spec.ReadAs l l') :
    ([raw].filter (· ≠ [])).map (fun p => (decodePart (p.takeWhile (· ≠ 0x3d)), decodePart ((p.dropWhile (· ≠ 0x3d)).drop 1))) = l' := by
  cases h with
  | empty => cases hl; rfl
  | pair n v name value hn hv he =>
    cases hl with
    | cons hx hnil =>
      cases hnil
      rename_i p
      have hne : n ++ 0x3d :: v ≠ [] := by simp
      have hp : ∀ a ∈ n, (decide (a ≠ (0x3d : UInt8))) = true := fun a ha => decide_eq_true (fun e => he (e ▸ ha))
      rw [List.filter_cons, if_pos (decide_eq_true hne), List.filter_nil, List.map_singleton,
        List.takeWhile_append_of_pos hp, List.dropWhile_append_of_pos hp, List.takeWhile_cons_of_neg (by simp), List.dropWhile_cons_of_neg (by simp), List.append_nil,
        decodePart_lossy hn hx.1]
      rw [show ((0x3d : UInt8) :: v).drop 1 = v from rfl, decodePart_lossy hv hx.2]
  | name _ name hn he hne =>
    cases hl with
    | cons hx hnil =>
      cases hnil
      rename_i p
      have hp : ∀ a ∈ raw, (decide (a ≠ (0x3d : UInt8))) = true := fun a ha => decide_eq_true (fun e => he (e ▸ ha))
      rw [List.filter_cons, if_pos (decide_eq_true hne), List.filter_nil, List.map_singleton, List.takeWhile_eq_self_iff.2 hp, List.dropWhile_eq_nil_iff.2 hp,
        decodePart_lossy hn hx.1]
      rw [show decodePart (([] : Bytes).drop 1) = [] from rfl, ← lossy_nil hx.2]

theorem forall2_split {α β : Type} {R : α → β → Prop} {a b : List α} {l : List β} (h : List.Forall₂ R (a ++ b) l) :
    ∃ c d, l = c ++ d ∧ List.Forall₂ R a c ∧ List.Forall₂ R b d := by
  induction a generalizing l with
  | nil => exact ⟨[], l, rfl, .nil, h⟩
  | cons x a ih =>
    cases h with
    | cons hx ht =>
      obtain ⟨c, d, rfl, h1, h2⟩ := ih ht
      exact ⟨_ :: c, d, rfl, .cons hx h1, h2⟩

theorem queryPairs_lossy {q : Bytes} {ps ps' : List (Bytes × Bytes)} (h : Spec.QueryText q ps) (hu : List.Forall₂ Spec.ReadAs ps ps') : queryPairs q = ps' := by
  induction h generalizing ps' with
  | last raw l hp =>
    rw [queryPairs, splitOn_plain _ _ (piece_amp hp)]
    exact piece_lossy hp hu
  | more raw l q ps hp _ ih =>
    obtain ⟨c, d, rfl, h1, h2⟩ := forall2_split hu
    rw [queryPairs, splitOn_glue, splitOn_plain _ _ (piece_amp hp), List.filter_append, List.map_append, piece_lossy hp h1]
    exact congrArg _ (ih h2)

/-- **C146** (any encoding). Values and names in another encoding than UTF-8: the request is answered as the one in which every byte that belongs to no character is U+FFFD. -/
theorem C146_lossy {P : ServerExt} {m : Moment} {s : ServerState} {path q body : Bytes} {ps ps' : List (Bytes × Bytes)} (hq : Spec.QueryText q ps)
    (hu : List.Forall₂ Spec.ReadAs ps ps') (h : ∀ n ∈ Spec.known, Spec.times ps' n ≤ 1) (hp : path ≠ ascii "/") :
    serveRaw P m s { method := .get, path := path, query := q, body := body } = serve P m s (Spec.meant .get path body ps') := by
  unfold serveRaw
  rw [if_pos ⟨rfl, hp⟩]
  simp only [parseQuery_once (queryPairs_lossy hq hu) h]
  rfl

/-- `refspec=b%E4r`, a name in Latin 1. -/
example (P : ServerExt) (m : Moment) (s : ServerState) : serveRaw P m s { method := .get, path := ascii "/app/locks", query := ascii "refspec=b%E4r" } =
    serve P m s (Spec.meant .get (ascii "/app/locks") [] [(ascii "refspec", ascii "b" ++ [0xEF, 0xBF, 0xBD] ++ ascii "r")]) := by
  have w7 : Spec.Written (ascii "refspec") (ascii "refspec") := by
    repeat first | exact Spec.Written.nil | refine Spec.Written.plain _ _ _ (by decide) (by decide) (by decide) ?_
  have wv : Spec.Written (ascii "b%E4r") (ascii "b" ++ [0xE4] ++ ascii "r") :=
    .plain _ _ _ (by decide) (by decide) (by decide) (.code 0x45 0x34 14 4 _ _ ⟨by decide, by decide⟩ ⟨by decide, by decide⟩ (.plain _ _ _ (by decide) (by decide) (by decide) .nil))
  have t : ∀ t : Bytes, utf8Valid t = true → Spec.Lossy t t := fun t h => by
    have := Spec.Lossy.text t [] [] h .nil
    simpa using this
  refine C146_lossy (q := ascii "refspec" ++ 0x3d :: ascii "b%E4r") (ps := [(ascii "refspec", ascii "b" ++ [0xE4] ++ ascii "r")]) (.last _ _ (.pair _ _ _ _ w7 wv (by decide)))
    (.cons ⟨t _ (by decide +kernel), ?_⟩ .nil) (by decide) (by decide)
  exact .text (ascii "b") _ _ (by decide +kernel) (.byte 0xE4 _ _ (by decide) (.inr (.inr (by intro c e; cases e; decide))) (t _ (by decide +kernel)))

end Gust

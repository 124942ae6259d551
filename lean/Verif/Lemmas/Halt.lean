import Verif.Lemmas.Pack

/-! # Decoding a pack: termination lemmas -/

namespace Gust

namespace Res

@[simp] theorem halts_ok {α : Type u} (a : α) : (ok a).halts := trivial
@[simp] theorem halts_err {α : Type u} (e : GitErr) : (err e : Res α).halts := trivial
@[simp] theorem halts_panic {α : Type u} : (panic : Res α).halts := trivial

theorem halts_bind {α β : Type u} {x : Res α} {f : α → Res β} (hx : x.halts) (hf : ∀ a, x = ok a → (f a).halts) :
    (x >>= f).halts := by
  cases x with
  | ok a => exact hf a rfl
  | err e => trivial
  | panic => trivial
  | spin => exact hx

theorem halts_unwrap {α : Type u} {x : Res α} (hx : x.halts) : x.unwrap.halts := by
  cases x <;> simp_all [halts]

theorem halts_unwrapOpt {α : Type u} (x : Option α) : (unwrapOpt x).halts := by cases x <;> trivial

/-- Two computations that end, with the same outcome. -/
def Agree {α : Type u} (x y : Res α) : Prop := x = y ∧ x.halts

theorem agree_bind {α β : Type u} {x y : Res α} {f g : α → Res β} (hx : Agree x y)
    (hf : ∀ a, x = ok a → Agree (f a) (g a)) : Agree (x >>= f) (y >>= g) := by
  obtain ⟨rfl, hx⟩ := hx
  cases x with
  | ok a => exact hf a rfl
  | err e => exact ⟨rfl, trivial⟩
  | panic => exact ⟨rfl, trivial⟩
  | spin => exact absurd hx id

theorem agree_refl {α : Type u} {x : Res α} (h : x.halts) : Agree x x := ⟨rfl, h⟩

end Res

open Res

theorem readBytes_halts (n : Nat) (s : Bytes) : (readBytes n s).halts := by
  unfold readBytes; split <;> trivial

theorem readU32_halts (s : Bytes) : (readU32 s).halts :=
  halts_bind (readBytes_halts _ _) (fun _ _ => trivial)

theorem readSizeEncoding_halts (s : Bytes) : (readSizeEncoding s).halts := by
  rw [readSizeEncoding_exact]; split <;> trivial

theorem readTypeAndSize_halts (s : Bytes) : (readTypeAndSize s).halts :=
  halts_bind (readSizeEncoding_halts s) (fun _ _ => trivial)

theorem readOffsetLoop_halts (s : Bytes) : ∀ v, (readOffsetLoop v s).halts := by
  induction s with
  | nil => intro v; trivial
  | cons b s ih =>
    intro v
    rw [readOffsetLoop_cons]
    split
    · trivial
    · split
      · trivial
      · exact ih _

theorem readPartialInt_halts (n idx p : Nat) (s : Bytes) : (readPartialInt n idx p s).halts := by
  rw [readPartialInt_exact]; split <;> trivial

theorem checkHeader_halts (s : Bytes) : (checkHeader s).halts := by
  unfold checkHeader
  refine halts_bind (halts_unwrap (readBytes_halts _ _)) ?_
  rintro ⟨m, r⟩ _
  simp only
  split
  · trivial
  · refine halts_bind (halts_unwrap (readU32_halts _)) ?_
    rintro ⟨v, r⟩ _
    simp only
    split
    · trivial
    · exact halts_unwrap (readU32_halts _)

theorem applyDeltaInstruction_halts (base s res : Bytes) : (applyDeltaInstruction base s res).halts := by
  unfold applyDeltaInstruction
  split
  · trivial
  · split
    · split
      · trivial
      · exact halts_bind (halts_unwrap (readBytes_halts _ _)) (fun _ _ => trivial)
    · refine halts_bind (halts_unwrap (readPartialInt_halts _ _ _ _)) ?_
      rintro ⟨⟨o, p⟩, s⟩ _
      refine halts_bind (halts_unwrap (readPartialInt_halts _ _ _ _)) ?_
      rintro ⟨⟨z, p'⟩, s'⟩ _
      simp only
      split <;> split <;> trivial

theorem applyDeltaLoop_halts (base : Bytes) : ∀ (n : Nat) (s res : Bytes), s.length ≤ n →
    (applyDeltaLoop base s res).halts := by
  intro n
  induction n with
  | zero =>
    intro s res h
    obtain rfl := List.length_eq_zero_iff.1 (Nat.le_zero.1 h)
    rw [loop_done]; trivial
  | succ n ih =>
    intro s res h
    unfold applyDeltaLoop
    have hi := applyDeltaInstruction_halts base s res
    split
    · trivial
    · rename_i r e
      have := applyDeltaInstruction_shrinks e
      exact ih _ _ (by omega)
    · trivial
    · trivial
    · rename_i e
      rw [e] at hi
      exact hi

theorem new_halts (X : Ext) (t : ObjectType) (d : Bytes) : (MetaData.new X t d).halts := by
  cases t <;> trivial

theorem applyDeltaAt_halts (X : Ext) (base : MetaData) (r : Bytes) : (applyDeltaAt X base r).halts := by
  unfold applyDeltaAt
  split
  · trivial
  · refine halts_bind ?_ (fun _ _ => trivial)
    unfold applyDelta
    refine halts_bind (readSizeEncoding_halts _) ?_
    rintro ⟨a, s⟩ _
    simp only
    split
    · trivial
    · refine halts_bind (readSizeEncoding_halts _) ?_
      rintro ⟨a, s⟩ _
      simp only
      split
      · trivial
      · refine halts_bind (applyDeltaLoop_halts _ _ _ _ (Nat.le_refl _)) ?_
        intro out _
        split
        · trivial
        · exact new_halts _ _ _

theorem ofNumber_halts (k : Nat) : (ObjectType.ofNumber k).halts := by
  unfold ObjectType.ofNumber
  split <;> trivial

theorem baseObjectAt_halts (X : Ext) (k n : Nat) (r : Bytes) : (baseObjectAt X k n r).halts := by
  unfold baseObjectAt
  split
  · trivial
  · split
    · trivial
    · split
      · trivial
      · exact halts_bind (ofNumber_halts _) (fun _ _ => halts_bind (new_halts _ _ _) (fun _ _ => trivial))

theorem fromRow_halts (s : Bytes) : (Hash.fromRow s).halts := by
  unfold Hash.fromRow; split <;> trivial

theorem hashBase_halts (St : ObjectSource) (c : PackCache) (h : Hash) : (hashBase St c h).halts := by
  unfold hashBase; split
  · trivial
  · exact halts_unwrapOpt _

/-! ## What the readers return, whatever the input -/

theorem shl7_or_mod (v x : Nat) (hx : x < 128) : ((v <<< 7) % U64 ||| x) = (v * 128 + x) % U64 := by
  have e : v <<< 7 % U64 = (v % 2 ^ 57) <<< 7 := by
    rw [Nat.shiftLeft_eq, Nat.shiftLeft_eq]; unfold U64; omega
  rw [e, shift_or _ _ _ (by omega : x < 2 ^ 7)]
  unfold U64; omega

theorem offsetAcc_mod : ∀ (ds : List Nat) (a b : Nat), a % U64 = b % U64 → offsetAcc a ds % U64 = offsetAcc b ds % U64 := by
  intro ds
  induction ds with
  | nil => intro a b h; exact h
  | cons d ds ih =>
    intro a b h
    rw [offsetAcc.eq_def, offsetAcc.eq_def b]
    cases ds with
    | nil => simp only; unfold U64 at *; omega
    | cons e ds =>
      simp only
      exact ih _ _ (by unfold U64 at *; omega)

theorem readOffsetLoop_mod : ∀ (s : Bytes) (acc v : Nat) (rest : Bytes), readOffsetLoop acc s = .ok (v, rest) →
    ∃ ds, Spec.offsetDigits s = some (ds, rest) ∧ v = offsetAcc acc ds % U64 := by
  intro s
  induction s with
  | nil => intro acc v rest h; cases h
  | cons b s ih =>
    intro acc v rest h
    have hbt := b.toNat_lt
    rw [readOffsetLoop_cons] at h
    rw [Spec.offsetDigits]
    by_cases hlt : b.toNat < 128
    · simp only [hlt, if_true, Res.ok.injEq, Prod.mk.injEq] at h ⊢
      refine ⟨[b.toNat], by simp [h.2], ?_⟩
      rw [← h.1, shl7_or_mod _ _ (by omega), Nat.mod_eq_of_lt hlt]
      rfl
    · simp only [hlt, if_false] at h ⊢
      split at h
      · cases h
      · obtain ⟨ds, h1, h2⟩ := ih _ _ _ h
        rw [h1]
        refine ⟨_, rfl, ?_⟩
        have hne := offsetDigits_ne_nil h1
        have e : offsetAcc acc ((b.toNat - 128) :: ds) = offsetAcc (acc * 128 + (b.toNat - 128) + 1) ds := by
          rw [offsetAcc.eq_def]
          cases ds with
          | nil => exact absurd rfl hne
          | cons _ _ => rfl
        rw [e, h2]
        apply offsetAcc_mod
        rw [shl7_or_mod _ _ (by omega), show b.toNat % 128 = b.toNat - 128 by omega]
        unfold U64; omega

theorem readOffsetEncoding_mod {s : Bytes} {v : Nat} {rest : Bytes} (h : readOffsetEncoding s = .ok (v, rest)) :
    ∃ w, Spec.offsetField s = some (w, rest) ∧ v = w % 2 ^ 64 := by
  obtain ⟨ds, h1, h2⟩ := readOffsetLoop_mod _ _ _ _ h
  refine ⟨_, by rw [Spec.offsetField, h1], ?_⟩
  rw [h2, offsetAcc_eq _ _ (offsetDigits_ne_nil h1)]
  unfold U64
  simp

theorem readTypeAndSize_mod {s : Bytes} {k n : Nat} {rest : Bytes} (h : readTypeAndSize s = .ok ((k, n), rest)) :
    ∃ v, Spec.sizeField s = some (v, rest) ∧ v / 16 % 8 = k := by
  rw [readTypeAndSize, readSizeEncoding_exact, Spec.sizeField64] at h
  cases hf : Spec.sizeField s with
  | none => rw [hf] at h; cases h
  | some p =>
    obtain ⟨v, r⟩ := p
    rw [hf] at h
    simp only at h
    split at h
    · rename_i p' hp
      split at hp
      · cases hp
        simp only [Res.bind_ok, Res.pure_eq, Res.ok.injEq, Prod.mk.injEq, keepBits_eq, Nat.shiftRight_eq_div_pow] at h
        refine ⟨v, by rw [h.2], ?_⟩
        rw [← h.1.1]
        omega
      · cases hp
    · cases h

/-! ## Objects and whole packs -/

theorem nextObject_agree (X : Ext) (St : ObjectSource) (file : Bytes) : ∀ (off f1 f2 : Nat) (cache : PackCache),
    (∀ a, Spec.BaseOf file off a → ¬ Spec.ZeroDistance (file.drop a)) → off < f1 → off < f2 →
    Agree (nextObject X St file f1 off cache) (nextObject X St file f2 off cache) := by
  intro off
  induction off using Nat.strongRecOn with
  | _ off ih =>
    intro f1 f2 cache hz h1 h2
    obtain ⟨f1, rfl⟩ : ∃ g, f1 = g + 1 := ⟨f1 - 1, by omega⟩
    obtain ⟨f2, rfl⟩ : ∃ g, f2 = g + 1 := ⟨f2 - 1, by omega⟩
    rw [nextObject, nextObject]
    refine agree_bind (agree_refl (halts_unwrap (readTypeAndSize_halts _))) ?_
    rintro ⟨⟨k, n⟩, r⟩ hts
    rw [Res.unwrap_eq_ok] at hts
    simp only
    split
    · refine agree_bind (agree_refl (baseObjectAt_halts _ _ _ _)) (fun _ _ => agree_refl trivial)
    · split
      · rename_i hk
        refine agree_bind (agree_refl (halts_unwrap (readOffsetLoop_halts _ _))) ?_
        rintro ⟨d, r'⟩ ho
        rw [Res.unwrap_eq_ok] at ho
        simp only
        split
        · exact agree_refl trivial
        · rename_i hle
          refine agree_bind ?_ ?_
          · split
            · exact agree_refl trivial
            · obtain ⟨v, e1, e2⟩ := readTypeAndSize_mod hts
              obtain ⟨w, e3, e4⟩ := readOffsetEncoding_mod ho
              have hd : d ≠ 0 := by
                rintro rfl
                exact hz off (.here _) ⟨v, r, w, r', e1, by rw [e2, hk], e3, e4.symm⟩
              have hz' : ∀ a, Spec.BaseOf file (off - d) a → ¬ Spec.ZeroDistance (file.drop a) := by
                intro a ha
                subst e4
                exact hz a (.base off a v w r r' e1 (by rw [e2, hk]) e3 (by omega) ha)
              refine agree_bind (ih (off - d) (by omega) f1 f2 cache hz' (by omega) (by omega)) (fun _ _ => agree_refl trivial)
          · rintro ⟨m, c⟩ _
            exact agree_bind (agree_refl (applyDeltaAt_halts _ _ _)) (fun _ _ => agree_refl trivial)
      · split
        · refine agree_bind (agree_refl (halts_unwrap (readBytes_halts _ _))) ?_
          rintro ⟨row, r⟩ _
          refine agree_bind (agree_refl (fromRow_halts _)) ?_
          intro h _
          refine agree_bind (agree_refl (hashBase_halts _ _ _)) ?_
          intro b _
          exact agree_bind (agree_refl (applyDeltaAt_halts _ _ _)) (fun _ _ => agree_refl trivial)
        · exact agree_refl trivial

theorem applyDeltaAt_rest {X : Ext} {m : MetaData} {s : Bytes} {q : MetaData × Bytes} (h : applyDeltaAt X m s = .ok q) : ∃ d, X.inflate s = some (d, q.2) := by
  unfold applyDeltaAt at h
  split at h
  · cases h
  · rename_i d rest e
    simp only [Res.bind_eq_ok, Res.pure_eq, Res.ok.injEq] at h
    obtain ⟨_, _, rfl⟩ := h
    exact ⟨d, e⟩

theorem baseObjectAt_rest {X : Ext} {k n : Nat} {s : Bytes} {q : MetaData × Bytes} (h : baseObjectAt X k n s = .ok q) : ∃ d, X.inflate s = some (d, q.2) := by
  unfold baseObjectAt at h
  split at h
  · cases h
  · split at h
    · cases h
    · rename_i d rest e
      split at h
      · cases h
      · simp only [Res.bind_eq_ok, Res.pure_eq, Res.ok.injEq] at h
        obtain ⟨_, _, _, _, rfl⟩ := h
        exact ⟨d, e⟩

/-- Where reading continues after an object. -/
theorem nextObject_pos {X : Ext} {St : ObjectSource} {file : Bytes} {fuel off : Nat} {cache : PackCache}
    {r : (MetaData × PackCache) × Nat} (h : nextObject X St file fuel off cache = .ok r) :
    ∃ z d rest, Spec.entryBody (file.drop off) = some z ∧ X.inflate z = some (d, rest) ∧ r.2 = file.length - rest.length := by
  cases fuel with
  | zero => cases h
  | succ fuel =>
    rw [nextObject] at h
    simp only [Res.bind_eq_ok, Res.unwrap_eq_ok] at h
    obtain ⟨⟨⟨k, n⟩, s⟩, hs, h⟩ := h
    obtain ⟨v, e1, e2⟩ := readTypeAndSize_mod hs
    simp only at h
    unfold Spec.entryBody
    rw [e1]
    simp only
    rw [e2]
    split at h
    · simp only [Res.bind_eq_ok, Res.pure_eq, Res.ok.injEq] at h
      obtain ⟨a, ha, rfl⟩ := h
      obtain ⟨d, hd⟩ := baseObjectAt_rest ha
      rw [if_neg (by omega), if_neg (by omega)]
      exact ⟨_, _, _, rfl, hd, rfl⟩
    · split at h
      · rename_i hk
        simp only [Res.bind_eq_ok, Res.unwrap_eq_ok] at h
        obtain ⟨⟨d, s'⟩, ho, h⟩ := h
        obtain ⟨w, e3, _⟩ := readOffsetEncoding_mod ho
        simp only at h
        rw [if_pos hk, e3]
        split at h
        · cases h
        · simp only [Res.bind_eq_ok, Res.pure_eq, Res.ok.injEq] at h
          obtain ⟨a, _, b, hb, rfl⟩ := h
          obtain ⟨d, hd⟩ := applyDeltaAt_rest hb
          exact ⟨_, _, _, rfl, hd, rfl⟩
      · rename_i hk
        split at h
        · rename_i hk7
          simp only [Res.bind_eq_ok, Res.unwrap_eq_ok, Res.pure_eq, Res.ok.injEq] at h
          obtain ⟨⟨row, s'⟩, ha, b, _, c, _, d, hd, rfl⟩ := h
          obtain ⟨d, hd⟩ := applyDeltaAt_rest hd
          rw [if_neg hk, if_pos hk7]
          unfold readBytes at ha
          split at ha
          · simp only [Res.ok.injEq, Prod.mk.injEq] at ha
            exact ⟨_, _, _, rfl, by rw [ha.2]; exact hd, rfl⟩
          · cases ha
        · cases h

theorem decodeLoop_agree (X : Ext) (St : ObjectSource) (file : Bytes) (f1 f2 : Nat) (h1 : file.length < f1) (h2 : file.length < f2) :
    ∀ (n pos : Nat) (cache : PackCache), (∀ k p a, k < n → Spec.EntrySeq X.inflate file pos k p → Spec.BaseOf file p a → ¬ Spec.ZeroDistance (file.drop a)) →
    pos ≤ file.length →
    Agree (decodeLoop X St file f1 n pos cache) (decodeLoop X St file f2 n pos cache) := by
  intro n
  induction n with
  | zero => intro pos cache _ _; exact agree_refl trivial
  | succ n ih =>
    intro pos cache hz hp
    rw [decodeLoop, decodeLoop]
    refine agree_bind (nextObject_agree X St file pos f1 f2 cache (fun a => hz 0 pos a (Nat.succ_pos _) (.zero _)) (by omega) (by omega)) ?_
    rintro ⟨⟨m, c⟩, p⟩ e
    obtain ⟨z, d, rest, q1, q2, q3⟩ := nextObject_pos e
    simp only at q3
    simp only
    split
    · exact agree_refl trivial
    · refine ih _ _ (fun k p' a hk hs => ?_) (by omega)
      rw [q3] at hs
      exact hz (k + 1) p' a (Nat.succ_lt_succ hk) (.succ _ _ _ _ _ _ q1 q2 hs)

end Gust

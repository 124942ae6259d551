import Verif.Lemmas.Cache
import Verif.Model.Pack

/-! # What the cache of any decoded pack looks like, whatever the file -/

namespace Gust

theorem new_idem {X : Ext} {t : ObjectType} {d : Bytes} {m : MetaData} (h : MetaData.new X t d = .ok m) :
    MetaData.new X m.t m.data = .ok m := by
  have h' := h
  simp only [MetaData.new, Res.bind_eq_ok, Res.pure_eq, Res.ok.injEq] at h'
  obtain ⟨i, _, rfl⟩ := h'
  exact h

theorem applyDelta_real {X : Ext} {base m : MetaData} {d : Bytes} (h : applyDelta X base d = .ok m) :
    MetaData.new X m.t m.data = .ok m := by
  simp only [applyDelta, Res.bind_eq_ok] at h
  obtain ⟨⟨n, d'⟩, _, h⟩ := h
  simp only at h
  split at h
  · cases h
  · simp only [Res.bind_eq_ok] at h
    obtain ⟨⟨n', d''⟩, _, h⟩ := h
    simp only at h
    split at h
    · cases h
    · simp only [Res.bind_eq_ok] at h
      obtain ⟨r, _, h⟩ := h
      split at h
      · cases h
      · exact new_idem h

theorem applyDeltaAt_real {X : Ext} {base m : MetaData} {s r : Bytes} (h : applyDeltaAt X base s = .ok (m, r)) :
    MetaData.new X m.t m.data = .ok m := by
  rw [applyDeltaAt] at h
  split at h
  · cases h
  · simp only [Res.bind_eq_ok, Res.pure_eq, Res.ok.injEq, Prod.mk.injEq] at h
    obtain ⟨m', h1, rfl, _⟩ := h
    exact applyDelta_real h1

theorem baseObjectAt_real {X : Ext} {k size : Nat} {m : MetaData} {s r : Bytes} (h : baseObjectAt X k size s = .ok (m, r)) :
    MetaData.new X m.t m.data = .ok m := by
  rw [baseObjectAt] at h
  split at h
  · cases h
  · split at h
    · cases h
    · split at h
      · cases h
      · simp only [Res.bind_eq_ok, Res.pure_eq, Res.ok.injEq, Prod.mk.injEq] at h
        obtain ⟨t, _, m', h1, rfl, _⟩ := h
        exact new_idem h1

/-- A history of insertions of real objects at offsets up to `b`. -/
def HistOk (X : Ext) (b : Nat) (hist : List (MetaData × Nat)) : Prop :=
  ∀ q ∈ hist, q.2 ≤ b ∧ MetaData.new X q.1.t q.1.data = .ok q.1

theorem HistOk.mono {X : Ext} {a b : Nat} {hist : List (MetaData × Nat)} (h : HistOk X a hist) (hab : a ≤ b) :
    HistOk X b hist := fun q hq => ⟨Nat.le_trans (h q hq).1 hab, (h q hq).2⟩

theorem HistOk.append {X : Ext} {b : Nat} {h1 h2 : List (MetaData × Nat)} (a1 : HistOk X b h1) (a2 : HistOk X b h2) :
    HistOk X b (h1 ++ h2) := by
  intro q hq
  rcases List.mem_append.1 hq with h | h
  · exact a1 q h
  · exact a2 q h

/-- One object adds a nonempty history of real objects at offsets up to its own, ending with itself. -/
theorem nextObject_hist {X : Ext} {St : ObjectSource} {file : Bytes} : ∀ (fuel offset : Nat) (c : PackCache)
    {m : MetaData} {c' : PackCache} {pos : Nat}, nextObject X St file fuel offset c = .ok ((m, c'), pos) →
    ∃ hist, c' = (c.run hist).update m offset ∧ HistOk X offset hist ∧ MetaData.new X m.t m.data = .ok m := by
  intro fuel
  induction fuel with
  | zero => intro offset c m c' pos h; cases h
  | succ fuel ih =>
    intro offset c m c' pos h
    rw [nextObject] at h
    simp only [Res.bind_eq_ok] at h
    obtain ⟨⟨⟨k, size⟩, rest⟩, _, h⟩ := h
    simp only at h
    split at h
    · simp only [Res.bind_eq_ok, Res.pure_eq, Res.ok.injEq, Prod.mk.injEq] at h
      obtain ⟨⟨m', r⟩, h1, ⟨rfl, rfl⟩, _⟩ := h
      exact ⟨[], rfl, (by intro q hq; cases hq), baseObjectAt_real h1⟩
    · split at h
      · simp only [Res.bind_eq_ok] at h
        obtain ⟨⟨d, r⟩, _, h⟩ := h
        simp only at h
        split at h
        · cases h
        · simp only [Res.bind_eq_ok] at h
          obtain ⟨⟨base, c1⟩, h1, ⟨m', r'⟩, h2, h⟩ := h
          simp only [Res.pure_eq, Res.ok.injEq, Prod.mk.injEq] at h
          obtain ⟨⟨rfl, rfl⟩, _⟩ := h
          have hm := applyDeltaAt_real h2
          split at h1
          · simp only [Res.ok.injEq, Prod.mk.injEq] at h1
            obtain ⟨_, rfl⟩ := h1
            exact ⟨[], rfl, (by intro q hq; cases hq), hm⟩
          · simp only [Res.bind_eq_ok] at h1
            obtain ⟨⟨⟨b, c2⟩, p2⟩, h3, h1⟩ := h1
            simp only [Res.pure_eq, Res.ok.injEq, Prod.mk.injEq] at h1
            obtain ⟨rfl, rfl⟩ := h1
            obtain ⟨hist, e, g1, g2⟩ := ih _ _ h3
            refine ⟨hist ++ [(b, offset - d)], ?_, ?_, hm⟩
            · rw [PackCache.run_snoc, ← e]
            · refine HistOk.append (g1.mono (by omega)) ?_
              intro q hq
              rw [List.mem_singleton] at hq
              subst hq
              exact ⟨by simp, g2⟩
      · split at h
        · simp only [Res.bind_eq_ok, Res.pure_eq, Res.ok.injEq, Prod.mk.injEq] at h
          obtain ⟨⟨row, r⟩, _, hh, _, base, _, ⟨m', r'⟩, h2, ⟨rfl, rfl⟩, _⟩ := h
          exact ⟨[], rfl, (by intro q hq; cases hq), applyDeltaAt_real h2⟩
        · cases h

theorem decodeLoop_hist {X : Ext} {St : ObjectSource} {file : Bytes} {fuel : Nat} : ∀ (n pos : Nat) (c : PackCache)
    {c' : PackCache} {pos' : Nat}, decodeLoop X St file fuel n pos c = .ok (c', pos') →
    ∃ hist, c' = c.run hist ∧ HistOk X (2 ^ 32 - 1) hist ∧ n ≤ hist.length := by
  intro n
  induction n with
  | zero =>
    intro pos c c' pos' h
    simp only [decodeLoop, Res.ok.injEq, Prod.mk.injEq] at h
    exact ⟨[], h.1.symm, (by intro q hq; cases hq), by simp⟩
  | succ n ih =>
    intro pos c c' pos' h
    simp only [decodeLoop, Res.bind_eq_ok] at h
    obtain ⟨⟨⟨m, c1⟩, p1⟩, h1, h⟩ := h
    simp only at h
    split at h
    · cases h
    · rename_i hp
      obtain ⟨h2, e2, g2, gm⟩ := nextObject_hist _ _ _ h1
      obtain ⟨h3, e3, g3, gl⟩ := ih _ _ h
      refine ⟨h2 ++ [(m, pos)] ++ h3, ?_, ?_, by simp; omega⟩
      · rw [PackCache.run_append, PackCache.run_snoc, ← e2, e3]
      · refine HistOk.append (HistOk.append (g2.mono (by omega)) ?_) g3
        intro q hq
        rw [List.mem_singleton] at hq
        subst hq
        exact ⟨by simp only; omega, gm⟩

/-- The cache of a decoded pack, whatever the file was, is the result of inserting real objects at offsets below 2^32. -/
theorem decodePack_hist {X : Ext} {St : ObjectSource} {file : Bytes} {fuel : Nat} {pack : Pack}
    (h : decodePack X St fuel file = .ok pack) :
    ∃ hist, pack.result = PackCache.empty.run hist ∧ HistOk X (2 ^ 32 - 1) hist := by
  simp only [decodePack, Res.bind_eq_ok, Res.pure_eq, Res.ok.injEq] at h
  obtain ⟨⟨n, r⟩, _, ⟨c, p⟩, h1, _, _, _, _, rfl⟩ := h
  obtain ⟨hist, e, g, _⟩ := decodeLoop_hist _ _ _ h1
  exact ⟨hist, e, g⟩

end Gust

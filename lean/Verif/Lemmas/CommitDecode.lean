import Verif.Lemmas.Codec

/-! # What the decoders of identity lines and commits accept -/

namespace Gust

theorem findSub_some {p : Bytes} : ∀ {l : Bytes} {i : Nat}, findSub p l = some i → p <+: l.drop i
  | [], i, h => by
    simp only [findSub] at h
    split at h
    · rename_i e
      rw [e]
      exact List.nil_prefix
    · cases h
  | c :: l, i, h => by
    simp only [findSub] at h
    split at h
    · rename_i e
      cases h
      exact List.isPrefixOf_iff_prefix.1 e
    · obtain ⟨j, hj, rfl⟩ := Option.map_eq_some_iff.1 h
      exact findSub_some (l := l) hj

theorem parseUsize_lt {s : Bytes} {n : Nat} (h : parseUsize s = some n) : n < 2 ^ 64 := by
  simp only [parseUsize, parseUnsigned] at h
  split at h
  · cases h
  · split at h
    · split at h
      · rename_i hv
        cases h
        exact hv
      · cases h
    · cases h

theorem toStr_eq_ok {s t : Bytes} (h : toStr s = .ok t) : t = s ∧ utf8Valid s = true := by
  unfold toStr at h
  split at h
  · rename_i hu
    exact ⟨(Res.ok.inj h).symm, hu⟩
  · cases h

/-- Every identity line the decoder accepts has fields which the encoder can write. -/
theorem sign_decode_ok {d : Bytes} {s : AuthorSign} (h : AuthorSign.decode d = .ok s) :
    Spec.SignOk s ∧ ((0x0a : UInt8) ∉ d → Spec.OneLine s) ∧ ∃ rest, d = s.t ++ 0x20 :: rest := by
  simp only [AuthorSign.decode, Res.bind_eq_ok, Res.unwrapOpt_eq_ok] at h
  obtain ⟨ns, h1, t0, h2, t, h3, es, h4, ee, h5, h⟩ := h
  split at h
  · cases h
  rename_i hes
  simp only [Res.bind_eq_ok, Res.unwrapOpt_eq_ok, Res.pure_eq, Res.ok.injEq] at h
  obtain ⟨n0, h6, name, h7, e0, h8, email, h9, rest, h10, sp, h11, ts0, h12, ts, h13, time, h14, z0, h15, tz, h16, rfl⟩ := h
  obtain ⟨rfl, ht⟩ := toStr_eq_ok h3
  obtain ⟨rfl, hn⟩ := toStr_eq_ok h7
  obtain ⟨rfl, he⟩ := toStr_eq_ok h9
  obtain ⟨rfl, hz⟩ := toStr_eq_ok h16
  obtain ⟨a, b, e1, rfl, ha⟩ := findByte_some h1
  obtain ⟨a2, b2, e2, rfl, ha2⟩ := findByte_some h4
  obtain ⟨a3, b3, e3, rfl, ha3⟩ := findByte_some h5
  obtain ⟨_, _, k2⟩ := slice_ok h2
  obtain ⟨l6, m6, k6⟩ := slice_ok h6
  obtain ⟨l8, m8, k8⟩ := slice_ok h8
  obtain ⟨_, k10⟩ := sliceFrom_ok h10
  obtain ⟨_, k15⟩ := sliceFrom_ok h15
  have hta : t = a := by rw [k2, e1]; simp
  have sub2 : ∀ x ∈ name, x ∈ a2 := by
    intro x hx
    rw [k6] at hx
    have := List.mem_of_mem_drop hx
    rw [e2, List.take_append_of_le_length (by omega)] at this
    exact List.mem_of_mem_take this
  have pre23 : ∀ x ∈ a2, x ∈ a3 := by
    have : a2 = a3.take a2.length := by
      have e := congrArg (List.take a2.length) (e2.symm.trans e3)
      rw [List.take_left', List.take_append_of_le_length (by omega)] at e
      · exact e
      · rfl
    intro x hx
    rw [this] at hx
    exact List.mem_of_mem_take hx
  have pre12 : ∀ x ∈ a, x ∈ a2 := by
    have : a = a2.take a.length := by
      have e := congrArg (List.take a.length) (e1.symm.trans e2)
      rw [List.take_left', List.take_append_of_le_length (by omega)] at e
      · exact e
      · rfl
    intro x hx
    rw [this] at hx
    exact List.mem_of_mem_take hx
  have subE : ∀ x ∈ email, x ∈ a3 := by
    intro x hx
    rw [k8] at hx
    have := List.mem_of_mem_drop hx
    rw [e3, List.take_left' rfl] at this
    exact this
  have ind : ∀ x ∈ a3, x ∈ d := fun x hx => by rw [e3]; exact List.mem_append_left _ hx
  refine ⟨⟨?_, ?_, ?_, ?_, ?_, ?_, ht, hn, he, hz, parseUsize_lt h14⟩, fun hd => ⟨?_, ?_, ?_, ?_⟩, b, ?_⟩
  · rw [hta]; exact ha
  · rw [hta]; exact fun hx => ha2 (pre12 _ hx)
  · rw [hta]; exact fun hx => ha3 (pre23 _ (pre12 _ hx))
  · exact fun hx => ha2 (sub2 _ hx)
  · exact fun hx => ha3 (pre23 _ (sub2 _ hx))
  · exact fun hx => ha3 (subE _ hx)
  · rw [hta]; exact fun hx => hd (ind _ (pre23 _ (pre12 _ hx)))
  · exact fun hx => hd (ind _ (pre23 _ (sub2 _ hx)))
  · exact fun hx => hd (ind _ (subE _ hx))
  · intro hx
    rw [k15] at hx
    have := List.mem_of_mem_drop hx
    rw [k10] at this
    exact hd (List.mem_of_mem_drop this)
  · rw [hta]; exact e1

theorem firstLine_noNl {x y : Bytes} {i n : Nat} (k1 : findByte 0x0a x = some n) (k2 : slice x i n = .ok y) : (0x0a : UInt8) ∉ y := by
  obtain ⟨p, q, e, rfl, hp⟩ := findByte_some k1
  obtain ⟨_, _, e2⟩ := slice_ok k2
  rw [e2, e, List.take_left' rfl]
  exact fun h => hp (List.mem_of_mem_drop h)

theorem role_prefix {word d t text rest : Bytes} (h : word <+: d) (ht : text <+: d) (e : text = t ++ 0x20 :: rest) (hw : (0x20 : UInt8) ∉ word) : word <+: t := by
  have q2 : t ++ [0x20] <+: d := (show t ++ [0x20] <+: text from ⟨rest, by rw [e]; simp⟩).trans ht
  rcases Nat.lt_or_ge t.length word.length with hl | hl
  · have q3 := List.prefix_of_prefix_length_le q2 h (by simp only [List.length_append, List.length_singleton]; omega)
    exact absurd (q3.subset (List.mem_append_right _ (List.mem_singleton.2 rfl))) hw
  · exact List.prefix_of_prefix_length_le h ((List.prefix_append _ _).trans q2) hl

/-- Every commit the decoder accepts is one the encoder can write. -/
theorem commit_decode_ok {d : Bytes} {c : Commit} (h : Commit.decode d = .ok c) : Spec.CommitOk c := by
  simp only [Commit.decode, Res.bind_eq_ok, Res.unwrapOpt_eq_ok, Res.pure_eq, Res.ok.injEq] at h
  obtain ⟨tb, h1, te, h2, tt, h3, ti, h4, d1, h5, ab, h6, ps, h7, d2, h8, nl, h9, ad, h10, au, h11, d3, h12, nl2, h13, cd, h14, co, h15, m0, h16, m, h17, rfl⟩ := h
  obtain ⟨a1, a2, rest, e⟩ := sign_decode_ok h11
  obtain ⟨c1, c2, _⟩ := sign_decode_ok h15
  refine ⟨a1, a2 (firstLine_noNl h9 h10), ?_, c1, c2 (firstLine_noNl h13 h14), (toStr_eq_ok h17).1 ▸ (toStr_eq_ok h17).2⟩
  obtain ⟨_, e2⟩ := sliceFrom_ok h8
  obtain ⟨_, _, e3⟩ := slice_ok h10
  exact role_prefix (d := d2) (by rw [e2]; exact findSub_some h6) (by rw [e3, List.drop_zero]; exact List.take_prefix _ _) e (by decide)

theorem parentLoop_same (data : Bytes) (stop : Nat) : ∀ (n i : Nat) (ps : List Hash), stop - i = n → parentLoop data stop i = .ok ps → ∀ p ∈ ps, ∀ q ∈ ps, p = q := by
  have key : ∃ x : Option Hash, ∀ (n i : Nat) (ps : List Hash), stop - i = n → parentLoop data stop i = .ok ps → ∀ p ∈ ps, some p = x := by
    refine ⟨(findByte 0x20 data).bind (fun b => (findByte 0x0a data).bind (fun e => Hash.fromBytes ((data.take e).drop (b + 1)))), ?_⟩
    intro n
    induction n using Nat.strongRecOn with
    | _ n ih =>
      intro i ps hn h p hp
      rw [parentLoop] at h
      split at h
      · rename_i hi
        split at h
        · rename_i b e hb he
          simp only [Res.bind_eq_ok, Res.unwrapOpt_eq_ok, Res.pure_eq, Res.ok.injEq] at h
          obtain ⟨text, h1, q, h2, qs, h3, rfl⟩ := h
          obtain ⟨_, _, e1⟩ := slice_ok h1
          rcases List.mem_cons.1 hp with rfl | hp
          · rw [hb, he]
            simp only [Option.bind_some]
            rw [← e1, h2]
          · exact ih (stop - (i + e + 1)) (by omega) _ qs rfl h3 p hp
        · cases h
      · cases h
        cases hp
  obtain ⟨x, hx⟩ := key
  intro n i ps hn h p hp q hq
  exact Option.some.inj ((hx n i ps hn h p hp).trans (hx n i ps hn h q hq).symm)

/-- All parents of a decoded commit are the same. -/
theorem commit_decode_parents {d : Bytes} {c : Commit} (h : Commit.decode d = .ok c) : ∀ p ∈ c.parents, ∀ q ∈ c.parents, p = q := by
  simp only [Commit.decode, Res.bind_eq_ok, Res.unwrapOpt_eq_ok, Res.pure_eq, Res.ok.injEq] at h
  obtain ⟨tb, h1, te, h2, tt, h3, ti, h4, d1, h5, ab, h6, ps, h7, d2, h8, nl, h9, ad, h10, au, h11, d3, h12, nl2, h13, cd, h14, co, h15, m0, h16, m, h17, rfl⟩ := h
  unfold decodeParents at h7
  split at h7
  · exact parentLoop_same d1 ab _ 0 ps rfl h7
  · cases h7
    intro p hp
    cases hp

/-- Every tag the decoder accepts is one the encoder can write, with a message that begins with a line feed. -/
theorem tag_decode_ok {d : Bytes} {g : Tag} (h : Tag.decode d = .ok g) : Spec.TagOk g ∧ g.message.head? = some 0x0a := by
  simp only [Tag.decode, Res.bind_eq_ok, Res.unwrapOpt_eq_ok, Res.unwrap_eq_ok, Res.pure_eq, Res.ok.injEq] at h
  obtain ⟨b1, h1, e1, h2, t1, h3, ob, h4, d1, h5, b2, h6, e2, h7, t2, h8, t2', h9, ty, h10, d2, h11, b3, h12, e3, h13, t3, h14, tag, h15, d3, h16,
    b4, h17, e4, h18, t4, h19, tg, h20, e5, h21, d4, h22, e6, h23, m0, h24, m, h25, rfl⟩ := h
  obtain ⟨a1, a2, rest, e⟩ := sign_decode_ok h20
  obtain ⟨rfl, hm⟩ := toStr_eq_ok h25
  obtain ⟨rfl, ht⟩ := toStr_eq_ok h15
  obtain ⟨_, _, k19⟩ := slice_ok h19
  obtain ⟨_, k24⟩ := sliceFrom_ok h24
  refine ⟨⟨?_, firstLine_noNl h13 h14, ht, a1, a2 (firstLine_noNl h18 h19), ?_, hm⟩, ?_⟩
  · unfold ObjectType.fromString at h10
    repeat' split at h10
    all_goals first | (cases h10; simp) | cases h10
  · exact role_prefix (findSub_some h17) (by rw [k19, List.drop_take]; exact List.take_prefix _ _) e (by decide)
  · obtain ⟨p, q, k, rfl, _⟩ := findByte_some h23
    simp only
    rw [k24, k, List.drop_left' rfl]
    rfl

end Gust

import Verif.Lemmas.Codec
import Verif.Model.Protocol
import Verif.Spec.Protocol
import Verif.Base.Tactics

/-! # Lemmas about pkt-lines -/

namespace Gust

theorem hexDigit_eq : ∀ d < 16, Spec.hexDigit d = digitChar d := by decide

theorem hexVal_hexDigit : ∀ d < 16, Spec.hexVal (Spec.hexDigit d) = some d := by decide

theorem toDigits16 (n : Nat) : toDigits 16 n = if n < 16 then [n] else toDigits 16 (n / 16) ++ [n % 16] := by
  rw [toDigits]
  by_cases h : n < 16
  · simp [h]
  · simp [h]

/-- `{:04x}` below 65536 is the four-digit form. -/
theorem hex4_len4 (n : Nat) (h : n < 65536) : hex4 n = Spec.len4 n := by
  have d0 : digitChar 0 = 48 := by decide
  have e : Spec.len4 n = [digitChar (n / 4096 % 16), digitChar (n / 256 % 16), digitChar (n / 16 % 16),
      digitChar (n % 16)] := by
    rw [Spec.len4, hexDigit_eq _ (Nat.mod_lt _ (by decide)), hexDigit_eq _ (Nat.mod_lt _ (by decide)),
      hexDigit_eq _ (Nat.mod_lt _ (by decide)), hexDigit_eq _ (Nat.mod_lt _ (by decide))]
  rw [e, hex4, hexStr]
  rw [toDigits16 n]
  by_cases h1 : n < 16
  · have a1 : n / 4096 % 16 = 0 := by omega
    have a2 : n / 256 % 16 = 0 := by omega
    have a3 : n / 16 % 16 = 0 := by omega
    have a4 : n % 16 = n := by omega
    simp [h1, a1, a2, a3, a4, d0, List.replicate]
  · rw [toDigits16 (n / 16)]
    by_cases h2 : n / 16 < 16
    · have a1 : n / 4096 % 16 = 0 := by omega
      have a2 : n / 256 % 16 = 0 := by omega
      have a3 : n / 16 % 16 = n / 16 := by omega
      simp [h1, h2, a1, a2, a3, d0, List.replicate]
    · rw [toDigits16 (n / 16 / 16)]
      by_cases h3 : n / 16 / 16 < 16
      · have a1 : n / 4096 % 16 = 0 := by omega
        have a2 : n / 256 % 16 = n / 16 / 16 := by omega
        simp [h1, h2, h3, a1, a2, d0, List.replicate]
      · rw [toDigits16 (n / 16 / 16 / 16)]
        have h4 : n / 16 / 16 / 16 < 16 := by omega
        have a1 : n / 4096 % 16 = n / 16 / 16 / 16 := by omega
        have a2 : n / 256 % 16 = n / 16 / 16 % 16 := by omega
        simp [h1, h2, h3, h4, a1, a2, List.replicate]

theorem len4_length (n : Nat) : (Spec.len4 n).length = 4 := rfl

theorem parseHex_len4 (n : Nat) (h : n < 65536) : parseHexUsize (Spec.len4 n) = some n := by
  rw [← hex4_len4 n h]; exact parseHex_hex4 n (by unfold U64; omega)

theorem addPktLine_frame (s b : Bytes) (h : b.length ≤ 65531) :
    addPktLine s b = s ++ Spec.frame (.line b) := by
  rw [addPktLine, hex4_len4 _ (by omega), Spec.frame, List.append_assoc]

theorem flushPkt_frame : flushPkt = Spec.frame .flush := by decide

theorem foldl_addPktLine (ls : List Bytes) : ∀ (s : Bytes), (∀ l ∈ ls, l.length ≤ 65531) →
    ls.foldl addPktLine s = s ++ Spec.stream (ls.map .line) := by
  induction ls with
  | nil => intro s _; simp [Spec.stream]
  | cons l ls ih =>
    intro s h
    rw [List.foldl_cons, addPktLine_frame s l (h l (by simp)), ih _ (fun x hx => h x (by simp [hx]))]
    simp [Spec.stream]

theorem stream_append (a b : List Spec.Pkt) : Spec.stream (a ++ b) = Spec.stream a ++ Spec.stream b := by
  simp [Spec.stream]

theorem stream_cons (p : Spec.Pkt) (b : List Spec.Pkt) : Spec.stream (p :: b) = Spec.frame p ++ Spec.stream b := by
  simp [Spec.stream]

theorem frame_length (p : Spec.Pkt) : 4 ≤ (Spec.frame p).length := by
  cases p with
  | flush => simp [Spec.frame]
  | line b => simp [Spec.frame, len4_length]

theorem readPktLine_flush (rest : Bytes) : readPktLine ([48, 48, 48, 48] ++ rest) = .ok ((0, []), rest) := by
  rw [readPktLine, if_neg (by simp), if_neg (by simp)]
  have : parseHexUsize (([48, 48, 48, 48] ++ rest : Bytes).take 4) = some 0 := by
    show parseHexUsize [48, 48, 48, 48] = some 0
    decide
  simp only [this]
  rfl

theorem readPktLine_line (b rest : Bytes) (hb : b.length ≤ 65531) :
    readPktLine (Spec.len4 (b.length + 4) ++ (b ++ rest)) = .ok ((b.length + 4, b), rest) := by
  rw [readPktLine, if_neg (by simp [Spec.len4]), if_neg (by simp [Spec.len4])]
  rw [List.take_left' (len4_length _), parseHex_len4 _ (by omega), List.drop_left' (len4_length _)]
  simp only
  rw [if_neg (by omega), if_neg (by omega), if_neg (by simp)]
  simp

theorem readPktLine_frame (p : Spec.Pkt) (rest : Bytes) (h : p.Fits) :
    readPktLine (Spec.frame p ++ rest) = .ok (p.observed, rest) := by
  cases p with
  | flush => exact readPktLine_flush rest
  | line b =>
    have e : Spec.frame (.line b) ++ rest = Spec.len4 (b.length + 4) ++ (b ++ rest) := by simp [Spec.frame]
    rw [e]; exact readPktLine_line b rest h

theorem readPkt_frame (p : Spec.Pkt) (rest : Bytes) (h : p.Fits) :
    Spec.readPkt (Spec.frame p ++ rest) = some (p, rest) := by
  cases p with
  | flush => simp [Spec.frame, Spec.readPkt, Spec.hexVal]
  | line b =>
    have hb : b.length ≤ 65531 := h
    generalize hn : b.length + 4 = n
    have e0 : Spec.frame (.line b) ++ rest = Spec.hexDigit (n / 4096 % 16) :: Spec.hexDigit (n / 256 % 16) ::
      Spec.hexDigit (n / 16 % 16) :: Spec.hexDigit (n % 16) :: (b ++ rest) := by
      simp [Spec.frame, Spec.len4, hn]
    rw [e0, Spec.readPkt]
    rw [hexVal_hexDigit _ (Nat.mod_lt _ (by decide)), hexVal_hexDigit _ (Nat.mod_lt _ (by decide)),
      hexVal_hexDigit _ (Nat.mod_lt _ (by decide)), hexVal_hexDigit _ (Nat.mod_lt _ (by decide))]
    simp only
    have e : n / 4096 % 16 * 4096 + n / 256 % 16 * 256 + n / 16 % 16 * 16 + n % 16 = n := by omega
    have e2 : n - 4 = b.length := by omega
    rw [e, if_neg (by omega), e2, if_neg (by simp; omega)]
    simp

theorem readPktsFuel_stream (ps : List Spec.Pkt) : ∀ n, ps.length ≤ n → (∀ p ∈ ps, p.Fits) →
    Spec.readPktsFuel n (Spec.stream ps) = some ps := by
  induction ps with
  | nil => intro n _ _; cases n <;> simp [Spec.stream, Spec.readPktsFuel]
  | cons p ps ih =>
    intro n hn hf
    obtain ⟨n, rfl⟩ : ∃ m, n = m + 1 := ⟨n - 1, by rw [List.length_cons] at hn; omega⟩
    rw [stream_cons]
    have hne : Spec.frame p ++ Spec.stream ps ≠ [] := by
      have h4 := frame_length p
      intro e
      have := congrArg List.length e
      rw [List.length_append, List.length_nil] at this; omega
    obtain ⟨x, xs, hx⟩ := List.exists_cons_of_ne_nil hne
    have := readPkt_frame p (Spec.stream ps) (hf p (by simp))
    rw [hx] at this ⊢
    rw [Spec.readPktsFuel]
    · rw [this]; simp only; rw [ih n (by simpa using hn) (fun q hq => hf q (by simp [hq]))]; rfl
    · simp

theorem stream_length (ps : List Spec.Pkt) : 4 * ps.length ≤ (Spec.stream ps).length := by
  induction ps with
  | nil => simp
  | cons p ps ih => rw [stream_cons]; have := frame_length p; simp; omega

/-- A client reads back the packets of a stream. -/
theorem readPkts_stream (ps : List Spec.Pkt) (h : ∀ p ∈ ps, p.Fits) : Spec.readPkts (Spec.stream ps) = some ps :=
  readPktsFuel_stream ps _ (by have := stream_length ps; omega) h

/-- A flush or a line uses up at least four bytes of a non-empty input. -/
theorem readPktLine_shrinks {s : Bytes} {r : Nat × Bytes} {rest : Bytes} (hs : s ≠ [])
    (h : readPktLine s = .ok (r, rest)) : rest.length + 4 ≤ s.length := by
  rw [readPktLine, if_neg hs] at h
  split at h
  · cases h
  split at h
  · cases h
  simp only at h
  split at h
  · simp only [Res.ok.injEq, Prod.mk.injEq] at h
    rw [← h.2, List.length_drop]; omega
  split at h
  · cases h
  split at h
  · cases h
  simp only [Res.ok.injEq, Prod.mk.injEq] at h
  rw [← h.2, List.length_drop, List.length_drop]; omega

/-! ## Capabilities: trimming and splitting -/

theorem splitOn_ne_nil (c : UInt8) (s : Bytes) : splitOn c s ≠ [] := by
  induction s with
  | nil => simp [splitOn]
  | cons b s ih =>
    rw [splitOn]; split
    · simp
    · split <;> simp

theorem splitOn_notin (c : UInt8) (s : Bytes) : ∀ w ∈ splitOn c s, c ∉ w := by
  induction s with
  | nil => simp [splitOn]
  | cons b s ih =>
    rw [splitOn]; split
    · intro w hw
      rcases List.mem_cons.1 hw with rfl | hw
      · simp
      · exact ih w hw
    · rename_i hb
      split
      · rename_i w ws hs
        intro v hv
        rcases List.mem_cons.1 hv with rfl | hv
        · have := ih w (by rw [hs]; simp)
          simp [this, Ne.symm hb]
        · exact ih v (by rw [hs]; simp [hv])
      · intro v hv
        simp at hv; subst hv; simp [Ne.symm hb]

theorem splitOn_intercalate (c : UInt8) (s : Bytes) : [c].intercalate (splitOn c s) = s := by
  induction s with
  | nil => simp [splitOn]
  | cons b s ih =>
    rw [splitOn]; split
    · rename_i hb
      subst hb
      obtain ⟨w, ws, hs⟩ := List.exists_cons_of_ne_nil (splitOn_ne_nil b s)
      rw [hs] at ih ⊢
      rw [List.intercalate_cons_cons, ih]; simp
    · split
      · rename_i w ws hs
        rw [hs] at ih
        cases ws with
        | nil => simp at ih ⊢; exact ih
        | cons v vs =>
          rw [List.intercalate_cons_cons] at ih ⊢
          simp only [List.cons_append]
          rw [ih]
      · rename_i hs; exact absurd hs (splitOn_ne_nil c s)

theorem splitOn_append (c : UInt8) (a s : Bytes) (h : c ∉ a) : splitOn c (a ++ c :: s) = a :: splitOn c s := by
  induction a with
  | nil => simp [splitOn]
  | cons b a ih =>
    simp only [List.mem_cons, not_or] at h
    rw [List.cons_append, splitOn, if_neg (Ne.symm h.1), ih h.2]

theorem splitOn_single (c : UInt8) (a : Bytes) (h : c ∉ a) : splitOn c a = [a] := by
  induction a with
  | nil => simp [splitOn]
  | cons b a ih =>
    simp only [List.mem_cons, not_or] at h
    rw [splitOn, if_neg (Ne.symm h.1), ih h.2]

/-- Splitting is determined by its pieces. -/
theorem splitOn_unique (c : UInt8) : ∀ (ws : List Bytes) (s : Bytes), ws ≠ [] → (∀ w ∈ ws, c ∉ w) →
    [c].intercalate ws = s → splitOn c s = ws := by
  intro ws
  induction ws with
  | nil => intro s h; exact absurd rfl h
  | cons w ws ih =>
    intro s _ hn hs
    cases ws with
    | nil => simp at hs; subst hs; exact splitOn_single c w (hn w (by simp))
    | cons v vs =>
      rw [List.intercalate_cons_cons] at hs
      subst hs
      simp only [List.append_assoc, List.singleton_append]
      rw [splitOn_append c w _ (hn w (by simp)), ih _ (by simp) (fun x hx => hn x (by simp [hx])) rfl]

theorem wsLen_le (s : Bytes) : wsLen s ≤ s.length := by
  unfold wsLen
  repeat' split
  all_goals simp

theorem wsLenRev_le (s : Bytes) : wsLenRev s ≤ s.length := by
  unfold wsLenRev
  repeat' split
  all_goals simp

theorem dropWs_stop (len : Bytes → Nat) (s : Bytes) (h : len s = 0) : dropWs len s = s := by
  rw [dropWs]; simp [h]

theorem dropWs_step (len : Bytes → Nat) (s : Bytes) (h : len s ≠ 0) (hs : s ≠ []) :
    dropWs len s = dropWs len (s.drop (len s)) := by
  conv => lhs; rw [dropWs]
  simp [h, hs]

/-- A white-space character at the front is recognised, whatever follows. -/
theorem wsLen_char {c : Bytes} (h : Spec.WsChar c) (s : Bytes) : wsLen (c ++ s) = c.length := by
  cases h <;> simp [wsLen, *] <;> decide

theorem wsLen_inv (s : Bytes) (h : wsLen s ≠ 0) : Spec.WsChar (s.take (wsLen s)) := by
  unfold wsLen at h ⊢
  split at h
  · exact absurd rfl h
  rename_i a s
  split at h
  · rename_i ha
    simp only [ha, if_true]
    rcases ha with ha | rfl
    · exact .tab_to_cr a ha.1 ha.2
    · exact .space
  rename_i ha
  simp only [ha, if_false]
  split at h
  swap
  · exact absurd rfl h
  rename_i b s
  split at h
  · rename_i hb
    simp only [hb, if_true]
    obtain ⟨rfl, rfl | rfl⟩ := hb
    · exact .nel
    · exact .nbsp
  rename_i hb
  simp only [hb, if_false]
  split at h
  swap
  · exact absurd rfl h
  rename_i c s
  split at h
  · rename_i hc
    simp only [hc, if_true]
    rcases hc with ⟨rfl, rfl, rfl⟩ | ⟨rfl, rfl, h | rfl | rfl | rfl⟩ | ⟨rfl, rfl, rfl⟩ | ⟨rfl, rfl, rfl⟩
    · exact .ogham
    · exact .u2000 c h.1 h.2
    · exact .u2028
    · exact .u2029
    · exact .u202f
    · exact .u205f
    · exact .u3000
  · exact absurd rfl h

theorem wsLenRev_inv (s : Bytes) (h : wsLenRev s ≠ 0) : Spec.WsChar (s.take (wsLenRev s)).reverse := by
  unfold wsLenRev at h ⊢
  split at h
  · exact absurd rfl h
  rename_i a s
  split at h
  · rename_i ha
    simp only [ha, if_true]
    rcases ha with ha | rfl
    · exact .tab_to_cr a ha.1 ha.2
    · exact .space
  rename_i ha
  simp only [ha, if_false]
  split at h
  swap
  · exact absurd rfl h
  rename_i b s
  split at h
  · rename_i hb
    simp only [hb, if_true]
    obtain ⟨rfl, rfl | rfl⟩ := hb
    · exact .nel
    · exact .nbsp
  rename_i hb
  simp only [hb, if_false]
  split at h
  swap
  · exact absurd rfl h
  rename_i c s
  split at h
  · rename_i hc
    simp only [hc, if_true]
    rcases hc with ⟨rfl, rfl, rfl⟩ | ⟨rfl, rfl, h | rfl | rfl | rfl⟩ | ⟨rfl, rfl, rfl⟩ | ⟨rfl, rfl, rfl⟩
    · exact .ogham
    · exact .u2000 a h.1 h.2
    · exact .u2028
    · exact .u2029
    · exact .u202f
    · exact .u205f
    · exact .u3000
  · exact absurd rfl h

theorem wsLenRev_char {c : Bytes} (h : Spec.WsChar c) (s : Bytes) : wsLenRev (c.reverse ++ s) = c.length := by
  cases h with
  | tab_to_cr b h1 h2 => simp [wsLenRev, h1, h2]
  | u2000 b h1 h2 =>
    have a1 : ¬ ((9 ≤ b ∧ b ≤ 13) ∨ b = 32) := by
      rintro (⟨_, h⟩ | rfl)
      · exact absurd (UInt8.le_trans h1 h) (by decide)
      · exact absurd h1 (by decide)
    simp [wsLenRev, h1, h2, a1]
  | _ => rfl

theorem Ws_append {a b : Bytes} (ha : Spec.Ws a) (hb : Spec.Ws b) : Spec.Ws (a ++ b) := by
  induction ha with
  | nil => exact hb
  | cons hc _ ih => rw [List.append_assoc]; exact .cons hc ih

theorem WsChar_length {c : Bytes} (h : Spec.WsChar c) : c.length ≠ 0 := by cases h <;> simp

theorem dropWs_ws {l : Bytes} (hl : Spec.Ws l) (s : Bytes) : dropWs wsLen (l ++ s) = dropWs wsLen s := by
  induction hl with
  | nil => rfl
  | @cons c l hc _ ih =>
    have hlen := wsLen_char hc (l ++ s)
    have hne := WsChar_length hc
    rw [List.append_assoc, dropWs_step _ _ (by omega), hlen, List.drop_left]
    · exact ih
    · intro e
      rw [List.append_eq_nil_iff] at e
      exact hne (by simp [e.1])

theorem dropWs_wsRev {l : Bytes} (hl : Spec.Ws l) : ∀ s, dropWs wsLenRev (l.reverse ++ s) = dropWs wsLenRev s := by
  induction hl with
  | nil => intro s; rfl
  | @cons c l hc _ ih =>
    intro s
    have hlen := wsLenRev_char hc s
    have hne := WsChar_length hc
    rw [List.reverse_append, List.append_assoc, ih, dropWs_step _ _ (by omega), hlen,
      List.drop_left' (by simp)]
    intro e
    rw [List.append_eq_nil_iff] at e
    exact hne (by simpa using congrArg List.length e.1)

theorem dropWs_inv : ∀ (n : Nat) (s : Bytes), s.length = n → ∃ l, Spec.Ws l ∧ s = l ++ dropWs wsLen s := by
  intro n
  induction n using Nat.strongRecOn with
  | ind n ih =>
    intro s hs
    by_cases h : wsLen s = 0
    · exact ⟨[], .nil, by rw [dropWs_stop _ _ h]; rfl⟩
    · have hne : s ≠ [] := by rintro rfl; exact h rfl
      have hle := wsLen_le s
      obtain ⟨l, hl, he⟩ := ih (s.drop (wsLen s)).length (by rw [List.length_drop]; omega) _ rfl
      refine ⟨s.take (wsLen s) ++ l, .cons (wsLen_inv s h) hl, ?_⟩
      rw [dropWs_step _ _ h hne, List.append_assoc, ← he, List.take_append_drop]

theorem dropWsRev_inv : ∀ (n : Nat) (s : Bytes), s.length = n →
    ∃ l, Spec.Ws l ∧ s = l.reverse ++ dropWs wsLenRev s := by
  intro n
  induction n using Nat.strongRecOn with
  | ind n ih =>
    intro s hs
    by_cases h : wsLenRev s = 0
    · exact ⟨[], .nil, by rw [dropWs_stop _ _ h]; rfl⟩
    · have hne : s ≠ [] := by rintro rfl; exact h rfl
      have hle := wsLenRev_le s
      obtain ⟨l, hl, he⟩ := ih (s.drop (wsLenRev s)).length (by rw [List.length_drop]; omega) _ rfl
      refine ⟨l ++ (s.take (wsLenRev s)).reverse, Ws_append hl ?_, ?_⟩
      · have := Spec.Ws.cons (wsLenRev_inv s h) .nil
        simpa using this
      · rw [dropWs_step _ _ h hne, List.reverse_append, List.reverse_reverse, List.append_assoc, ← he,
          List.take_append_drop]

/-- An ASCII character that is not white space. -/
def plainAscii (c : UInt8) : Prop := 33 ≤ c ∧ c < 128

theorem wsLen_plain (c : UInt8) (s : Bytes) (h : plainAscii c) : wsLen (c :: s) = 0 ∧ wsLenRev (c :: s) = 0 := by
  have key : ∀ c : UInt8, plainAscii c → ¬ ((9 ≤ c ∧ c ≤ 13) ∨ c = 32) ∧ c ≠ 0xC2 ∧ c ≠ 0x85 ∧ c ≠ 0xA0 ∧ c ≠ 0xE1 ∧
      c ≠ 0xE2 ∧ c ≠ 0xE3 ∧ ¬ (0x80 ≤ c) ∧ c ≠ 0xA8 ∧ c ≠ 0xA9 ∧ c ≠ 0xAF ∧ c ≠ 0x9F ∧ c ≠ 0x80 := by
    apply forall_byte
    unfold plainAscii
    decide +kernel
  obtain ⟨h1, h2, h3, h4, h5, h6, h7, h8, h9, h10, h11, h12, h13⟩ := key c h
  constructor
  · unfold wsLen
    rcases s with _ | ⟨b, _ | ⟨d, s⟩⟩ <;> simp [h1, h2, h5, h6, h7]
  · unfold wsLenRev
    rcases s with _ | ⟨b, _ | ⟨d, s⟩⟩ <;> simp [h1, h3, h4, h8, h9, h10, h11, h12, h13]

/-- `trim` gives a given word exactly when the string is that word between white space. -/
theorem trim_eq_iff (w name : Bytes) (c d : UInt8) (mid : Bytes) (hc : plainAscii c) (hd : plainAscii d)
    (h1 : ∃ t, name = c :: t) (h2 : name = mid ++ [d]) :
    trim w = name ↔ ∃ l r, Spec.Ws l ∧ Spec.Ws r ∧ w = l ++ name ++ r := by
  constructor
  · intro h
    obtain ⟨l, hl, e1⟩ := dropWs_inv _ w rfl
    obtain ⟨r, hr, e2⟩ := dropWsRev_inv _ (dropWs wsLen w).reverse rfl
    have e3 : dropWs wsLenRev (dropWs wsLen w).reverse = name.reverse := by
      rw [← h, trim, List.reverse_reverse]
    rw [e3] at e2
    have e4 : dropWs wsLen w = name ++ r := by
      have := congrArg List.reverse e2
      simpa using this
    exact ⟨l, r, hl, hr, by rw [List.append_assoc, ← e4]; exact e1⟩
  · rintro ⟨l, r, hl, hr, rfl⟩
    obtain ⟨t, ht⟩ := h1
    have e1 : dropWs wsLen (l ++ name ++ r) = name ++ r := by
      rw [List.append_assoc, dropWs_ws hl, dropWs_stop]
      rw [ht]; exact (wsLen_plain c _ hc).1
    rw [trim, e1, List.reverse_append, dropWs_wsRev hr, dropWs_stop, List.reverse_reverse]
    rw [h2, List.reverse_append]; exact (wsLen_plain d _ hd).2

/-! ## The fetch request loop -/

theorem hexDigit_lt (c : UInt8) (h : Spec.IsHexDigit c) : c.toNat < 128 := by
  revert c; apply forall_byte; decide +kernel

theorem insertNew_mem (x y : Bytes) (l : List Bytes) : y ∈ insertNew x l ↔ y = x ∨ y ∈ l := by
  unfold insertNew
  split
  · rename_i h
    constructor
    · exact .inr
    · rintro (rfl | h') <;> assumption
  · simp [or_comm]

/-- Capabilities recorded by the first want/have line. -/
def capsAfter (s : FetchState) (tail : Bytes) : FetchState :=
  if s.firstLine then { s with caps := s.caps ++ parseCapabilities (tail.drop 1), firstLine := false } else s

theorem firstCaps_line (s : FetchState) (w id t : Bytes) (hw : w.length = 5) (hid : id.length = 40) (c : UInt8)
    (u : Bytes) (ht : t = c :: u) (hu : ∀ x ∈ u, x.toNat < 128) :
    firstCaps s (w ++ id ++ t) = .ok (capsAfter s t) := by
  unfold firstCaps capsAfter
  split
  · have e : w ++ id ++ t = (w ++ id ++ [c]) ++ u := by simp [ht]
    have hl : 46 = (w ++ id ++ [c]).length := by simp [hw, hid]
    rw [e, sliceFrom_append _ _ _ hl]
    simp [utf8Valid_ascii u hu, ht]
  · rfl

theorem lineId_line (w id t : Bytes) (hw : w.length = 5) (hid : id.length = 40) (h : ∀ c ∈ id, Spec.IsHexDigit c) :
    lineId (w ++ id ++ t) = .ok id := by
  have e := slice_mid w id t
  rw [hw, hid] at e
  rw [lineId, List.append_assoc, e]
  simp [utf8Valid_ascii id (fun c hc => hexDigit_lt c (h c hc))]

theorem slice4 (p : Bytes) (h : 4 ≤ p.length) : slice p 0 4 = .ok (p.take 4) := by simp [slice, h]

theorem fetchLine_want (s : FetchState) (id t : Bytes) (h : (Spec.ReqLine.want id t).Ok) :
    fetchLine s ([119, 97, 110, 116, 32] ++ id ++ t) = .ok (some (capsAfter { s with want := insertNew id s.want } t)) := by
  obtain ⟨h1, h2, ⟨c, u, h3, h4⟩, _⟩ := h
  rw [fetchLine, slice4 _ (by simp), Res.bind_ok]
  have e : ([119, 97, 110, 116, 32] ++ id ++ t : Bytes).take 4 = ascii "want" := rfl
  rw [e, if_pos rfl, lineId_line _ id t rfl h1 h2, Res.bind_ok, firstCaps_line _ _ id t rfl h1 c u h3 h4]
  rfl

theorem fetchLine_have (s : FetchState) (id t : Bytes) (h : (Spec.ReqLine.have_ id t).Ok) :
    fetchLine s ([104, 97, 118, 101, 32] ++ id ++ t) =
      .ok (some (capsAfter { s with have_ := insertNew id s.have_ } t)) := by
  obtain ⟨h1, h2, ⟨c, u, h3, h4⟩, _⟩ := h
  rw [fetchLine, slice4 _ (by simp), Res.bind_ok]
  have e : ([104, 97, 118, 101, 32] ++ id ++ t : Bytes).take 4 = ascii "have" := rfl
  rw [e, if_neg (by decide), if_pos rfl, lineId_line _ id t rfl h1 h2, Res.bind_ok,
    firstCaps_line _ _ id t rfl h1 c u h3 h4]
  rfl

theorem fetchLine_other (s : FetchState) (p : Bytes) (h : (Spec.ReqLine.other p).Ok) :
    fetchLine s p = .ok (some s) := by
  obtain ⟨h1, _, h2, h3, h4⟩ := h
  rw [fetchLine, slice4 _ h1, Res.bind_ok]
  rw [if_neg (fun e => h2 (by rw [e]; rfl)), if_neg (fun e => h3 (by rw [e]; rfl)), if_neg (fun e => h4 (by rw [e]; rfl))]
  rfl

theorem fetchLine_done (s : FetchState) (t : Bytes) : fetchLine s ([100, 111, 110, 101] ++ t) = .ok none := by
  rw [fetchLine, slice4 _ (by simp), Res.bind_ok]
  have e : ([100, 111, 110, 101] ++ t : Bytes).take 4 = ascii "done" := rfl
  rw [e, if_neg (by decide), if_neg (by decide), if_pos rfl]
  rfl

/-- State after one request line. -/
def reqStep (s : FetchState) : Spec.ReqLine → FetchState
  | .want id t => capsAfter { s with want := insertNew id s.want } t
  | .have_ id t => capsAfter { s with have_ := insertNew id s.have_ } t
  | .flush => s
  | .other _ => s

theorem reqLine_fits (l : Spec.ReqLine) (h : l.Ok) : l.pkt.Fits := by
  cases l with
  | want id t =>
    obtain ⟨h1, _, _, h4⟩ := h
    simp only [Spec.ReqLine.pkt, Spec.Pkt.Fits, List.length_append, List.length_cons, List.length_nil]; omega
  | have_ id t =>
    obtain ⟨h1, _, _, h4⟩ := h
    simp only [Spec.ReqLine.pkt, Spec.Pkt.Fits, List.length_append, List.length_cons, List.length_nil]; omega
  | flush => trivial
  | other p => exact h.2.1

theorem fetchLoop_flush {body : Bytes} {k : Nat} {line rest : Bytes} (fuel : Nat) (s : FetchState)
    (hr : readPktLine body = .ok ((k, line), rest)) (hk : k = 0 ∧ line = []) :
    fetchLoop (fuel + 1) s body = fetchLoop fuel s rest := by
  rw [fetchLoop, hr]; simp only [Res.bind_ok]; rw [if_pos hk]

theorem fetchLoop_step {body : Bytes} {k : Nat} {line rest : Bytes} (fuel : Nat) (s : FetchState)
    (hr : readPktLine body = .ok ((k, line), rest)) (hk : ¬ (k = 0 ∧ line = [])) :
    fetchLoop (fuel + 1) s body = (fetchLine s line).bind (fun r => match r with
      | none => .ok (s, rest)
      | some s' => fetchLoop fuel s' rest) := by
  rw [fetchLoop, hr]; simp only [Res.bind_ok]; rw [if_neg hk]; rfl

/-- One step of the loop on a request line. -/
theorem fetchLoop_line (fuel : Nat) (s : FetchState) (l : Spec.ReqLine) (h : l.Ok) (rest : Bytes) :
    fetchLoop (fuel + 1) s (Spec.frame l.pkt ++ rest) = fetchLoop fuel (reqStep s l) rest := by
  have hr := readPktLine_frame l.pkt rest (reqLine_fits l h)
  cases l with
  | flush => exact fetchLoop_flush fuel s hr ⟨rfl, rfl⟩
  | want id t =>
    rw [fetchLoop_step fuel s hr (fun e => by simp [Spec.ReqLine.pkt, Spec.Pkt.observed] at e)]
    show (fetchLine s ([119, 97, 110, 116, 32] ++ id ++ t)).bind _ = _
    rw [fetchLine_want s id t h]
    rfl
  | have_ id t =>
    rw [fetchLoop_step fuel s hr (fun e => by simp [Spec.ReqLine.pkt, Spec.Pkt.observed] at e)]
    show (fetchLine s ([104, 97, 118, 101, 32] ++ id ++ t)).bind _ = _
    rw [fetchLine_have s id t h]
    rfl
  | other p =>
    rw [fetchLoop_step fuel s hr (fun e => by simp [Spec.ReqLine.pkt, Spec.Pkt.observed] at e)]
    show (fetchLine s p).bind _ = _
    rw [fetchLine_other s p h]
    rfl

theorem fetchLoop_lines (ls : List Spec.ReqLine) : ∀ (fuel : Nat) (s : FetchState) (rest : Bytes), (∀ l ∈ ls, l.Ok) →
    fetchLoop (ls.length + fuel) s (Spec.stream (ls.map Spec.ReqLine.pkt) ++ rest) =
      fetchLoop fuel (ls.foldl reqStep s) rest := by
  induction ls with
  | nil => intro fuel s rest _; simp [Spec.stream]
  | cons l ls ih =>
    intro fuel s rest h
    rw [List.map_cons, stream_cons, List.append_assoc]
    have e : (l :: ls).length + fuel = (ls.length + fuel) + 1 := by simp only [List.length_cons]; omega
    rw [e, fetchLoop_line _ _ l (h l (by simp)), ih _ _ _ (fun x hx => h x (by simp [hx]))]
    rfl

theorem capsAfter_want (s : FetchState) (t : Bytes) : (capsAfter s t).want = s.want := by
  unfold capsAfter; split <;> rfl

theorem capsAfter_have (s : FetchState) (t : Bytes) : (capsAfter s t).have_ = s.have_ := by
  unfold capsAfter; split <;> rfl

theorem foldl_want (ls : List Spec.ReqLine) : ∀ (s : FetchState) (x : Bytes),
    x ∈ (ls.foldl reqStep s).want ↔ x ∈ Spec.wantIds ls ∨ x ∈ s.want := by
  induction ls with
  | nil => intro s x; simp [Spec.wantIds]
  | cons l ls ih =>
    intro s x
    rw [List.foldl_cons, ih]
    cases l <;> simp [reqStep, Spec.wantIds, capsAfter_want, insertNew_mem, or_assoc, or_left_comm]

theorem foldl_have (ls : List Spec.ReqLine) : ∀ (s : FetchState) (x : Bytes),
    x ∈ (ls.foldl reqStep s).have_ ↔ x ∈ Spec.haveIds ls ∨ x ∈ s.have_ := by
  induction ls with
  | nil => intro s x; simp [Spec.haveIds]
  | cons l ls ih =>
    intro s x
    rw [List.foldl_cons, ih]
    cases l <;> simp [reqStep, Spec.haveIds, capsAfter_have, insertNew_mem, or_assoc, or_left_comm]

theorem foldl_caps_done (ls : List Spec.ReqLine) : ∀ (s : FetchState), s.firstLine = false →
    (ls.foldl reqStep s).caps = s.caps := by
  induction ls with
  | nil => intro s _; rfl
  | cons l ls ih =>
    intro s h
    rw [List.foldl_cons]
    cases l <;> simp [reqStep, capsAfter, h] <;> rw [ih] <;> simp [h]

theorem foldl_caps (ls : List Spec.ReqLine) : ∀ (s : FetchState), s.firstLine = true →
    (ls.foldl reqStep s).caps = s.caps ++ (match Spec.firstTail ls with
      | none => []
      | some t => parseCapabilities (t.drop 1)) := by
  induction ls with
  | nil => intro s _; simp [Spec.firstTail]
  | cons l ls ih =>
    intro s h
    rw [List.foldl_cons]
    cases l with
    | want id t =>
      simp only [reqStep, capsAfter, h, if_true, Spec.firstTail]
      rw [foldl_caps_done]
      rfl
    | have_ id t =>
      simp only [reqStep, capsAfter, h, if_true, Spec.firstTail]
      rw [foldl_caps_done]
      rfl
    | flush => simp only [reqStep, Spec.firstTail]; exact ih s h
    | other p => simp only [reqStep, Spec.firstTail]; exact ih s h

theorem fetchLoop_nil (fuel : Nat) (s : FetchState) : fetchLoop fuel s [] = .spin := by
  induction fuel with
  | zero => rfl
  | succ n ih => rw [fetchLoop]; simp [readPktLine, ih]

/-- The loop either ends within one more step than there are bytes, or never. -/
theorem fetchLoop_dichotomy : ∀ (n : Nat) (s : FetchState) (body : Bytes), body.length ≤ n →
    (∀ fuel, body.length < fuel → (fetchLoop fuel s body).halts) ∨ (∀ fuel, fetchLoop fuel s body = .spin) := by
  intro n
  induction n with
  | zero =>
    intro s body h
    have : body = [] := List.length_eq_zero_iff.1 (by omega)
    subst this
    exact .inr (fun fuel => fetchLoop_nil fuel s)
  | succ n ih =>
    intro s body h
    by_cases hb : body = []
    · subst hb; exact .inr (fun fuel => fetchLoop_nil fuel s)
    cases hr : readPktLine body with
    | ok p =>
      obtain ⟨⟨k, line⟩, rest⟩ := p
      have hs := readPktLine_shrinks hb hr
      by_cases hk : k = 0 ∧ line = []
      · rcases ih s rest (by omega) with h1 | h1
        · left
          intro fuel hf
          obtain ⟨fuel, rfl⟩ : ∃ m, fuel = m + 1 := ⟨fuel - 1, by omega⟩
          rw [fetchLoop, hr]; simp only [Res.bind_ok]; rw [if_pos hk]
          exact h1 fuel (by omega)
        · right
          intro fuel
          cases fuel with
          | zero => rfl
          | succ fuel => rw [fetchLoop, hr]; simp only [Res.bind_ok]; rw [if_pos hk]; exact h1 fuel
      · have hstep := fun fuel => fetchLoop_step fuel s hr hk
        have hnospin : fetchLine s line ≠ .spin := by
          have sl : ∀ (a b : Nat), slice line a b ≠ .spin := by intro a b; unfold slice; split <;> simp
          have sf : ∀ (a : Nat), sliceFrom line a ≠ .spin := by intro a; unfold sliceFrom; split <;> simp
          have li : lineId line ≠ .spin := by
            unfold lineId
            cases h : slice line 5 45 with
            | spin => exact absurd h (sl _ _)
            | ok a => simp only [Res.bind_ok]; split <;> simp
            | _ => simp
          have fc : ∀ s, firstCaps s line ≠ .spin := by
            intro s
            unfold firstCaps
            split
            · cases h : sliceFrom line 46 with
              | spin => exact absurd h (sf _)
              | ok a => simp only [Res.bind_ok]; split <;> simp
              | _ => simp
            · simp
          unfold fetchLine
          cases h : slice line 0 4 with
          | spin => exact absurd h (sl _ _)
          | ok a =>
            simp only [Res.bind_ok]
            split
            · cases h' : lineId line with
              | spin => exact absurd h' li
              | ok id =>
                simp only [Res.bind_ok]
                cases h'' : firstCaps { s with want := insertNew id s.want } line with
                | spin => exact absurd h'' (fc _)
                | _ => simp
              | _ => simp
            · split
              · cases h' : lineId line with
                | spin => exact absurd h' li
                | ok id =>
                  simp only [Res.bind_ok]
                  cases h'' : firstCaps { s with have_ := insertNew id s.have_ } line with
                  | spin => exact absurd h'' (fc _)
                  | _ => simp
                | _ => simp
              · split <;> simp
          | _ => simp
        cases hf : fetchLine s line with
        | spin => exact absurd hf hnospin
        | ok r =>
          cases r with
          | none =>
            left
            intro fuel hl
            obtain ⟨fuel, rfl⟩ : ∃ m, fuel = m + 1 := ⟨fuel - 1, by omega⟩
            rw [hstep, hf]; trivial
          | some s' =>
            rcases ih s' rest (by omega) with h1 | h1
            · left
              intro fuel hl
              obtain ⟨fuel, rfl⟩ : ∃ m, fuel = m + 1 := ⟨fuel - 1, by omega⟩
              rw [hstep, hf]; exact h1 fuel (by omega)
            · right
              intro fuel
              cases fuel with
              | zero => rfl
              | succ fuel => rw [hstep, hf]; exact h1 fuel
        | err e =>
          left
          intro fuel hl
          obtain ⟨fuel, rfl⟩ : ∃ m, fuel = m + 1 := ⟨fuel - 1, by omega⟩
          rw [hstep, hf]; trivial
        | panic =>
          left
          intro fuel hl
          obtain ⟨fuel, rfl⟩ : ∃ m, fuel = m + 1 := ⟨fuel - 1, by omega⟩
          rw [hstep, hf]; trivial
    | spin =>
      exfalso
      rw [readPktLine, if_neg hb] at hr
      split at hr
      · cases hr
      split at hr
      · cases hr
      simp only at hr
      repeat' split at hr
      all_goals cases hr
    | err e =>
      left
      intro fuel hl
      obtain ⟨fuel, rfl⟩ : ∃ m, fuel = m + 1 := ⟨fuel - 1, by omega⟩
      rw [fetchLoop, hr]; trivial
    | panic =>
      left
      intro fuel hl
      obtain ⟨fuel, rfl⟩ : ∃ m, fuel = m + 1 := ⟨fuel - 1, by omega⟩
      rw [fetchLoop, hr]; trivial

/-! ## Ref command lines -/

theorem untilWs_append (a : Bytes) (w : UInt8) (s : Bytes) (ha : ∀ c ∈ a, isAsciiWs c = false)
    (hw : isAsciiWs w = true) : untilWs (a ++ w :: s) = (a, s) := by
  induction a with
  | nil => simp [untilWs, hw]
  | cons b a ih =>
    have hb := ha b (by simp)
    simp [untilWs, hb, ih (fun c hc => ha c (by simp [hc]))]

theorem untilWs_all (a : Bytes) (ha : ∀ c ∈ a, isAsciiWs c = false) : untilWs a = (a, []) := by
  induction a with
  | nil => simp [untilWs]
  | cons b a ih =>
    have hb := ha b (by simp)
    simp [untilWs, hb, ih (fun c hc => ha c (by simp [hc]))]

theorem parseRefUpdate_line (o n nm rest : Bytes) (w : UInt8) (ho : ∀ c ∈ o, isAsciiWs c = false)
    (hn : ∀ c ∈ n, isAsciiWs c = false) (hm : ∀ c ∈ nm, isAsciiWs c = false) (hw : isAsciiWs w = true)
    (uo : utf8Valid o = true) (un : utf8Valid n = true) (um : utf8Valid nm = true) :
    parseRefUpdate (o ++ 32 :: (n ++ 32 :: (nm ++ w :: rest))) = .ok (RefCommand.new o n nm, rest) := by
  simp only [parseRefUpdate, readUntilWhiteSpace]
  rw [untilWs_append o 32 _ ho (by decide), if_pos uo, Res.bind_ok]
  simp only
  rw [untilWs_append n 32 _ hn (by decide), if_pos un, Res.bind_ok]
  simp only
  rw [untilWs_append nm w _ hm hw, if_pos um, Res.bind_ok]
  rfl

end Gust

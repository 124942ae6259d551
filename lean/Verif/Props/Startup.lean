import Verif.Model.Startup
import Verif.Spec.Object
import Verif.Lemmas.Hash
import Verif.Props.Links
import Verif.Base.Tactics
import Verif.Lemmas.Json
import Mathlib.Data.List.Forall2

/-! # C140: the server listens at the address it is given -/

namespace Gust

/-! ## Spec -/

/-- An IPv4 address in dotted notation. -/
def Spec.Dotted (text : Bytes) (a b c d : Nat) : Prop :=
  (a < 256 ∧ b < 256 ∧ c < 256 ∧ d < 256) ∧ ∃ w x y z, Spec.IsDecimal w a ∧ Spec.IsDecimal x b ∧ Spec.IsDecimal y c ∧ Spec.IsDecimal z d ∧
    text = w ++ ascii "." ++ x ++ ascii "." ++ y ++ ascii "." ++ z

/-- A group of an IPv6 address: up to four hexadecimal digits. -/
def Spec.HexGroup (s : Bytes) (n : Nat) : Prop :=
  s ≠ [] ∧ s.length ≤ 4 ∧ (∀ c ∈ s, Spec.IsHexDigit c) ∧ s.foldl (fun a c => 16 * a + (if c.toNat ≤ 57 then c.toNat - 48 else if c.toNat ≤ 70 then c.toNat - 55 else c.toNat - 87)) 0 = n

/-- Groups with colons between them. -/
def Spec.colons : List Bytes → Bytes
  | [] => []
  | [s] => s
  | s :: t => s ++ ascii ":" ++ Spec.colons t

/-- An IPv6 address as RFC 4291 writes it: eight groups, or `::` in place of some groups of zeros; the last two groups may be written like an IPv4 address. -/
inductive Spec.V6Text : Bytes → List Nat → Prop
  | full (ss : List Bytes) (ns : List Nat) : ss.length = 8 → List.Forall₂ Spec.HexGroup ss ns → Spec.V6Text (Spec.colons ss) ns
  | short (ss ts : List Bytes) (ns ks : List Nat) : ss.length + ts.length ≤ 7 → List.Forall₂ Spec.HexGroup ss ns → List.Forall₂ Spec.HexGroup ts ks →
      Spec.V6Text (Spec.colons ss ++ ascii "::" ++ Spec.colons ts) (ns ++ List.replicate (8 - ss.length - ts.length) 0 ++ ks)
  | fullMixed (ss : List Bytes) (ns : List Nat) (text : Bytes) (a b c d : Nat) : ss.length = 6 → List.Forall₂ Spec.HexGroup ss ns → Spec.Dotted text a b c d →
      Spec.V6Text (Spec.colons (ss ++ [text])) (ns ++ [a * 256 + b, c * 256 + d])
  | shortMixed (ss ts : List Bytes) (ns ks : List Nat) (text : Bytes) (a b c d : Nat) : ss.length + ts.length ≤ 5 → List.Forall₂ Spec.HexGroup ss ns →
      List.Forall₂ Spec.HexGroup ts ks → Spec.Dotted text a b c d →
      Spec.V6Text (Spec.colons ss ++ ascii "::" ++ Spec.colons (ts ++ [text])) (ns ++ List.replicate (6 - ss.length - ts.length) 0 ++ ks ++ [a * 256 + b, c * 256 + d])

/-! ## Numbers -/

theorem takeDigits_spec (dv : UInt8 → Option Nat) : ∀ l : Bytes, ∃ s, l = s ++ (takeDigits dv l).2 ∧ (∀ c ∈ s, (dv c).isSome = true) ∧ (takeDigits dv l).1 = s.filterMap dv ∧
    (takeDigits dv l).1.length = s.length ∧ ∀ c, (takeDigits dv l).2.head? = some c → dv c = none
  | [] => ⟨[], rfl, (by simp), rfl, rfl, (by simp [takeDigits])⟩
  | c :: l => by
    unfold takeDigits
    cases h : dv c with
    | none => exact ⟨[], rfl, by simp, rfl, rfl, by simp [h]⟩
    | some d =>
      obtain ⟨s, h1, h2, h3, h4, h5⟩ := takeDigits_spec dv l
      refine ⟨c :: s, by simp only [List.cons_append]; rw [← h1], ?_, by simp [h, h3], by simp [h4], h5⟩
      intro x hx
      rcases List.mem_cons.1 hx with rfl | hx
      · rw [h]; rfl
      · exact h2 x hx

theorem takeDigits_at (dv : UInt8 → Option Nat) : ∀ {s rest : Bytes}, (∀ c ∈ s, (dv c).isSome = true) → (∀ c, rest.head? = some c → dv c = none) →
    takeDigits dv (s ++ rest) = (s.filterMap dv, rest)
  | [], rest, _, h => by
    cases rest with
    | nil => rfl
    | cons c rest =>
      rw [List.nil_append, takeDigits, h c rfl]
      rfl
  | c :: s, rest, h1, h2 => by
    have ih := takeDigits_at dv (s := s) (rest := rest) (fun c hc => h1 c (.tail _ hc)) h2
    obtain ⟨d, hd⟩ := Option.isSome_iff_exists.1 (h1 c (.head _))
    rw [List.cons_append, takeDigits, hd]
    simp only [ih, List.filterMap_cons, hd]

theorem dec_some {c : UInt8} : (decCharValue c).isSome = true ↔ 48 ≤ c.toNat ∧ c.toNat ≤ 57 := by
  unfold decCharValue
  split <;> simp_all

theorem dec_digits : ∀ {s : Bytes}, (∀ c ∈ s, 48 ≤ c.toNat ∧ c.toNat ≤ 57) → s.filterMap decCharValue = s.map (fun c => c.toNat - 48)
  | [], _ => rfl
  | c :: s, h => by
    have hc := h c (.head _)
    have e : decCharValue c = some (c.toNat - 48) := by simp [decCharValue, hc]
    rw [List.filterMap_cons, e]
    simp only [List.map_cons]
    rw [dec_digits (fun c hc => h c (.tail _ hc))]

theorem dec_value (s : Bytes) : digitsValue 10 (s.map (fun c => c.toNat - 48)) = s.foldl (fun a c => 10 * a + (c.toNat - 48)) 0 := by
  unfold digitsValue
  rw [List.foldl_map]
  congr 1
  funext a c
  omega

theorem foldl_dec_ge : ∀ (s : Bytes) (a : Nat), a * 10 ^ s.length ≤ s.foldl (fun a c => 10 * a + (c.toNat - 48)) a
  | [], a => by simp
  | c :: s, a => by
    have := foldl_dec_ge s (10 * a + (c.toNat - 48))
    rw [List.foldl_cons, List.length_cons, Nat.pow_succ]
    refine Nat.le_trans ?_ this
    rw [show a * (10 ^ s.length * 10) = 10 * a * 10 ^ s.length by ring]
    exact Nat.mul_le_mul_right _ (by omega)

/-- A number below 256 has at most three digits. -/
theorem decimal_short {s : Bytes} {n : Nat} (h : Spec.IsDecimal s n) (hn : n < 256) : s.length ≤ 3 := by
  obtain ⟨h1, h2, h3, h4⟩ := h
  cases s with
  | nil => simp
  | cons c s =>
    by_cases hc : c = 48
    · rw [h3 (by rw [hc]; rfl)]; simp
    · rw [List.foldl_cons] at h4
      have := foldl_dec_ge s (10 * 0 + (c.toNat - 48))
      have hc2 : 1 ≤ c.toNat - 48 := by
        have := h2 c (.head _)
        have : c.toNat ≠ 48 := fun e => hc (UInt8.toNat_inj.1 e)
        omega
      have : 10 ^ s.length ≤ n := by
        rw [← h4]
        refine Nat.le_trans ?_ this
        exact Nat.le_mul_of_pos_left _ (by omega)
      by_contra hlen
      have : 10 ^ 3 ≤ 10 ^ s.length := Nat.pow_le_pow_right (by omega) (by simp at hlen; omega)
      omega

theorem readOctet_at {s rest : Bytes} {n : Nat} (h : Spec.IsDecimal s n) (hn : n < 256) (hr : ∀ c, rest.head? = some c → decCharValue c = none) :
    readOctet (s ++ rest) = some (n, rest) := by
  have hlen := decimal_short h hn
  obtain ⟨h1, h2, h3, h4⟩ := h
  unfold readOctet readNumber
  rw [takeDigits_at decCharValue (fun c hc => dec_some.2 (h2 c hc)) hr, dec_digits h2]
  have hne : s.map (fun c => c.toNat - 48) ≠ [] := by simpa using h1
  have hz : (((s ++ rest).head? == some 0x30) && decide (1 < (s.map (fun c => c.toNat - 48)).length)) ≠ true := by
    intro e
    simp only [Bool.and_eq_true, beq_iff_eq, decide_eq_true_eq, List.length_map] at e
    have : s.head? = some 48 := by
      rw [← e.1, List.head?_append_of_ne_nil _ h1]
    rw [h3 this] at e
    simp at e
  simp only [dec_value, h4]
  rw [if_neg (by simp; omega), if_neg hne, if_neg (by simpa using hz), if_pos hn]

theorem readOctet_some {l rest : Bytes} {n : Nat} (h : readOctet l = some (n, rest)) : ∃ s, Spec.IsDecimal s n ∧ n < 256 ∧ l = s ++ rest ∧ ∀ c, rest.head? = some c → decCharValue c = none := by
  obtain ⟨s, h1, h2, h3, h4, h5⟩ := takeDigits_spec decCharValue l
  unfold readOctet readNumber at h
  simp only at h
  split at h
  · cases h
  · split at h
    · cases h
    · rename_i k1 k2
      split at h
      · cases h
      · rename_i k3
        split at h
        · rename_i k4
          simp only [Option.some.injEq, Prod.mk.injEq] at h
          obtain ⟨rfl, rfl⟩ := h
          have dig := fun c hc => dec_some.1 (h2 c hc)
          refine ⟨s, ⟨?_, dig, ?_, ?_⟩, k4, h1, h5⟩
          · rintro rfl
            exact k2 (List.length_eq_zero_iff.1 (by rw [h4]; rfl))
          · intro e
            by_contra hne
            apply k3
            have e1 : l.head? = some 0x30 := by
              rw [h1, List.head?_append_of_ne_nil _ (by rintro rfl; cases e)]
              exact e
            rw [e1, h4]
            cases s with
            | nil => cases e
            | cons c s =>
              cases s with
              | nil => exact absurd (by simp at e; rw [e]) hne
              | cons c' s => simp
          · rw [h3, dec_digits dig, dec_value]
        · cases h

theorem readChar_some {c : UInt8} {l r : Bytes} : readChar c l = some r ↔ l = c :: r := by
  cases l with
  | nil => simp [readChar]
  | cons x l =>
    simp only [readChar]
    split
    · rename_i e
      subst e
      simp
    · rename_i e
      simp [e]

/-! ## IPv4 -/

theorem dotted_at {text rest : Bytes} {a b c d : Nat} (h : Spec.Dotted text a b c d) (hr : ∀ c, rest.head? = some c → decCharValue c = none) :
    readIpv4 (text ++ rest) = some ((a, b, c, d), rest) := by
  obtain ⟨⟨ha, hb, hc, hd⟩, w, x, y, z, h1, h2, h3, h4, rfl⟩ := h
  have dot : ascii "." = [0x2e] := by decide
  have nd : ∀ (t : Bytes) c, (0x2e :: t).head? = some c → decCharValue c = none := by
    intro t c e
    simp only [List.head?_cons, Option.some.injEq] at e
    subst e
    decide
  have step : ∀ {s r : Bytes} {n : Nat}, Spec.IsDecimal s n → n < 256 → (∀ c, r.head? = some c → decCharValue c = none) → ∀ i, 0 < i →
      readSep 0x2e i readOctet (0x2e :: (s ++ r)) = some (n, r) := by
    intro s r n k1 k2 k3 i hi
    unfold readSep
    rw [if_pos hi, readChar_some.2 rfl]
    exact readOctet_at k1 k2 k3
  rw [dot]
  simp only [List.append_assoc, List.cons_append, List.nil_append]
  unfold readIpv4
  rw [show readSep 0x2e 0 readOctet (w ++ 0x2e :: (x ++ 0x2e :: (y ++ 0x2e :: (z ++ rest)))) = some (a, 0x2e :: (x ++ 0x2e :: (y ++ 0x2e :: (z ++ rest)))) from
    readOctet_at h1 ha (nd _)]
  simp only [Option.bind_eq_bind, Option.bind_some]
  rw [step h2 hb (nd _) 1 (by decide)]
  simp only [Option.bind_some]
  rw [step h3 hc (nd _) 2 (by decide)]
  simp only [Option.bind_some]
  rw [step h4 hd hr 3 (by decide)]
  rfl

theorem readSep_some {sep : UInt8} {i : Nat} {l r : Bytes} {n : Nat} (h : readSep sep (i + 1) readOctet l = some (n, r)) :
    ∃ s, Spec.IsDecimal s n ∧ n < 256 ∧ l = sep :: (s ++ r) ∧ ∀ c, r.head? = some c → decCharValue c = none := by
  unfold readSep at h
  rw [if_pos (Nat.succ_pos i)] at h
  split at h
  · cases h
  · rename_i l' e
    obtain ⟨s, h1, h2, h3, h4⟩ := readOctet_some h
    exact ⟨s, h1, h2, by rw [readChar_some.1 e, h3], h4⟩

theorem readIpv4_some {l rest : Bytes} {a b c d : Nat} (h : readIpv4 l = some ((a, b, c, d), rest)) : ∃ text, Spec.Dotted text a b c d ∧ l = text ++ rest := by
  unfold readIpv4 at h
  simp only [Option.bind_eq_bind, Option.bind_eq_some_iff, Prod.exists, Option.pure_def, Option.some.injEq, Prod.mk.injEq] at h
  obtain ⟨a', l1, h1, b', l2, h2, c', l3, h3, d', l4, h4, ⟨rfl, rfl, rfl, rfl⟩, rfl⟩ := h
  obtain ⟨w, w1, w2, w3, _⟩ := readOctet_some (show readOctet l = some (a', l1) from h1)
  obtain ⟨x, x1, x2, x3, _⟩ := readSep_some h2
  obtain ⟨y, y1, y2, y3, _⟩ := readSep_some h3
  obtain ⟨z, z1, z2, z3, _⟩ := readSep_some h4
  refine ⟨_, ⟨⟨w2, x2, y2, z2⟩, w, x, y, z, w1, x1, y1, z1, rfl⟩, ?_⟩
  rw [w3, x3, y3, z3, show ascii "." = [0x2e] from by decide]
  simp

/-! ## The whole address -/

theorem digits_foldl_lt_u16 {n : Nat} : digitsValue 10 ((decStr n).filterMap decCharValue) = n := by
  rw [dec_digits (decStr_range n), dec_value]
  exact (decStr_isDecimal n).2.2.2

theorem readPort_at {n : Nat} (h : n < 65536) : readPort (0x3a :: decStr n) = some (n, []) := by
  unfold readPort
  rw [readChar_some.2 rfl]
  simp only [Option.bind_eq_bind, Option.bind_some]
  have e := takeDigits_at decCharValue (s := decStr n) (rest := []) (fun c hc => dec_some.2 (decStr_range n c hc)) (by simp)
  rw [List.append_nil] at e
  unfold readNumber
  simp only [e, digits_foldl_lt_u16]
  rw [if_neg (by simp), if_neg, if_neg (by simp), if_pos h]
  rw [dec_digits (decStr_range n)]
  simpa using decStr_ne_nil n

theorem readPort_some {l : Bytes} {n : Nat} (h : readPort l = some (n, [])) : ∃ s, l = 0x3a :: s ∧ ∀ c ∈ s, 48 ≤ c.toNat ∧ c.toNat ≤ 57 := by
  unfold readPort at h
  simp only [Option.bind_eq_bind, Option.bind_eq_some_iff] at h
  obtain ⟨l', e, h⟩ := h
  obtain ⟨s, h1, h2, _⟩ := takeDigits_spec decCharValue l'
  refine ⟨l', readChar_some.1 e, ?_⟩
  have : (takeDigits decCharValue l').2 = [] := by
    unfold readNumber at h
    simp only at h
    repeat' split at h
    all_goals first | cases h | skip
    simp only [Option.some.injEq, Prod.mk.injEq] at h
    exact h.2
  rw [this, List.append_nil] at h1
  rw [h1]
  exact fun c hc => dec_some.1 (h2 c hc)

theorem colon_no_digit (l : Bytes) : ∀ c, (0x3a :: l).head? = some c → decCharValue c = none := by
  intro c e
  simp only [List.head?_cons, Option.some.injEq] at e
  subst e
  decide

/-- **C140** Started with an IPv4 address in dotted notation and any port, both servers listen at exactly this address and port. -/
theorem C140_v4 (cfg : ServeConfig) (a b c d : Nat) (hhost : Spec.Dotted cfg.host a b c d) (hport : cfg.port < 65536) :
    cfg.listen = .ok { ip := .v4 a b c d, scope := 0, port := cfg.port } := by
  have e : readSockV4 cfg.url = some ({ ip := .v4 a b c d, scope := 0, port := cfg.port }, []) := by
    unfold readSockV4 ServeConfig.url
    rw [List.append_assoc, List.cons_append, List.nil_append, dotted_at hhost (colon_no_digit _)]
    simp only [Option.bind_eq_bind, Option.bind_some]
    rw [readPort_at hport]
    rfl
  unfold ServeConfig.listen SockAddr.parse
  rw [e]
  rfl

theorem dotted_noColon {t : Bytes} {a b c d : Nat} (h : Spec.Dotted t a b c d) : (0x3a : UInt8) ∉ t := by
  obtain ⟨_, w, x, y, z, h1, h2, h3, h4, rfl⟩ := h
  have nc : ∀ {s : Bytes} {n}, Spec.IsDecimal s n → (0x3a : UInt8) ∉ s := by
    intro s n h hm
    have := h.2.1 _ hm
    simp at this
  simp [nc h1, nc h2, nc h3, nc h4, show ascii "." = [0x2e] from by decide]

theorem split_colon {a b x y : Bytes} (hy : (0x3a : UInt8) ∉ y) (hb : (0x3a : UInt8) ∉ b) (h : a ++ 0x3a :: b = x ++ 0x3a :: y) : a = x ∧ b = y := by
  have hr := congrArg List.reverse h
  simp only [List.reverse_append, List.reverse_cons, List.append_assoc] at hr
  have : ∀ (p q r s : Bytes), (0x3a : UInt8) ∉ p → (0x3a : UInt8) ∉ q → p ++ (0x3a :: r) = q ++ (0x3a :: s) → p = q ∧ r = s := by
    intro p
    induction p with
    | nil =>
      intro q r s _ hq e
      cases q with
      | nil => simpa using e
      | cons c q =>
        simp only [List.nil_append, List.cons_append, List.cons.injEq] at e
        exact absurd (by rw [e.1]; exact .head _) hq
    | cons c p ih =>
      intro q r s hp hq e
      cases q with
      | nil =>
        simp only [List.nil_append, List.cons_append, List.cons.injEq] at e
        exact absurd (by rw [e.1]; exact .head _) hp
      | cons c' q =>
        simp only [List.cons_append, List.cons.injEq] at e
        obtain ⟨k1, k2⟩ := ih q r s (fun h => hp (.tail _ h)) (fun h => hq (.tail _ h)) e.2
        exact ⟨by rw [e.1, k1], k2⟩
  obtain ⟨k1, k2⟩ := this b.reverse y.reverse a.reverse x.reverse (by simpa using hb) (by simpa using hy) (by simpa using hr)
  exact ⟨List.reverse_injective k2, List.reverse_injective k1⟩

/-- **C140** A server that starts listens at the address it was given: the host is the IPv4 address at which it listens, in dotted notation, or something in brackets; and the port is the given one. -/
theorem C140_exact (cfg : ServeConfig) (hport : cfg.port < 65536) (addr : SockAddr) (h : cfg.listen = .ok addr) :
    (∃ a b c d, Spec.Dotted cfg.host a b c d ∧ addr = { ip := .v4 a b c d, scope := 0, port := cfg.port }) ∨ cfg.host.head? = some 0x5b := by
  have h' : SockAddr.parse cfg.url = some addr := by
    unfold ServeConfig.listen Res.unwrapOpt at h
    split at h
    · cases h; assumption
    · cases h
  unfold SockAddr.parse at h'
  cases e4 : readSockV4 cfg.url with
  | some r =>
    obtain ⟨x, rest⟩ := r
    rw [e4] at h'
    cases rest with
    | cons _ _ => cases h'
    | nil =>
      unfold readSockV4 at e4
      simp only [Option.bind_eq_bind, Option.bind_eq_some_iff, Prod.exists, Option.pure_def, Option.some.injEq, Prod.mk.injEq] at e4
      obtain ⟨a, b, c, d, l, h1, port, l', h2, _, rfl⟩ := e4
      obtain ⟨text, t1, t2⟩ := readIpv4_some h1
      obtain ⟨s, s1, s2⟩ := readPort_some h2
      have nc : ∀ {s : Bytes}, (∀ c ∈ s, 48 ≤ c.toNat ∧ c.toNat ≤ 57) → (0x3a : UInt8) ∉ s := by
        intro s h hm
        have := h _ hm
        simp at this
      rw [ServeConfig.url, s1, List.append_assoc, List.cons_append, List.nil_append] at t2
      obtain ⟨k1, k2⟩ := split_colon (nc s2) (nc (decStr_range _)) t2
      refine .inl ⟨a, b, c, d, by rw [k1]; exact t1, ?_⟩
      have := C140_v4 cfg a b c d (by rw [k1]; exact t1) hport
      rw [h] at this
      exact Res.ok.inj this
  | none =>
    rw [e4] at h'
    simp only at h'
    cases e6 : readSockV6 cfg.url with
    | none => rw [e6] at h'; cases h'
    | some r =>
      unfold readSockV6 at e6
      simp only [Option.bind_eq_bind, Option.bind_eq_some_iff] at e6
      obtain ⟨l, h1, _⟩ := e6
      have := readChar_some.1 h1
      cases hh : cfg.host with
      | nil =>
        rw [ServeConfig.url, hh] at this
        cases this
      | cons c t =>
        rw [ServeConfig.url, hh] at this
        simp only [List.cons_append, List.cons.injEq] at this
        exact .inr (by rw [this.1]; rfl)

/-- **C140 is false** for names and for IPv6 addresses without brackets: a server that is given a host that begins with a letter or a colon, or that has a colon in it and does not begin with a bracket, does not start. -/
theorem C140_names_false (cfg : ServeConfig) (hport : cfg.port < 65536)
    (h : (∃ c, cfg.host.head? = some c ∧ c ≠ 0x5b ∧ decCharValue c = none) ∨ ((0x3a : UInt8) ∈ cfg.host ∧ cfg.host.head? ≠ some 0x5b)) : cfg.listen = .panic := by
  cases e : SockAddr.parse cfg.url with
  | none => rw [ServeConfig.listen, e]; rfl
  | some addr =>
    have hl : cfg.listen = .ok addr := by rw [ServeConfig.listen, e]; rfl
    rcases C140_exact cfg hport addr hl with ⟨a, b, c, d, k, _⟩ | k
    · rcases h with ⟨x, x1, x2, x3⟩ | ⟨h1, _⟩
      · obtain ⟨_, w, _, _, _, h1, _, _, _, e⟩ := k
        obtain ⟨w1, w2, _⟩ := h1
        cases w with
        | nil => exact absurd rfl w1
        | cons y w =>
          rw [e] at x1
          simp only [List.cons_append, List.head?_cons, Option.some.injEq] at x1
          subst x1
          have := dec_some.2 (w2 y (.head _))
          rw [x3] at this
          cases this
      · exact absurd h1 (dotted_noColon k)
    · rcases h with ⟨x, x1, x2, _⟩ | ⟨_, h2⟩
      · rw [k] at x1
        cases x1
        exact absurd rfl x2
      · exact absurd k h2

/-! ## IPv6 -/

theorem hex_some : ∀ c : UInt8, (hexCharValue c).isSome = true ↔ Spec.IsHexDigit c := all_u8 (by decide +kernel)

theorem hex_value : ∀ c : UInt8, ¬ Spec.IsHexDigit c ∨ hexCharValue c = some (if c.toNat ≤ 57 then c.toNat - 48 else if c.toNat ≤ 70 then c.toNat - 55 else c.toNat - 87) :=
  all_u8 (by decide +kernel)

theorem hex_small : ∀ c : UInt8, ¬ Spec.IsHexDigit c ∨ (if c.toNat ≤ 57 then c.toNat - 48 else if c.toNat ≤ 70 then c.toNat - 55 else c.toNat - 87) < 16 := all_u8 (by decide +kernel)

theorem dec_hex : ∀ c : UInt8, ¬ (decCharValue c).isSome = true ∨ Spec.IsHexDigit c := all_u8 (by decide +kernel)

theorem hex_digits : ∀ {s : Bytes}, (∀ c ∈ s, Spec.IsHexDigit c) →
    s.filterMap hexCharValue = s.map (fun c => if c.toNat ≤ 57 then c.toNat - 48 else if c.toNat ≤ 70 then c.toNat - 55 else c.toNat - 87)
  | [], _ => rfl
  | c :: s, h => by
    rw [List.filterMap_cons, (hex_value c).resolve_left (fun k => k (h c (.head _)))]
    simp only [List.map_cons]
    rw [hex_digits (fun c hc => h c (.tail _ hc))]

theorem hex_foldl_lt : ∀ (s : Bytes) (a : Nat), (∀ c ∈ s, Spec.IsHexDigit c) →
    s.foldl (fun a c => 16 * a + (if c.toNat ≤ 57 then c.toNat - 48 else if c.toNat ≤ 70 then c.toNat - 55 else c.toNat - 87)) a < (a + 1) * 16 ^ s.length
  | [], a, _ => by simp
  | c :: s, a, h => by
    rw [List.foldl_cons]
    have h1 := hex_foldl_lt s (16 * a + (if c.toNat ≤ 57 then c.toNat - 48 else if c.toNat ≤ 70 then c.toNat - 55 else c.toNat - 87)) (fun c hc => h c (.tail _ hc))
    have h2 := (hex_small c).resolve_left (fun k => k (h c (.head _)))
    refine Nat.lt_of_lt_of_le h1 ?_
    rw [List.length_cons, Nat.pow_succ, show (a + 1) * (16 ^ s.length * 16) = (16 * a + 16) * 16 ^ s.length by ring]
    exact Nat.mul_le_mul_right _ (by omega)

theorem hexGroup_lt {s : Bytes} {n : Nat} (h : Spec.HexGroup s n) : n < 65536 := by
  obtain ⟨_, h2, h3, rfl⟩ := h
  have := hex_foldl_lt s 0 h3
  have : 16 ^ s.length ≤ 16 ^ 4 := Nat.pow_le_pow_right (by omega) h2
  omega

theorem readGroup_at {s rest : Bytes} {n : Nat} (h : Spec.HexGroup s n) (hr : ∀ c, rest.head? = some c → ¬ Spec.IsHexDigit c) : readGroup (s ++ rest) = some (n, rest) := by
  have hn := hexGroup_lt h
  obtain ⟨h1, h2, h3, h4⟩ := h
  have hr' : ∀ c, rest.head? = some c → hexCharValue c = none := by
    intro c hc
    have := hr c hc
    rw [← hex_some] at this
    simpa using this
  unfold readGroup readNumber
  rw [takeDigits_at hexCharValue (fun c hc => (hex_some c).2 (h3 c hc)) hr', hex_digits h3]
  have e : digitsValue 16 (s.map (fun c => if c.toNat ≤ 57 then c.toNat - 48 else if c.toNat ≤ 70 then c.toNat - 55 else c.toNat - 87)) = n := by
    rw [← h4, digitsValue, List.foldl_map]
    congr 1
    funext a c
    omega
  have hne : s.map (fun c => if c.toNat ≤ 57 then c.toNat - 48 else if c.toNat ≤ 70 then c.toNat - 55 else c.toNat - 87) ≠ [] := by simpa using h1
  simp only [e]
  rw [if_neg (by simp; omega), if_neg hne, if_neg (by simp), if_pos hn]

/-- What looks like a group is not taken for an IPv4 address. -/
theorem readIpv4_group {s rest : Bytes} (h3 : ∀ c ∈ s, Spec.IsHexDigit c) (hr : ∀ c, rest.head? = some c → ¬ Spec.IsHexDigit c ∧ c ≠ 0x2e) : readIpv4 (s ++ rest) = none := by
  cases e : readIpv4 (s ++ rest) with
  | none => rfl
  | some r =>
    exfalso
    obtain ⟨⟨a, b, c, d⟩, l⟩ := r
    obtain ⟨text, ⟨_, w, x, y, z, h1, _, _, _, rfl⟩, e2⟩ := readIpv4_some e
    rw [show ascii "." = [0x2e] from by decide] at e2
    simp only [List.append_assoc, List.cons_append, List.nil_append] at e2
    generalize 0x2e :: (y ++ 0x2e :: (z ++ l)) = r at e2
    have nd : ¬ Spec.IsHexDigit 0x2e := by decide
    rcases List.append_eq_append_iff.1 e2 with ⟨t, e3, e4⟩ | ⟨t, e3, e4⟩
    · cases t with
      | nil =>
        rw [List.nil_append] at e4
        exact (hr 0x2e (by rw [e4]; rfl)).2 rfl
      | cons c t =>
        refine (hr c (by rw [e4]; rfl)).1 ((dec_hex c).resolve_left (fun k => k (dec_some.2 (h1.2.1 c ?_))))
        rw [e3]
        simp
    · cases t with
      | nil =>
        rw [List.nil_append] at e4
        exact (hr 0x2e (by rw [← e4]; rfl)).2 rfl
      | cons c t =>
        simp only [List.cons_append, List.cons.injEq] at e4
        exact nd (by rw [e4.1]; exact h3 c (by rw [e3]; simp))

/-- What ends the groups. -/
def GroupEnd (rest : Bytes) : Prop := rest.head? = some 0x5d ∨ ∃ r, rest = 0x3a :: 0x3a :: r

theorem groupEnd_head {rest : Bytes} (h : GroupEnd rest) : ∀ c, rest.head? = some c → ¬ Spec.IsHexDigit c ∧ c ≠ 0x2e := by
  intro c e
  rcases h with h | ⟨r, rfl⟩
  · rw [h] at e
    cases e
    decide
  · cases e
    decide

theorem readGroup_none {rest : Bytes} (h : ∀ c, rest.head? = some c → ¬ Spec.IsHexDigit c) : readGroup rest = none := by
  have e := takeDigits_at hexCharValue (s := []) (rest := rest) (by simp) (by
    intro c hc
    have := h c hc
    rw [← hex_some] at this
    simpa using this)
  rw [List.nil_append] at e
  unfold readGroup readNumber
  simp [e]

theorem groupEnd_none {rest : Bytes} (h : GroupEnd rest) (i : Nat) : readSep 0x3a i readIpv4 rest = none ∧ readSep 0x3a i readGroup rest = none := by
  have main : ∀ {l : Bytes}, (∀ c, l.head? = some c → ¬ Spec.IsHexDigit c ∧ c ≠ 0x2e) → readIpv4 l = none ∧ readGroup l = none :=
    fun {l} hl => ⟨by have := readIpv4_group (s := []) (rest := l) (by simp) hl; simpa using this, readGroup_none (fun c hc => (hl c hc).1)⟩
  unfold readSep
  split
  · rcases h with h | ⟨r, rfl⟩
    · have : readChar 0x3a rest = none := by
        cases rest with
        | nil => rfl
        | cons c rest =>
          simp only [List.head?_cons, Option.some.injEq] at h
          subst h
          rfl
      rw [this]
      exact ⟨rfl, rfl⟩
    · rw [readChar_some.2 rfl]
      exact main (by
        intro c e
        cases e
        decide)
  · exact main (groupEnd_head h)

/-- Groups as they stand in a text, the first one behind a colon if it is not the first of the address. -/
def groupsFrom : Nat → List Bytes → Bytes
  | _, [] => []
  | 0, s :: ss => s ++ groupsFrom 1 ss
  | i + 1, s :: ss => 0x3a :: (s ++ groupsFrom (i + 2) ss)

theorem groupsFrom_succ (i j : Nat) : ∀ ss, groupsFrom (i + 1) ss = groupsFrom (j + 1) ss := by
  intro ss
  induction ss generalizing i j with
  | nil => rfl
  | cons s ss ih => simp only [groupsFrom]; rw [ih (i + 1) (j + 1)]

theorem colons_from : ∀ ss, Spec.colons ss = groupsFrom 0 ss
  | [] => rfl
  | [s] => by simp [Spec.colons, groupsFrom]
  | s :: t :: ss => by
    rw [Spec.colons, colons_from (t :: ss)]
    · simp [groupsFrom, show ascii ":" = [0x3a] from by decide, groupsFrom_succ 1 0]
    · simp

theorem groupsFrom_head (i : Nat) {ss : List Bytes} {rest : Bytes} (h : ss ≠ [] ∨ ∀ c, rest.head? = some c → ¬ Spec.IsHexDigit c ∧ c ≠ 0x2e) :
    ∀ c, (groupsFrom (i + 1) ss ++ rest).head? = some c → ¬ Spec.IsHexDigit c ∧ c ≠ 0x2e := by
  cases ss with
  | nil => exact h.resolve_left (fun k => k rfl)
  | cons s ss =>
    intro c e
    cases e
    decide

theorem readGroups_at : ∀ (ss : List Bytes) (ns : List Nat) (left i : Nat) (rest : Bytes), List.Forall₂ Spec.HexGroup ss ns → ss.length ≤ left →
    (∀ c, rest.head? = some c → ¬ Spec.IsHexDigit c ∧ c ≠ 0x2e) → (ss.length < left → GroupEnd rest) →
    readGroups left i (groupsFrom i ss ++ rest) = (ns, false, rest)
  | [], _, left, i, rest, h, _, _, hend => by
    cases h
    cases left with
    | zero => cases i <;> rfl
    | succ left =>
      obtain ⟨h1, h2⟩ := groupEnd_none (hend (by simp)) i
      rw [show groupsFrom i [] ++ rest = rest by cases i <;> rfl]
      unfold readGroups
      rw [h1, h2, ite_self]
  | s :: ss, _, left, i, rest, h, hlen, hrest, hend => by
    cases h with
    | cons hs hss =>
      rename_i n ns
      cases left with
      | zero => simp at hlen
      | succ left =>
        have ih := readGroups_at ss ns left (i + 1) rest hss (by simpa using hlen) hrest (fun k => hend (by simpa using k))
        have hh : ∀ c, (groupsFrom (i + 1) ss ++ rest).head? = some c → ¬ Spec.IsHexDigit c ∧ c ≠ 0x2e := groupsFrom_head i (.inr hrest)
        have r4 := readIpv4_group (s := s) hs.2.2.1 hh
        have rg := readGroup_at hs (fun c hc => (hh c hc).1)
        have e4 : readSep 0x3a i readIpv4 (groupsFrom i (s :: ss) ++ rest) = none := by
          cases i with
          | zero =>
            simp only [groupsFrom, List.append_assoc]
            exact r4
          | succ i =>
            simp only [groupsFrom, List.cons_append, List.append_assoc]
            unfold readSep
            rw [if_pos (Nat.succ_pos i), readChar_some.2 rfl]
            exact r4
        have eg : readSep 0x3a i readGroup (groupsFrom i (s :: ss) ++ rest) = some (n, groupsFrom (i + 1) ss ++ rest) := by
          cases i with
          | zero =>
            simp only [groupsFrom, List.append_assoc]
            exact rg
          | succ i =>
            simp only [groupsFrom, List.cons_append, List.append_assoc]
            unfold readSep
            rw [if_pos (Nat.succ_pos i), readChar_some.2 rfl]
            exact rg
        unfold readGroups
        rw [e4, ite_self, eg]
        simp only [ih]

theorem readGroups_mixed {text : Bytes} {a b c d : Nat} (hd : Spec.Dotted text a b c d) {rest : Bytes} (hrest : ∀ x, rest.head? = some x → decCharValue x = none) :
    ∀ (ss : List Bytes) (ns : List Nat) (left i : Nat), List.Forall₂ Spec.HexGroup ss ns → ss.length + 2 ≤ left →
    readGroups left i (groupsFrom i (ss ++ [text]) ++ rest) = (ns ++ [a * 256 + b, c * 256 + d], true, rest)
  | [], _, left, i, h, hl => by
    cases h
    match left, hl with
    | left + 1, hl =>
      have e4 : readSep 0x3a i readIpv4 (groupsFrom i [text] ++ rest) = some ((a, b, c, d), rest) := by
        cases i with
        | zero =>
          simp only [groupsFrom, List.append_nil]
          exact dotted_at hd hrest
        | succ i =>
          simp only [groupsFrom, List.cons_append, List.append_nil]
          unfold readSep
          rw [if_pos (Nat.succ_pos i), readChar_some.2 rfl]
          exact dotted_at hd hrest
      rw [List.nil_append]
      unfold readGroups
      rw [if_pos (by simp at hl; omega), e4]
      rfl
  | s :: ss, _, left, i, h, hlen => by
    cases h with
    | cons hs hss =>
      rename_i n ns
      cases left with
      | zero => simp at hlen
      | succ left =>
        have ih := readGroups_mixed hd hrest ss ns left (i + 1) hss (by simp at hlen; omega)
        have hh : ∀ c, (groupsFrom (i + 1) (ss ++ [text]) ++ rest).head? = some c → ¬ Spec.IsHexDigit c ∧ c ≠ 0x2e := groupsFrom_head i (.inl (by simp))
        have r4 := readIpv4_group (s := s) hs.2.2.1 hh
        have rg := readGroup_at hs (fun c hc => (hh c hc).1)
        have e4 : readSep 0x3a i readIpv4 (groupsFrom i (s :: ss ++ [text]) ++ rest) = none := by
          cases i with
          | zero =>
            simp only [groupsFrom, List.cons_append, List.append_assoc]
            exact r4
          | succ i =>
            simp only [groupsFrom, List.cons_append, List.append_assoc]
            unfold readSep
            rw [if_pos (Nat.succ_pos i), readChar_some.2 rfl]
            exact r4
        have eg : readSep 0x3a i readGroup (groupsFrom i (s :: ss ++ [text]) ++ rest) = some (n, groupsFrom (i + 1) (ss ++ [text]) ++ rest) := by
          cases i with
          | zero =>
            simp only [groupsFrom, List.cons_append, List.append_assoc]
            exact rg
          | succ i =>
            simp only [groupsFrom, List.cons_append, List.append_assoc]
            unfold readSep
            rw [if_pos (Nat.succ_pos i), readChar_some.2 rfl]
            exact rg
        unfold readGroups
        rw [e4, ite_self, eg]
        simp only [ih]
        rfl

theorem readIpv6_at {text : Bytes} {groups : List Nat} (h : Spec.V6Text text groups) (rest : Bytes) : readIpv6 (text ++ 0x5d :: rest) = some (groups, 0x5d :: rest) := by
  have hend : GroupEnd (0x5d :: rest) := .inl rfl
  cases h with
  | full ss ns h1 h2 =>
    rw [colons_from]
    unfold readIpv6
    rw [readGroups_at ss groups 8 0 _ h2 (by omega) (groupEnd_head hend) (fun _ => hend)]
    simp only
    rw [if_pos (by rw [← h2.length_eq, h1])]
  | short ss ts ns ks h1 h2 h3 =>
    have hc : ascii "::" = [0x3a, 0x3a] := by decide
    have hend2 : GroupEnd (0x3a :: 0x3a :: (groupsFrom 0 ts ++ 0x5d :: rest)) := .inr ⟨_, rfl⟩
    rw [colons_from, colons_from, hc]
    simp only [List.append_assoc, List.cons_append, List.nil_append]
    unfold readIpv6
    rw [readGroups_at ss ns 8 0 _ h2 (by omega) (groupEnd_head hend2) (fun _ => hend2)]
    have e1 := h2.length_eq
    have e2 := h3.length_eq
    simp only
    rw [if_neg (by omega), if_neg (by simp)]
    simp only [readChar_some.2 rfl, Option.bind_eq_bind, Option.bind_some]
    rw [readGroups_at ts ks (8 - (ns.length + 1)) 0 _ h3 (by omega) (groupEnd_head hend) (fun _ => hend)]
    simp only [← e1, ← e2, List.append_assoc]
    rfl
  | fullMixed ss ns text a b c d h1 h2 h3 =>
    rw [colons_from]
    unfold readIpv6
    rw [readGroups_mixed h3 (rest := 0x5d :: rest) (by intro x e; cases e; decide) ss ns 8 0 h2 (by omega)]
    simp only
    rw [if_pos (by rw [List.length_append, ← h2.length_eq, h1]; rfl)]
  | shortMixed ss ts ns ks text a b c d h1 h2 h3 h4 =>
    have hc : ascii "::" = [0x3a, 0x3a] := by decide
    have hend2 : GroupEnd (0x3a :: 0x3a :: (groupsFrom 0 (ts ++ [text]) ++ 0x5d :: rest)) := .inr ⟨_, rfl⟩
    rw [colons_from, colons_from, hc]
    simp only [List.append_assoc, List.cons_append, List.nil_append]
    unfold readIpv6
    rw [readGroups_at ss ns 8 0 _ h2 (by omega) (groupEnd_head hend2) (fun _ => hend2)]
    have e1 := h2.length_eq
    have e2 := h3.length_eq
    simp only
    rw [if_neg (by omega), if_neg (by simp)]
    simp only [readChar_some.2 rfl, Option.bind_eq_bind, Option.bind_some]
    rw [readGroups_mixed h4 (rest := 0x5d :: rest) (by intro x e; cases e; decide) ts ks (8 - (ns.length + 1)) 0 h3 (by omega)]
    simp only [List.length_append, List.length_cons, List.length_nil, ← e1, ← e2, List.append_assoc]
    rw [show 8 - ss.length - (ts.length + (0 + 1 + 1)) = 6 - ss.length - ts.length by omega]
    rfl

/-- **C140** Started with an IPv6 address in brackets and any port, both servers listen at exactly this address and port. -/
theorem C140_v6 (cfg : ServeConfig) (text : Bytes) (groups : List Nat) (h : Spec.V6Text text groups) (hhost : cfg.host = ascii "[" ++ text ++ ascii "]") (hport : cfg.port < 65536) :
    cfg.listen = .ok { ip := .v6 groups, scope := 0, port := cfg.port } := by
  have eu : cfg.url = 0x5b :: (text ++ 0x5d :: (0x3a :: decStr cfg.port)) := by
    rw [ServeConfig.url, hhost, show ascii "[" = [0x5b] from by decide, show ascii "]" = [0x5d] from by decide]
    simp
  have e4 : readSockV4 cfg.url = none := by
    rw [eu]
    have : readIpv4 (0x5b :: (text ++ 0x5d :: (0x3a :: decStr cfg.port))) = none := by
      have := readIpv4_group (s := []) (rest := 0x5b :: (text ++ 0x5d :: (0x3a :: decStr cfg.port))) (by simp) (by
        intro c e
        cases e
        decide)
      simpa using this
    unfold readSockV4
    rw [this]
    rfl
  have e6 : readSockV6 cfg.url = some ({ ip := .v6 groups, scope := 0, port := cfg.port }, []) := by
    rw [eu]
    unfold readSockV6
    rw [readChar_some.2 rfl]
    simp only [Option.bind_eq_bind, Option.bind_some]
    rw [readIpv6_at h]
    simp only [Option.bind_some]
    have : readScope (0x5d :: 0x3a :: decStr cfg.port) = none := rfl
    rw [this]
    simp only [Option.getD_none, readChar_some.2 rfl, Option.bind_some]
    rw [readPort_at hport]
    rfl
  unfold ServeConfig.listen SockAddr.parse
  rw [e4, e6]
  rfl

theorem dec_text {s : Bytes} {n : Nat} (h : s ≠ [] ∧ (s.all (fun c => 48 ≤ c.toNat ∧ c.toNat ≤ 57)) = true ∧ s.foldl (fun a c => 10 * a + (c.toNat - 48)) 0 = n ∧ (s.head? ≠ some 48 ∨ s = [48])) :
    Spec.IsDecimal s n :=
  ⟨h.1, by simpa using h.2.1, fun k => h.2.2.2.resolve_left (fun k' => k' k), h.2.2.1⟩

theorem hex_text {s : Bytes} {n : Nat} (h : s ≠ [] ∧ s.length ≤ 4 ∧ (s.all (fun c => (hexCharValue c).isSome)) = true ∧
    s.foldl (fun a c => 16 * a + (if c.toNat ≤ 57 then c.toNat - 48 else if c.toNat ≤ 70 then c.toNat - 55 else c.toNat - 87)) 0 = n) : Spec.HexGroup s n :=
  ⟨h.1, h.2.1, fun c hc => (hex_some c).1 (by have := h.2.2.1; rw [List.all_eq_true] at this; exact this c hc), h.2.2.2⟩

/-- Instances: an address of each kind, and a host of each kind that is not taken. -/
theorem loopback_dotted : Spec.Dotted (ascii "127.0.0.1") 127 0 0 1 :=
  ⟨by decide, ascii "127", ascii "0", ascii "0", ascii "1", dec_text (by decide), dec_text (by decide), dec_text (by decide), dec_text (by decide), by decide⟩

theorem loopback_v6 : Spec.V6Text (ascii "::1") [0, 0, 0, 0, 0, 0, 0, 1] :=
  Spec.V6Text.short [] [ascii "1"] [] [1] (by decide) .nil (.cons (hex_text (by decide)) .nil)

example : ServeConfig.listen { ServeConfig.default with host := ascii "127.0.0.1", port := 22 } = .ok { ip := .v4 127 0 0 1, scope := 0, port := 22 } :=
  C140_v4 _ 127 0 0 1 loopback_dotted (by decide)

example : ServeConfig.listen { ServeConfig.default with host := ascii "[::1]" } = .ok { ip := .v6 [0, 0, 0, 0, 0, 0, 0, 1], scope := 0, port := 8000 } :=
  C140_v6 _ (ascii "::1") _ loopback_v6 (by decide) (by decide)

example : Spec.V6Text (ascii "2001:db8:0:0:8:800:200c:417A") [0x2001, 0xdb8, 0, 0, 8, 0x800, 0x200c, 0x417a] :=
  Spec.V6Text.full [ascii "2001", ascii "db8", ascii "0", ascii "0", ascii "8", ascii "800", ascii "200c", ascii "417A"] _ rfl
    (.cons (hex_text (by decide)) (.cons (hex_text (by decide)) (.cons (hex_text (by decide)) (.cons (hex_text (by decide)) (.cons (hex_text (by decide)) (.cons (hex_text (by decide)) (.cons (hex_text (by decide)) (.cons (hex_text (by decide)) .nil))))))))

/-- An IPv4 address written as IPv6 address. -/
example : ServeConfig.listen { ServeConfig.default with host := ascii "[::ffff:192.0.2.1]" } = .ok { ip := .v6 [0, 0, 0, 0, 0, 0xffff, 0xc000, 0x0201], scope := 0, port := 8000 } :=
  C140_v6 _ (ascii "::ffff:192.0.2.1") _
    (Spec.V6Text.shortMixed [] [ascii "ffff"] [] [0xffff] (ascii "192.0.2.1") 192 0 2 1 (by decide) .nil (.cons (hex_text (by decide)) .nil)
      ⟨by decide, ascii "192", ascii "0", ascii "2", ascii "1", dec_text (by decide), dec_text (by decide), dec_text (by decide), dec_text (by decide), by decide⟩)
    (by decide) (by decide)

example : ServeConfig.listen { ServeConfig.default with host := ascii "localhost" } = .panic :=
  C140_names_false _ (by decide) (.inl ⟨0x6c, by decide, by decide, by decide⟩)

example : ServeConfig.listen { ServeConfig.default with host := ascii "::1" } = .panic :=
  C140_names_false _ (by decide) (.inr ⟨by decide, by decide⟩)

/-! ## Links to large files -/

theorem dotted_noSlash {text : Bytes} {a b c d : Nat} (h : Spec.Dotted text a b c d) : (0x2f : UInt8) ∉ text := by
  obtain ⟨_, w, x, y, z, hw, hx, hy, hz, rfl⟩ := h
  have nc : ∀ {s : Bytes}, (∀ c ∈ s, 48 ≤ c.toNat ∧ c.toNat ≤ 57) → (0x2f : UInt8) ∉ s := by
    intro s h hm
    have := h _ hm
    simp at this
  rw [show ascii "." = [0x2e] from by decide]
  simp only [List.mem_append, List.mem_singleton, not_or]
  exact ⟨⟨⟨⟨⟨⟨nc hw.2.1, by decide⟩, nc hx.2.1⟩, by decide⟩, nc hy.2.1⟩, by decide⟩, nc hz.2.1⟩

theorem origin_dotted {cfg : ServeConfig} {a b c d : Nat} (h : Spec.Dotted cfg.host a b c d) : Spec.Origin cfg.origin := by
  refine ⟨cfg.host ++ [0x3a] ++ decStr cfg.port, by rw [ServeConfig.origin]; simp, by simp, ?_⟩
  simp only [List.mem_append, List.mem_singleton, not_or]
  refine ⟨⟨dotted_noSlash h, by decide⟩, fun hm => ?_⟩
  have := decStr_range _ _ hm
  simp at this

/-- **C140** The links to large files that a client gets name the address at which the server listens, in every state and for every request for links. (Objects for which the client names a user or repository: see C74.) -/
theorem C140_links (P : ServerExt) (cfg : ServeConfig) (ho : P.S.origin = cfg.origin) (a b c d : Nat) (hhost : Spec.Dotted cfg.host a b c d) (hport : cfg.port < 65536)
    (m : Moment) (s : ServerState) (r : HttpReq) (hr : route r.method r.path r.service = .batch) (op : Bytes) (vs : List RequestVars) (hj : P.J.batch r.body = some (op, vs))
    (rs : List Rep) (h : (serve P m s r).1 = .reply (.ok (.objects rs))) (i : Nat) (v : RequestVars) (e : Rep) (hv : vs[i]? = some v) (he : rs[i]? = some e)
    (hoid : Spec.RouteOid v.oid) (hplain : v.user = [] ∧ v.repo = []) (l : Bytes) (hl : e.offer = .upload l ∨ e.offer = .download l) :
    cfg.listen = .ok { ip := .v4 a b c d, scope := 0, port := cfg.port } ∧
      ∃ host port, Spec.Dotted host a b c d ∧ Spec.IsDecimal port cfg.port ∧ l = ascii "http://" ++ host ++ ascii ":" ++ port ++ ascii "/objects/" ++ v.oid := by
  refine ⟨C140_v4 cfg a b c d hhost hport, cfg.host, decStr cfg.port, hhost, decStr_isDecimal _, ?_⟩
  have k := (C47_batch P.D P.S _ _ vs rs (serve_batch hr hj h)).2 i v e hv he
  have el : l = internalLink P.S.origin v := by
    rw [k] at hl
    unfold Spec.entryFor at hl
    split at hl <;> (repeat' split at hl) <;> simp at hl <;> exact hl.symm
  rw [el, ho, link_eq (origin_dotted hhost) hoid hplain.1 hplain.2, ServeConfig.origin, show ascii ":" = [0x3a] from by decide]

/-- **C140 is false** of the default options: such a server listens at all addresses of its machine, and the links to large files that it gives name the address 0.0.0.0, which is no address of the machine. -/
theorem C140_default_link_false (P : ServerExt) (ho : P.S.origin = ServeConfig.default.origin)
    (m : Moment) (s : ServerState) (r : HttpReq) (hr : route r.method r.path r.service = .batch) (op : Bytes) (vs : List RequestVars) (hj : P.J.batch r.body = some (op, vs))
    (rs : List Rep) (h : (serve P m s r).1 = .reply (.ok (.objects rs))) (i : Nat) (v : RequestVars) (e : Rep) (hv : vs[i]? = some v) (he : rs[i]? = some e)
    (hoid : Spec.RouteOid v.oid) (hplain : v.user = [] ∧ v.repo = []) (l : Bytes) (hl : e.offer = .upload l ∨ e.offer = .download l) :
    ServeConfig.default.listen = .ok { ip := .v4 0 0 0 0, scope := 0, port := 8000 } ∧ l = ascii "http://0.0.0.0:8000/objects/" ++ v.oid := by
  have hd : Spec.Dotted ServeConfig.default.host 0 0 0 0 := ⟨by decide, ascii "0", ascii "0", ascii "0", ascii "0", dec_text (by decide), dec_text (by decide), dec_text (by decide), dec_text (by decide), by decide⟩
  refine ⟨C140_v4 _ 0 0 0 0 hd (by decide), ?_⟩
  have k := (C47_batch P.D P.S _ _ vs rs (serve_batch hr hj h)).2 i v e hv he
  have el : l = internalLink P.S.origin v := by
    rw [k] at hl
    unfold Spec.entryFor at hl
    split at hl <;> (repeat' split at hl) <;> simp at hl <;> exact hl.symm
  rw [el, ho, link_eq (origin_dotted hd) hoid hplain.1 hplain.2, show ServeConfig.default.origin = ascii "http://0.0.0.0:8000" from by decide +kernel]
  rw [show ascii "http://0.0.0.0:8000/objects/" = ascii "http://0.0.0.0:8000" ++ ascii "/objects/" from by decide]

/-- The example server, started with the default options: a client that announces a file gets a link to 0.0.0.0. -/
def defaultServer : ServerExt := { lowerServer with S := { demoStore with origin := ServeConfig.default.origin } }

theorem default_batch : (serve defaultServer demoMoment .empty (batchReq (demoStore.digest (ascii "other")))).1 =
    .reply (.ok (.objects [{ oid := demoStore.digest (ascii "other"), size := 5, offer := .upload (ascii "http://0.0.0.0:8000/objects/" ++ demoStore.digest (ascii "other")) }])) := by
  decide +kernel

example : ServeConfig.default.listen = .ok { ip := .v4 0 0 0 0, scope := 0, port := 8000 } ∧
    ascii "http://0.0.0.0:8000/objects/" ++ demoStore.digest (ascii "other") = ascii "http://0.0.0.0:8000/objects/" ++ demoStore.digest (ascii "other") :=
  C140_default_link_false defaultServer rfl demoMoment .empty (batchReq (demoStore.digest (ascii "other"))) (by decide +kernel) (ascii "upload")
    [{ oid := demoStore.digest (ascii "other"), size := 5, user := [], repo := [] }] rfl _ default_batch 0 _ _ rfl rfl
    (hexDigest_route demoStore_digest _) ⟨rfl, rfl⟩ _ (.inl rfl)

end Gust

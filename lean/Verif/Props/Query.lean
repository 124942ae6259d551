import Verif.Spec.Query
import Verif.Lemmas.Utf8
import Verif.Lemmas.LfsStore
import Verif.Lemmas.Json
import Verif.Props.Router
import Verif.Props.LfsLock
import Verif.Props.ServerExamples
import Verif.Base.Tactics

/-! # C146: parameters in URLs -/

namespace Gust

/-! ## Texts that are UTF-8 -/

theorem lossyStep_valid (a : UInt8) (s : Bytes) (h : utf8Valid (a :: s) = true) :
    (lossyStep (a :: s)).2 = true ∧ 1 ≤ (lossyStep (a :: s)).1 ∧ utf8Valid ((a :: s).drop (lossyStep (a :: s)).1) = true := by
  rw [utf8Valid.eq_def] at h
  simp only at h
  simp only [lossyStep]
  split at h
  · rename_i h1
    rw [if_pos h1]; exact ⟨rfl, by omega, h⟩
  rename_i h1
  rw [if_neg h1]
  split at h
  · rename_i h2
    rw [if_pos h2]
    split at h
    · rename_i b s'
      rw [Bool.and_eq_true] at h
      simp only [if_pos h.1]
      exact ⟨trivial, by omega, h.2⟩
    · exact absurd h (by decide)
  rename_i h2
  rw [if_neg h2]
  split at h
  · rename_i h3
    rw [if_pos h3]
    split at h
    · rename_i b c s'
      rw [Bool.and_eq_true, Bool.and_eq_true] at h
      simp only [if_pos h.1.1, if_pos h.1.2]
      exact ⟨trivial, by omega, h.2⟩
    · exact absurd h (by decide)
  rename_i h3
  rw [if_neg h3]
  split at h
  · rename_i h4
    rw [if_pos h4]
    split at h
    · rename_i b c d s'
      rw [Bool.and_eq_true, Bool.and_eq_true, Bool.and_eq_true] at h
      simp only [if_pos h.1.1.1, if_pos h.1.1.2, if_pos h.1.2]
      exact ⟨trivial, by omega, h.2⟩
    · exact absurd h (by decide)
  · exact absurd h (by decide)

theorem lossyGo_valid : ∀ (n : Nat) (s : Bytes), s.length ≤ n → utf8Valid s = true → lossyGo n s = s
  | 0, s, hl, _ => by
    have : s = [] := List.length_eq_zero_iff.1 (by omega)
    subst this; rfl
  | n + 1, [], _, _ => rfl
  | n + 1, a :: s, hl, h => by
    obtain ⟨h1, h2, h3⟩ := lossyStep_valid a s h
    rw [lossyGo, if_pos h1, lossyGo_valid n _ (by rw [List.length_drop]; omega) h3, List.take_append_drop]
    exact fun e => by cases e

/-! ## Percent encoding -/

theorem percentDecode_plain (c : UInt8) (h : c ≠ 0x25) (s : Bytes) : percentDecode (c :: s) = c :: percentDecode s := by
  match s with
  | [] => rfl
  | [a] => rfl
  | a :: b :: t => rw [percentDecode, if_neg h]

theorem hexDigit_value {a : UInt8} {x : Nat} (h : Spec.HexDigit a x) : hexCharValue a = some x := by
  unfold hexCharValue
  obtain ⟨h1, h2⟩ := h
  split
  · congr 1; omega
  · split
    · congr 1; omega
    · split
      · congr 1; omega
      · omega

theorem hexDigit_plus {a : UInt8} {x : Nat} (h : Spec.HexDigit a x) : a ≠ 0x2b := by
  rintro rfl
  obtain ⟨h1, h2⟩ := h
  have : (0x2b : UInt8).toNat = 43 := rfl
  omega

theorem hexDigit_amp {a : UInt8} {x : Nat} (h : Spec.HexDigit a x) : a ≠ 0x26 := by
  rintro rfl
  obtain ⟨h1, h2⟩ := h
  have : (0x26 : UInt8).toNat = 38 := rfl
  omega

theorem written_decode {raw v : Bytes} (h : Spec.Written raw v) : percentDecode (replacePlus raw) = v := by
  induction h with
  | nil => rfl
  | plain c raw v h1 h2 h3 _ ih =>
    rw [replacePlus, List.map_cons, if_neg h2, percentDecode_plain c h1]
    exact congrArg _ ih
  | plus raw v _ ih =>
    rw [replacePlus, List.map_cons, if_pos rfl, percentDecode_plain _ (by decide)]
    exact congrArg _ ih
  | code a b x y raw v ha hb _ ih =>
    rw [replacePlus, List.map_cons, List.map_cons, List.map_cons, if_neg (by decide), if_neg (hexDigit_plus ha), if_neg (hexDigit_plus hb), percentDecode,
      if_pos rfl, hexDigit_value ha, hexDigit_value hb]
    exact congrArg _ ih

theorem written_amp {raw v : Bytes} (h : Spec.Written raw v) : (0x26 : UInt8) ∉ raw := by
  induction h with
  | nil => simp
  | plain c raw v h1 h2 h3 _ ih => simp [Ne.symm h3, ih]
  | plus raw v _ ih => simp [ih]
  | code a b x y raw v ha hb _ ih => simp [ih, Ne.symm (hexDigit_amp ha), Ne.symm (hexDigit_amp hb)]

theorem decodePart_written {raw v : Bytes} (h : Spec.Written raw v) (hv : utf8Valid v = true) : decodePart raw = v := by
  rw [decodePart, written_decode h]
  exact lossyGo_valid _ _ (Nat.le_refl _) hv

/-! ## The pieces -/

theorem piece_amp {raw : Bytes} {l : List (Bytes × Bytes)} (h : Spec.Piece raw l) : (0x26 : UInt8) ∉ raw := by
  cases h with
  | empty => simp
  | pair n v name value hn hv _ => simp [written_amp hn, written_amp hv]
  | name n name hn _ _ => exact written_amp hn

/-- What one piece adds to the list of parameters. -/
theorem piece_pairs {raw : Bytes} {l : List (Bytes × Bytes)} (h : Spec.Piece raw l) (hu : ∀ p ∈ l, utf8Valid p.1 = true ∧ utf8Valid p.2 = true) :
    ([raw].filter (· ≠ [])).map (fun p => (decodePart (p.takeWhile (· ≠ 0x3d)), decodePart ((p.dropWhile (· ≠ 0x3d)).drop 1))) = l := by
  cases h with
  | empty => rfl
  | pair n v name value hn hv he =>
    have hne : n ++ 0x3d :: v ≠ [] := by simp
    have hp : ∀ a ∈ n, (decide (a ≠ (0x3d : UInt8))) = true := fun a ha => decide_eq_true (fun e => he (e ▸ ha))
    rw [List.filter_cons, if_pos (decide_eq_true hne), List.filter_nil, List.map_singleton,
      List.takeWhile_append_of_pos hp, List.dropWhile_append_of_pos hp, List.takeWhile_cons_of_neg (by simp), List.dropWhile_cons_of_neg (by simp), List.append_nil,
      decodePart_written hn (hu _ (List.mem_singleton.2 rfl)).1]
    rw [show ((0x3d : UInt8) :: v).drop 1 = v from rfl, decodePart_written hv (hu _ (List.mem_singleton.2 rfl)).2]
  | name _ name hn he hne =>
    have hp : ∀ a ∈ raw, (decide (a ≠ (0x3d : UInt8))) = true := fun a ha => decide_eq_true (fun e => he (e ▸ ha))
    rw [List.filter_cons, if_pos (decide_eq_true hne), List.filter_nil, List.map_singleton, List.takeWhile_eq_self_iff.2 hp, List.dropWhile_eq_nil_iff.2 hp,
      decodePart_written hn (hu _ (List.mem_singleton.2 rfl)).1]
    rfl

theorem queryPairs_text {q : Bytes} {ps : List (Bytes × Bytes)} (h : Spec.QueryText q ps) (hu : ∀ p ∈ ps, utf8Valid p.1 = true ∧ utf8Valid p.2 = true) :
    queryPairs q = ps := by
  induction h with
  | last raw l hp =>
    rw [queryPairs, splitOn_plain _ _ (piece_amp hp)]
    exact piece_pairs hp hu
  | more raw l q ps hp _ ih =>
    rw [queryPairs, splitOn_glue, splitOn_plain _ _ (piece_amp hp), List.filter_append, List.map_append,
      piece_pairs hp (fun p h => hu p (List.mem_append_left _ h))]
    exact congrArg _ (ih (fun p h => hu p (List.mem_append_right _ h)))

/-! ## The parameters -/

theorem times_filter (ps : List (Bytes × Bytes)) (name : Bytes) : Spec.times ps name = (ps.filter (fun p => decide (p.1 = name))).length := by
  rw [Spec.times, List.count, List.countP_map, List.countP_eq_length_filter]
  congr 1
  refine List.filter_congr (fun p _ => ?_)
  rw [Function.comp, Bool.eq_iff_iff, beq_iff_eq, decide_eq_true_iff]

theorem given_filter (ps : List (Bytes × Bytes)) (name : Bytes) : Spec.given ps name = (ps.filter (fun p => decide (p.1 = name))).head?.map Prod.snd := by
  rw [Spec.given, List.head?_filter]
  congr 2
  funext p
  rw [Bool.eq_iff_iff, beq_iff_eq, decide_eq_true_iff]

theorem getParam_once {ps : List (Bytes × Bytes)} {name : Bytes} (h : Spec.times ps name ≤ 1) : getParam ps name = some (Spec.given ps name) := by
  rw [times_filter] at h
  rw [given_filter, getParam]
  generalize ps.filter (fun p => decide (p.1 = name)) = l at h ⊢
  match l, h with
  | [], _ => rfl
  | [p], _ => rfl
  | a :: b :: l, h => rw [List.length_cons, List.length_cons] at h; omega

theorem getParam_twice {ps : List (Bytes × Bytes)} {name : Bytes} (h : 2 ≤ Spec.times ps name) : getParam ps name = none := by
  rw [times_filter] at h
  rw [getParam]
  generalize ps.filter (fun p => decide (p.1 = name)) = l at h ⊢
  match l, h with
  | [], h => exact absurd h (by simp)
  | [p], h => exact absurd h (by simp)
  | a :: b :: l, _ => rfl

/-- The request as the client means it. -/
def Spec.meant (method : Method) (path body : Bytes) (ps : List (Bytes × Bytes)) : HttpReq :=
  { method := method
    path := path
    service := Spec.given ps (ascii "service")
    query := { path := Spec.given ps (ascii "path"), id := Spec.given ps (ascii "id"), cursor := Spec.given ps (ascii "cursor"),
               limit := Spec.given ps (ascii "limit"), refspec := Spec.given ps (ascii "refspec") }
    body := body }

theorem parseQuery_once {q : Bytes} {ps : List (Bytes × Bytes)} (hq : queryPairs q = ps) (h : ∀ n ∈ Spec.known, Spec.times ps n ≤ 1) :
    parseQuery q = some { service := Spec.given ps (ascii "service"), refspec := Spec.given ps (ascii "refspec"), id := Spec.given ps (ascii "id"),
                          path := Spec.given ps (ascii "path"), limit := Spec.given ps (ascii "limit"), cursor := Spec.given ps (ascii "cursor") } := by
  unfold parseQuery
  rw [hq, getParam_once (h _ (by simp [Spec.known])), getParam_once (h (ascii "refspec") (by simp [Spec.known])), getParam_once (h (ascii "id") (by simp [Spec.known])),
    getParam_once (h (ascii "path") (by simp [Spec.known])), getParam_once (h (ascii "limit") (by simp [Spec.known])), getParam_once (h (ascii "cursor") (by simp [Spec.known]))]
  rfl

theorem parseQuery_twice {q : Bytes} {ps : List (Bytes × Bytes)} (hq : queryPairs q = ps) (n : Bytes) (hn : n ∈ Spec.known) (h : 2 ≤ Spec.times ps n) :
    parseQuery q = none := by
  have hg := getParam_twice h
  unfold parseQuery
  rw [hq]
  simp only [Spec.known, List.mem_cons, List.not_mem_nil, or_false] at hn
  rcases hn with rfl | rfl | rfl | rfl | rfl | rfl <;>
  · rw [hg]
    cases getParam ps (ascii "service") <;> cases getParam ps (ascii "refspec") <;> cases getParam ps (ascii "id") <;> cases getParam ps (ascii "path") <;>
      cases getParam ps (ascii "limit") <;> cases getParam ps (ascii "cursor") <;> first | rfl

/-- **C146** (read). However a client writes the parameters of a GET request (in any order, percent-encoded or not, spaces as `+` or `%20`, with
parameters the server does not know, with empty pieces), the request is answered as the one with the values meant, if no known parameter is
given twice. -/
theorem C146_read {P : ServerExt} {m : Moment} {s : ServerState} {path q body : Bytes} {ps : List (Bytes × Bytes)} (hq : Spec.QueryText q ps)
    (hu : ∀ p ∈ ps, utf8Valid p.1 = true ∧ utf8Valid p.2 = true) (h : ∀ n ∈ Spec.known, Spec.times ps n ≤ 1) (hp : path ≠ ascii "/") :
    serveRaw P m s { method := .get, path := path, query := q, body := body } = serve P m s (Spec.meant .get path body ps) := by
  unfold serveRaw
  rw [if_pos ⟨rfl, hp⟩]
  simp only [parseQuery_once (queryPairs_text hq hu) h]
  rfl

/-- `service=git%2Dupload%2dpack&depth=1&&`: the discovery of C75, written otherwise. -/
example : Spec.QueryText (ascii "service=git%2Dupload%2dpack&depth=1&&") [(ascii "service", ascii "git-upload-pack"), (ascii "depth", ascii "1")] ∧
    serveRaw demoServer demoMoment (runServer demoServer .empty mixedRequests)
        { method := .get, path := ascii "/app/info/refs", query := ascii "service=git%2Dupload%2dpack&depth=1&&" } =
      serve demoServer demoMoment (runServer demoServer .empty mixedRequests) (discoverReq (ascii "/app")) := by
  have w : ∀ (raw v : Bytes), raw = v → (∀ c ∈ raw, c ≠ 0x25 ∧ c ≠ 0x2b ∧ c ≠ 0x26) → Spec.Written raw v := by
    rintro raw v rfl h
    induction raw with
    | nil => exact .nil
    | cons c raw ih =>
      exact .plain _ _ _ (h c List.mem_cons_self).1 (h c List.mem_cons_self).2.1 (h c List.mem_cons_self).2.2 (ih (fun c hc => h c (List.mem_cons_of_mem _ hc)))
  have hq : Spec.QueryText (ascii "service=git%2Dupload%2dpack&depth=1&&") [(ascii "service", ascii "git-upload-pack"), (ascii "depth", ascii "1")] := by
    refine .more (ascii "service" ++ 0x3d :: ascii "git%2Dupload%2dpack") [(ascii "service", ascii "git-upload-pack")] (ascii "depth=1&&") _
      (.pair _ _ _ _ (w _ _ rfl (by decide)) ?_ (by decide)) (.more (ascii "depth" ++ 0x3d :: ascii "1") [(ascii "depth", ascii "1")] (ascii "&") []
        (.pair _ _ _ _ (w _ _ rfl (by decide)) (w _ _ rfl (by decide)) (by decide)) (.more [] [] [] [] .empty (.last _ _ .empty)))
    refine .plain _ _ _ (by decide) (by decide) (by decide) (.plain _ _ _ (by decide) (by decide) (by decide) (.plain _ _ _ (by decide) (by decide) (by decide) ?_))
    refine .code 0x32 0x44 2 13 _ _ ⟨by decide, by decide⟩ ⟨by decide, by decide⟩ ?_
    refine .plain _ _ _ (by decide) (by decide) (by decide) (.plain _ _ _ (by decide) (by decide) (by decide) (.plain _ _ _ (by decide) (by decide) (by decide) ?_))
    refine .plain _ _ _ (by decide) (by decide) (by decide) (.plain _ _ _ (by decide) (by decide) (by decide) (.plain _ _ _ (by decide) (by decide) (by decide) ?_))
    exact .code 0x32 0x64 2 13 _ _ ⟨by decide, by decide⟩ ⟨by decide, by decide⟩ (w _ _ rfl (by decide))
  exact ⟨hq, C146_read hq (by decide +kernel) (by decide +kernel) (by decide)⟩

/-- **C146** (twice). A request that gives a known parameter twice is refused with status 400, whatever the values, and changes nothing. -/
theorem C146_twice {P : ServerExt} {m : Moment} {s : ServerState} {path q body : Bytes} {ps : List (Bytes × Bytes)} (hq : Spec.QueryText q ps)
    (hu : ∀ p ∈ ps, utf8Valid p.1 = true ∧ utf8Valid p.2 = true) (n : Bytes) (hn : n ∈ Spec.known) (h : 2 ≤ Spec.times ps n) (hp : path ≠ ascii "/") :
    serveRaw P m s { method := .get, path := path, query := q, body := body } = (.reply (.status 400), s) := by
  unfold serveRaw
  rw [if_pos ⟨rfl, hp⟩]
  simp only [parseQuery_twice (queryPairs_text hq hu) n hn h]

/-- Two services. -/
example : serveRaw demoServer demoMoment .empty { method := .get, path := ascii "/app/info/refs", query := ascii "service=a&service=b" } = (.reply (.status 400), .empty) := by
  have w : ∀ c : UInt8, c ≠ 0x25 → c ≠ 0x2b → c ≠ 0x26 → Spec.Written [c] [c] := fun c h1 h2 h3 => .plain c [] [] h1 h2 h3 .nil
  have w7 : Spec.Written (ascii "service") (ascii "service") := by
    repeat first | exact Spec.Written.nil | refine Spec.Written.plain _ _ _ (by decide) (by decide) (by decide) ?_
  exact C146_twice (q := (ascii "service" ++ 0x3d :: ascii "a") ++ 0x26 :: (ascii "service" ++ 0x3d :: ascii "b"))
    (ps := [(ascii "service", ascii "a")] ++ [(ascii "service", ascii "b")])
    (.more _ _ _ _ (.pair _ _ _ _ w7 (w _ (by decide) (by decide) (by decide)) (by decide)) (.last _ _ (.pair _ _ _ _ w7 (w _ (by decide) (by decide) (by decide)) (by decide))))
    (by decide +kernel) (ascii "service") (by decide) (by decide +kernel) (by decide)

/-! ## Every value can be written -/

/-- A digit for each number below 16. -/
theorem hexDigit_exists : ∀ n < 16, ∃ a : UInt8, Spec.HexDigit a n ∧ 0x30 ≤ a ∧ a ≤ 0x66 := by
  intro n hn
  by_cases h : n < 10
  · refine ⟨UInt8.ofNat (0x30 + n), ⟨hn, .inl ⟨?_, h⟩⟩, ?_, ?_⟩
    · rw [UInt8.toNat_ofNat']; omega
    · rw [UInt8.le_iff_toNat_le, UInt8.toNat_ofNat']; simp only [UInt8.reduceToNat]; omega
    · rw [UInt8.le_iff_toNat_le, UInt8.toNat_ofNat']; simp only [UInt8.reduceToNat]; omega
  · refine ⟨UInt8.ofNat (0x57 + n), ⟨hn, .inr (.inr ⟨?_, by omega⟩)⟩, ?_, ?_⟩
    · rw [UInt8.toNat_ofNat']; omega
    · rw [UInt8.le_iff_toNat_le, UInt8.toNat_ofNat']; simp only [UInt8.reduceToNat]; omega
    · rw [UInt8.le_iff_toNat_le, UInt8.toNat_ofNat']; simp only [UInt8.reduceToNat]; omega

/-- The bytes used: printable, without the separators. -/
def Spec.printable (c : UInt8) : Prop := 0x21 ≤ c ∧ c ≤ 0x7e

theorem written_exists : ∀ v : Bytes, ∃ raw, Spec.Written raw v ∧ (∀ c ∈ raw, Spec.printable c ∧ c ≠ 0x3d)
  | [] => ⟨[], .nil, fun _ h => by cases h⟩
  | b :: v => by
    obtain ⟨raw, hw, hc⟩ := written_exists v
    have hb : b.toNat < 256 := b.toNat_lt
    obtain ⟨x, hx, hx1, hx2⟩ := hexDigit_exists (b.toNat / 16) (by omega)
    obtain ⟨y, hy, hy1, hy2⟩ := hexDigit_exists (b.toNat % 16) (by omega)
    refine ⟨0x25 :: x :: y :: raw, ?_, ?_⟩
    · have h := Spec.Written.code x y _ _ raw v hx hy hw
      rw [Nat.div_add_mod' b.toNat 16, UInt8.ofNat_toNat] at h
      exact h
    · have hd : ∀ z : UInt8, 0x30 ≤ z → z ≤ 0x66 → ∀ n, Spec.HexDigit z n → Spec.printable z ∧ z ≠ 0x3d := by
        intro z h1 h2 n hn
        rw [UInt8.le_iff_toNat_le] at h1 h2
        refine ⟨⟨UInt8.le_iff_toNat_le.2 ?_, UInt8.le_iff_toNat_le.2 ?_⟩, ?_⟩
        · simp only [UInt8.reduceToNat] at *; omega
        · simp only [UInt8.reduceToNat] at *; omega
        · rintro rfl
          obtain ⟨h3, h⟩ := hn
          simp only [UInt8.reduceToNat] at h
          omega
      intro c h
      rcases List.mem_cons.1 h with rfl | h
      · exact ⟨⟨by decide, by decide⟩, by decide⟩
      rcases List.mem_cons.1 h with rfl | h
      · exact hd _ hx1 hx2 _ hx
      rcases List.mem_cons.1 h with rfl | h
      · exact hd _ hy1 hy2 _ hy
      · exact hc c h

/-- **C146** (every value). For all parameters there is a query string of printable characters that gives them: no value, such as the name of a
branch with spaces or in another script, is out of reach. -/
theorem C146_writable : ∀ ps : List (Bytes × Bytes), ∃ q, Spec.QueryText q ps ∧ ∀ c ∈ q, Spec.printable c
  | [] => ⟨[], .last _ _ .empty, fun _ h => by cases h⟩
  | (name, value) :: ps => by
    obtain ⟨q, hq, hc⟩ := C146_writable ps
    obtain ⟨n, hn, hn1⟩ := written_exists name
    obtain ⟨v, hv, hv1⟩ := written_exists value
    refine ⟨_, .more _ _ q ps (.pair n v name value hn hv (fun h => (hn1 _ h).2 rfl)) hq, fun c h => ?_⟩
    rcases List.mem_append.1 h with h | h
    · rcases List.mem_append.1 h with h | h
      · exact (hn1 c h).1
      · rcases List.mem_cons.1 h with rfl | h
        · exact ⟨by decide, by decide⟩
        · exact (hv1 c h).1
    · rcases List.mem_cons.1 h with rfl | h
      · exact ⟨by decide, by decide⟩
      · exact hc c h

/-- A branch with a space and a letter that is not ASCII. -/
example : ∃ q, Spec.QueryText q [(ascii "refspec", ascii "caf" ++ [0xc3, 0xa9] ++ ascii " 1")] ∧ ∀ c ∈ q, Spec.printable c := C146_writable _

/-! ## Histories -/

theorem serveRaw_state (P : ServerExt) (m : Moment) (s : ServerState) (r : RawReq) :
    (∃ r', r'.method = r.method ∧ r'.path = r.path ∧ r'.body = r.body ∧ serveRaw P m s r = serve P m s r') ∨ serveRaw P m s r = (.reply (.status 400), s) := by
  unfold serveRaw
  split
  · split
    · exact .inl ⟨_, rfl, rfl, rfl, rfl⟩
    · exact .inr rfl
  · exact .inl ⟨_, rfl, rfl, rfl, rfl⟩

/-- **C146** (histories). What requests with arbitrary query strings make of the server, requests with parameters make of it: the state after any history is
one that all claims about histories speak of, with the same methods, paths and bodies, the refused requests left out. -/
theorem C146_history (P : ServerExt) (h : List (Moment × RawReq)) :
    ∃ h' : List (Moment × HttpReq), runRaw P .empty h = runServer P .empty h' ∧
      (h'.map (fun p => (p.1, p.2.method, p.2.path, p.2.body))).Sublist (h.map (fun p => (p.1, p.2.method, p.2.path, p.2.body))) := by
  suffices H : ∀ s, ∃ h' : List (Moment × HttpReq), runRaw P s h = runServer P s h' ∧
      (h'.map (fun p => (p.1, p.2.method, p.2.path, p.2.body))).Sublist (h.map (fun p => (p.1, p.2.method, p.2.path, p.2.body))) from H _
  induction h with
  | nil => exact fun s => ⟨[], rfl, .slnil⟩
  | cons a h ih =>
    intro s
    obtain ⟨h', e, hsub⟩ := ih (serveRaw P a.1 s a.2).2
    rcases serveRaw_state P a.1 s a.2 with ⟨r, hm, hp, hb, hr⟩ | hr
    · refine ⟨(a.1, r) :: h', ?_, ?_⟩
      · have e1 : runRaw P s (a :: h) = runRaw P (serveRaw P a.1 s a.2).2 h := rfl
        rw [e1, e, hr]; rfl
      · rw [List.map_cons, List.map_cons, hm, hp, hb]; exact hsub.cons_cons _
    · refine ⟨h', ?_, hsub.cons _⟩
      have e1 : runRaw P s (a :: h) = runRaw P (serveRaw P a.1 s a.2).2 h := rfl
      rw [e1, e, hr]

/-- A refused request and a lock: the state is that of the history with the lock alone. -/
example : ∃ h', runRaw demoServer .empty [(demoMoment, { method := .get, path := ascii "/app/info/refs", query := ascii "service=a&service=b" }),
      (demoMoment, { method := .post, path := ascii "/org/locks", query := ascii "refspec=x", body := ascii "big.psd" })] = runServer demoServer .empty h' ∧
    (runServer demoServer .empty h').locks (ascii "refs/heads/main") ≠ none := by
  obtain ⟨h', e, -⟩ := C146_history demoServer [(demoMoment, { method := .get, path := ascii "/app/info/refs", query := ascii "service=a&service=b" }),
      (demoMoment, { method := .post, path := ascii "/org/locks", query := ascii "refspec=x", body := ascii "big.psd" })]
  exact ⟨h', e, by rw [← e]; decide +kernel⟩

/-! ## The list of locks of any branch -/

/-- **C146** (locks). For every name of a branch that is text there is a URL of printable characters whose answer is the list of all locks of the branch. -/
theorem C146_locks (P : ServerExt) (m : Moment) (s : ServerState) (pre ref : Bytes) (hu : utf8Valid ref = true) (hpre : ¬ ascii "/objects" <:+ pre) :
    ∃ q, (∀ c ∈ q, Spec.printable c) ∧
      serveRaw P m s { method := .get, path := pre ++ ascii "/locks", query := q } = (.reply (.ok (.locks ((s.locks (P.D.fold ref)).getD []) [])), s) := by
  obtain ⟨q, hq, hc⟩ := C146_writable [(ascii "refspec", ref)]
  refine ⟨q, hc, ?_⟩
  have hp : pre ++ ascii "/locks" ≠ ascii "/" := by
    intro e
    have := congrArg List.length e
    rw [List.length_append, show (ascii "/locks").length = 6 from rfl, show (ascii "/").length = 1 from rfl] at this
    omega
  have hu1 : ∀ p ∈ [(ascii "refspec", ref)], utf8Valid p.1 = true ∧ utf8Valid p.2 = true := by
    intro p h
    rw [List.mem_singleton.1 h]
    exact ⟨(by decide +kernel : utf8Valid (ascii "refspec") = true), hu⟩
  have ht : ∀ n ∈ Spec.known, Spec.times [(ascii "refspec", ref)] n ≤ 1 := by
    intro n _
    exact List.count_le_length
  rw [C146_read hq hu1 ht hp]
  have hr : route .get (pre ++ ascii "/locks") none = .listLocks := by
    refine C57_routed_partial (.listLocks pre none) (fun _ h => hpre ?_)
    have e : ascii "/objects/locks" = ascii "/objects" ++ ascii "/locks" := rfl
    rw [e] at h
    obtain ⟨t, h⟩ := h
    rw [← List.append_assoc] at h
    exact ⟨t, (List.append_cancel_right h)⟩
  unfold serve
  have e1 : (Spec.meant .get (pre ++ ascii "/locks") [] [(ascii "refspec", ref)]).method = .get := rfl
  have e2 : (Spec.meant .get (pre ++ ascii "/locks") [] [(ascii "refspec", ref)]).path = pre ++ ascii "/locks" := rfl
  have h : ∀ n, n ≠ ascii "refspec" → Spec.given [(ascii "refspec", ref)] n = none := by
    intro n hn
    unfold Spec.given
    rw [List.find?_cons_of_neg (p := fun p : Bytes × Bytes => p.1 == n) (fun e => hn (eq_of_beq e).symm)]; rfl
  have h1 : Spec.given [(ascii "refspec", ref)] (ascii "refspec") = some ref := by
    unfold Spec.given
    rw [List.find?_cons_of_pos (p := fun p : Bytes × Bytes => p.1 == ascii "refspec") (beq_self_eq_true _)]; rfl
  have e3 : (Spec.meant .get (pre ++ ascii "/locks") [] [(ascii "refspec", ref)]).service = none := h (ascii "service") (by decide)
  have e4 : (Spec.meant .get (pre ++ ascii "/locks") [] [(ascii "refspec", ref)]).query = { path := none, id := none, cursor := none, limit := none, refspec := some ref } := by
    unfold Spec.meant
    rw [h (ascii "path") (by decide), h (ascii "id") (by decide), h (ascii "cursor") (by decide), h (ascii "limit") (by decide), h1]
  rw [e1, e2, e3, hr]
  simp only [e4, C43_no_path_partial]
  rfl

/-- The list of the locks of a branch with one lock. -/
example : ∃ q, (∀ c ∈ q, Spec.printable c) ∧ ∃ ls, (serveRaw demoServer demoMoment (runServer demoServer .empty mixedRequests)
      { method := .get, path := ascii "/org/locks", query := q }).1 = .reply (.ok (.locks ls [])) ∧ ls.map Lock.path = [ascii "big.psd"] := by
  obtain ⟨q, hq, h⟩ := C146_locks demoServer demoMoment (runServer demoServer .empty mixedRequests) (ascii "/org") (ascii "refs/heads/main") (by decide +kernel) (by decide)
  exact ⟨q, hq, _, congrArg Prod.fst h, by decide +kernel⟩

end Gust

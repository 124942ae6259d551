import Verif.Lemmas.Protocol

/-! # C15 – C25, C60, C62, C63: the git wire protocol -/

namespace Gust

/-! ## C15, C16: pkt-lines -/

/-- **C15** A framed payload is read back, with its length and exactly the following bytes left. -/
theorem C15_pkt_roundtrip (p rest : Bytes) (h : p.length ≤ 65531) :
    readPktLine (addPktLine [] p ++ rest) = .ok ((p.length + 4, p), rest) := by
  rw [addPktLine_frame [] p h, List.nil_append]
  exact readPktLine_frame (.line p) rest h

/-- **C15** Framing appends exactly the packet of the protocol (four lower-case hex digits counting themselves, payload),
and any conforming reader gets the payload back. -/
theorem C15_pkt_format (s p rest : Bytes) (h : p.length ≤ 65531) :
    addPktLine s p = s ++ Spec.frame (.line p) ∧
      Spec.readPkt (Spec.frame (.line p) ++ rest) = some (.line p, rest) :=
  ⟨addPktLine_frame s p h, readPkt_frame (.line p) rest h⟩

theorem hexChar_lt (c : UInt8) : ∀ d, hexCharValue c = some d → d < 16 := fun d h => (hexChar_digit c d h).1

theorem parseDigits_hex_lt : ∀ (s : Bytes) (acc v : Nat), parseDigits hexCharValue 16 acc s = some v →
    v < (acc + 1) * 16 ^ s.length := by
  intro s
  induction s with
  | nil => intro acc v h; simp [parseDigits] at h; simp; omega
  | cons c s ih =>
    intro acc v h
    rw [parseDigits] at h
    split at h
    · cases h
    · rename_i d hd
      have h1 := ih _ _ h
      have h2 := hexChar_lt c d hd
      have h3 : (acc * 16 + d + 1) * 16 ^ s.length ≤ ((acc + 1) * 16) * 16 ^ s.length :=
        Nat.mul_le_mul_right _ (by omega)
      rw [List.length_cons, Nat.pow_succ, Nat.mul_comm (16 ^ s.length) 16, ← Nat.mul_assoc]
      omega

theorem parseHex4_lt (s : Bytes) (h : s.length ≤ 4) (v : Nat) (hv : parseHexUsize s = some v) : v < 65536 := by
  rw [parseHexUsize, parseUnsigned] at hv
  split at hv
  · cases hv
  split at hv
  · rename_i w hw
    split at hv
    · simp only [Option.some.injEq] at hv
      subst hv
      have h1 := parseDigits_hex_lt _ _ _ hw
      have h2 : (stripPlus s).length ≤ 4 := by
        cases s with
        | nil => simp [stripPlus]
        | cons c s => simp only [stripPlus]; split <;> simp at h ⊢ <;> omega
      have h3 : 16 ^ (stripPlus s).length ≤ 16 ^ 4 := Nat.pow_le_pow_right (by decide) h2
      omega
    · cases hv
  · cases hv

/-- **C15** The bound is the right one: a longer payload is never read back. -/
theorem C15_pkt_limit_sharp (p rest : Bytes) (h : 65531 < p.length) :
    readPktLine (addPktLine [] p ++ rest) ≠ .ok ((p.length + 4, p), rest) := by
  intro e
  rw [readPktLine] at e
  split at e
  · simp only [Res.ok.injEq, Prod.mk.injEq] at e; omega
  split at e
  · cases e
  split at e
  · cases e
  rename_i n hn
  have := parseHex4_lt _ (by rw [List.length_take]; omega) _ hn
  simp only at e
  split at e
  · simp only [Res.ok.injEq, Prod.mk.injEq] at e; omega
  split at e
  · cases e
  split at e
  · cases e
  simp only [Res.ok.injEq, Prod.mk.injEq] at e
  omega

example : readPktLine (addPktLine [] (ascii "want 0123\n") ++ ascii "0000") =
    .ok ((14, ascii "want 0123\n"), ascii "0000") := C15_pkt_roundtrip _ _ (by decide)

/-- What the server writes for a packet. -/
def writePkt (s : Bytes) : Spec.Pkt → Bytes
  | .flush => s ++ flushPkt
  | .line p => addPktLine s p

theorem foldl_writePkt (ps : List Spec.Pkt) (h : ∀ p ∈ ps, p.Fits) : ∀ s,
    ps.foldl writePkt s = s ++ Spec.stream ps := by
  induction ps with
  | nil => intro s; simp [Spec.stream]
  | cons p ps ih =>
    intro s
    rw [List.foldl_cons, ih (fun q hq => h q (by simp [hq])), stream_cons]
    have hp := h p (by simp)
    cases p with
    | flush => simp [writePkt, flushPkt_frame]
    | line b => simp only [writePkt]; rw [addPktLine_frame s b hp, List.append_assoc]

/-- **C16** Any sequence of packets written by the server is read back, packet by packet, by the server's reader. -/
theorem C16_stream_roundtrip (ps : List Spec.Pkt) (h : ∀ p ∈ ps, p.Fits) (rest : Bytes) :
    Spec.readSeq readPktLine ps.length (ps.foldl writePkt [] ++ rest) = .ok (ps.map Spec.Pkt.observed, rest) := by
  rw [foldl_writePkt ps h, List.nil_append]
  induction ps with
  | nil => simp [Spec.readSeq, Spec.stream]
  | cons p ps ih =>
    rw [stream_cons, List.append_assoc, List.length_cons, Spec.readSeq,
      readPktLine_frame p _ (h p (by simp)), Res.bind_ok]
    simp only
    rw [ih (fun q hq => h q (by simp [hq]))]
    rfl

/-- **C16** The same stream is split into the same packets by any conforming reader. -/
theorem C16_stream_format (ps : List Spec.Pkt) (h : ∀ p ∈ ps, p.Fits) :
    Spec.readPkts (ps.foldl writePkt []) = some ps := by
  rw [foldl_writePkt ps h, List.nil_append]; exact readPkts_stream ps h

example : Spec.readSeq readPktLine 4 (([.line (ascii "a\n"), .flush, .line [], .line (ascii "0000")] :
    List Spec.Pkt).foldl writePkt []) =
      .ok ([(6, ascii "a\n"), (0, []), (4, []), (8, ascii "0000")], []) := by
  have := C16_stream_roundtrip [.line (ascii "a\n"), .flush, .line [], .line (ascii "0000")]
    (by
      intro p hp
      simp only [List.mem_cons, List.not_mem_nil, or_false] at hp
      rcases hp with rfl | rfl | rfl | rfl <;> simp [Spec.Pkt.Fits, ascii]) []
  simpa [Spec.Pkt.observed, ascii] using this

/-! ## C17: side-band -/

/-- The packets `send_pack` sends to a side-band client. -/
def sideBandPkts (pieces : List Bytes) : List Spec.Pkt := pieces.map (fun p => .line (1 :: p)) ++ [.flush]

theorem buildSideBand_frame (caps : List Capability) (hc : .sideBand ∈ caps ∨ .sideBand64k ∈ caps) (p : Bytes)
    (h : p.length ≤ 65530) : buildSideBand caps p p.length = Spec.frame (.line (1 :: p)) := by
  rw [buildSideBand, if_pos hc, hex4_len4 _ (by omega), Spec.frame]
  simp

theorem sendPack_stream (caps : List Capability) (hc : .sideBand ∈ caps ∨ .sideBand64k ∈ caps) (pieces : List Bytes)
    (h : ∀ p ∈ pieces, p.length ≤ 65530) : sendPack caps pieces = Spec.stream (sideBandPkts pieces) := by
  rw [sendPack, sideBandPkts, stream_append]
  congr 1
  · induction pieces with
    | nil => rfl
    | cons p ps ih =>
      rw [List.flatMap_cons, buildSideBand_frame caps hc p (h p (by simp)), ih (fun q hq => h q (by simp [hq])),
        List.map_cons, stream_cons]

theorem demuxFuel_stream (pieces : List Bytes) (h : ∀ p ∈ pieces, p.length ≤ 65530) (rest : Bytes) : ∀ n,
    pieces.length < n → Spec.demuxFuel n (Spec.stream (sideBandPkts pieces) ++ rest) = some (pieces.flatten, rest) := by
  induction pieces with
  | nil =>
    intro n hn
    obtain ⟨n, rfl⟩ : ∃ m, n = m + 1 := ⟨n - 1, by simp at hn; omega⟩
    have : Spec.stream (sideBandPkts []) ++ rest = Spec.frame .flush ++ rest := by simp [sideBandPkts, Spec.stream]
    rw [this, Spec.demuxFuel, readPkt_frame .flush rest trivial]
    rfl
  | cons p ps ih =>
    intro n hn
    rw [List.length_cons] at hn
    obtain ⟨n, rfl⟩ : ∃ m, n = m + 1 := ⟨n - 1, by omega⟩
    have hfit : (Spec.Pkt.line (1 :: p)).Fits := by
      have := h p (by simp)
      show (1 :: p).length ≤ 65531
      simp only [List.length_cons]; omega
    have : Spec.stream (sideBandPkts (p :: ps)) ++ rest =
        Spec.frame (.line (1 :: p)) ++ (Spec.stream (sideBandPkts ps) ++ rest) := by
      simp [sideBandPkts, Spec.stream]
    rw [this, Spec.demuxFuel, readPkt_frame _ _ hfit]
    simp only [if_true]
    rw [ih (fun q hq => h q (by simp [hq])) n (by omega)]
    rfl

/-- **C17** However the pack is cut into pieces by reading (none longer than the 65500 byte buffer), a client that negotiated
side-band-64k (or side-band) recovers exactly the pack, nothing is left over, and every packet is within 65520 bytes. -/
theorem C17_sideband (caps : List Capability) (hc : .sideBand ∈ caps ∨ .sideBand64k ∈ caps) (pack : Bytes)
    (pieces : List Bytes) (hp : pieces.flatten = pack) (h : ∀ p ∈ pieces, p.length ≤ 65500) :
    Spec.demux (sendPack caps pieces) = some (pack, []) ∧
    ∃ pkts, Spec.readPkts (sendPack caps pieces) = some pkts ∧ ∀ p ∈ pkts, (Spec.frame p).length ≤ 65520 := by
  have h' : ∀ p ∈ pieces, p.length ≤ 65530 := fun p hp => by have := h p hp; omega
  rw [sendPack_stream caps hc pieces h']
  refine ⟨?_, sideBandPkts pieces, readPkts_stream _ ?_, ?_⟩
  · have hl := stream_length (sideBandPkts pieces)
    have := demuxFuel_stream pieces h' [] ((Spec.stream (sideBandPkts pieces)).length + 1) (by
      have : (sideBandPkts pieces).length = pieces.length + 1 := by simp [sideBandPkts]
      omega)
    rw [List.append_nil, hp] at this
    exact this
  · intro p hp
    rcases List.mem_append.1 hp with hp | hp
    · obtain ⟨q, hq, rfl⟩ := List.mem_map.1 hp
      have := h q hq
      show (1 :: q).length ≤ 65531
      simp only [List.length_cons]; omega
    · simp at hp; subst hp; trivial
  · intro p hp
    rcases List.mem_append.1 hp with hp | hp
    · obtain ⟨q, hq, rfl⟩ := List.mem_map.1 hp
      have := h q hq
      simp only [Spec.frame, List.length_append, len4_length, List.length_cons]; omega
    · simp at hp; subst hp; simp [Spec.frame]

example : Spec.demux (sendPack [.ofsDelta, .sideBand64k] [ascii "PA", ascii "CK", [0, 0, 0, 2]]) =
    some (ascii "PACK" ++ [0, 0, 0, 2], []) :=
  (C17_sideband [.ofsDelta, .sideBand64k] (by decide) (ascii "PACK" ++ [0, 0, 0, 2]) [ascii "PA", ascii "CK", [0, 0, 0, 2]] (by decide) (by decide)).1

/-! ## C62: clients that did not negotiate side-band-64k -/

/-- **C62 is false** for a client that negotiated plain `side-band`: a packet of more than 1000 bytes is sent. -/
theorem C62_small_sideband_false :
    ¬ ∀ (pieces : List Bytes), (∀ p ∈ pieces, p.length ≤ 65500) →
      ∃ pkts, Spec.readPkts (sendPack [.sideBand] pieces) = some pkts ∧ ∀ p ∈ pkts, (Spec.frame p).length ≤ 1000 := by
  intro hall
  have hlen : (List.replicate 2000 (0 : UInt8)).length = 2000 := List.length_replicate
  obtain ⟨pkts, h1, h2⟩ := hall [List.replicate 2000 0] (by
    intro p hp; simp only [List.mem_singleton] at hp; subst hp; rw [hlen]; omega)
  rw [sendPack_stream _ (.inl (by simp)) _ (by
    intro p hp; simp only [List.mem_singleton] at hp; subst hp; rw [hlen]; omega)] at h1
  rw [readPkts_stream] at h1
  · simp only [Option.some.injEq] at h1
    subst h1
    have := h2 (.line (1 :: List.replicate 2000 0)) 
      (List.mem_append_left _ (List.mem_map.2 ⟨_, List.mem_singleton.2 rfl, rfl⟩))
    simp only [Spec.frame, List.length_append, len4_length, List.length_cons, hlen] at this
    omega
  · intro p hp
    simp only [sideBandPkts, List.map_cons, List.map_nil, List.mem_append, List.mem_singleton] at hp
    rcases hp with rfl | rfl
    · show (1 :: List.replicate 2000 (0 : UInt8)).length ≤ 65531
      simp only [List.length_cons, hlen]; omega
    · trivial

/-- **C62** What a client without any side-band capability gets: the pack bytes followed by four extra characters
(`0000`). So the full claim (exactly the pack) is false, `C62_raw_false`; the pack is a prefix. -/
theorem C62_raw_partial (caps : List Capability) (h1 : Capability.sideBand ∉ caps) (h2 : Capability.sideBand64k ∉ caps)
    (pieces : List Bytes) : sendPack caps pieces = pieces.flatten ++ [48, 48, 48, 48] := by
  have : ∀ p : Bytes, buildSideBand caps p p.length = p := by intro p; simp [buildSideBand, h1, h2]
  simp only [sendPack, this]
  rw [List.flatMap_id']
  rfl

theorem C62_raw_false : ¬ ∀ pieces : List Bytes, sendPack [] pieces = pieces.flatten := by
  intro h
  have := h [ascii "PACK"]
  rw [C62_raw_partial [] (by simp) (by simp)] at this
  simp at this

/-! ## C18, C19, C20: fetch -/

/-- State at the start of a request. -/
def fetchInit : FetchState := { want := [], have_ := [], caps := [], firstLine := true }

/-- A request body: lines, then `done` and whatever follows it on its line, then anything. -/
def doneBody (ls : List Spec.ReqLine) (t rest : Bytes) : Bytes :=
  Spec.stream (ls.map Spec.ReqLine.pkt) ++ (Spec.frame (.line ([100, 111, 110, 101] ++ t)) ++ rest)

theorem fetchLoop_done (ls : List Spec.ReqLine) (h : ∀ l ∈ ls, l.Ok) (t rest : Bytes) (ht : t.length ≤ 65000)
    (s : FetchState) (fuel : Nat) :
    fetchLoop (ls.length + (fuel + 1)) s (doneBody ls t rest) = .ok (ls.foldl reqStep s, rest) := by
  rw [doneBody, fetchLoop_lines ls _ _ _ h]
  have hfit : (Spec.Pkt.line ([100, 111, 110, 101] ++ t)).Fits := by
    show ([100, 111, 110, 101] ++ t : Bytes).length ≤ 65531
    simp only [List.length_append, List.length_cons, List.length_nil]; omega
  rw [fetchLoop_step fuel _ (readPktLine_frame _ rest hfit) (fun e => by simp at e)]
  show (fetchLine _ ([100, 111, 110, 101] ++ t)).bind _ = _
  rw [fetchLine_done]
  rfl

theorem gitUploadPack_of_loop {fuel : Nat} {body : Bytes} {s : FetchState} {rest : Bytes}
    (h : fetchLoop fuel fetchInit body = .ok (s, rest)) (St : FetchStore) (ord : List Bytes → List Bytes) :
    gitUploadPack fuel St ord body = fetchAnswer St s.caps (ord s.want) (ord s.have_) := by
  unfold gitUploadPack; unfold fetchInit at h; rw [h]; rfl

/-- **C18** A well-formed request that says `done` is always answered or rejected (when storage answers), within as many
steps as there are packets. What is missing from the full claim: requests that end without `done`, which loop forever. -/
theorem C18_fetch_terminates_partial (ls : List Spec.ReqLine) (h : ∀ l ∈ ls, l.Ok) (t rest : Bytes)
    (ht : t.length ≤ 65000) (St : FetchStore) (ord : List Bytes → List Bytes) (hfull : St.fullPack.halts)
    (hinc : ∀ w v, (St.incPack w v).halts) :
    (gitUploadPack (ls.length + 1) St ord (doneBody ls t rest)).halts := by
  have hu : ∀ (x : Res Bytes), x.halts → ∀ f : Bytes → Res (Bytes × Bytes), (∀ b, (f b).halts) → (x.unwrap >>= f).halts := by
    intro x hx f hf
    cases x with
    | spin => exact absurd hx (fun h => h)
    | ok a => exact hf a
    | err e => trivial
    | panic => trivial
  rw [gitUploadPack_of_loop (fetchLoop_done ls h t rest ht fetchInit 0)]
  unfold fetchAnswer
  split
  · exact hu _ hfull _ (fun _ => trivial)
  · split
    · exact hu _ (hinc _ _) _ (fun _ => trivial)
    · trivial

/-- **C18** Exactly when it loops: for *every* body, either the request loop ends within `length + 1` steps, or it never
ends. -/
theorem C18_fetch_dichotomy (body : Bytes) (s : FetchState) :
    (fetchLoop (body.length + 1) s body).halts ∨ ∀ fuel, fetchLoop fuel s body = .spin := by
  rcases fetchLoop_dichotomy _ s body (Nat.le_refl _) with h | h
  · exact .inl (h _ (Nat.lt_succ_self _))
  · exact .inr h

/-- **C18** A well-formed request without `done` makes the server loop forever. -/
theorem C18_fetch_no_done_spins (ls : List Spec.ReqLine) (h : ∀ l ∈ ls, l.Ok) (St : FetchStore)
    (ord : List Bytes → List Bytes) (fuel : Nat) :
    gitUploadPack fuel St ord (Spec.stream (ls.map Spec.ReqLine.pkt)) = .spin := by
  have key : fetchLoop fuel fetchInit (Spec.stream (ls.map Spec.ReqLine.pkt)) = .spin := by
    have h1 := fetchLoop_lines ls 1 fetchInit [] h
    rw [List.append_nil, fetchLoop_nil] at h1
    rcases fetchLoop_dichotomy _ fetchInit (Spec.stream (ls.map Spec.ReqLine.pkt)) (Nat.le_refl _) with h2 | h2
    · exfalso
      have h3 := fetchLoop_lines ls ((Spec.stream (ls.map Spec.ReqLine.pkt)).length + 1) fetchInit [] h
      rw [List.append_nil, fetchLoop_nil] at h3
      have h4 := h2 (ls.length + ((Spec.stream (ls.map Spec.ReqLine.pkt)).length + 1)) (by omega)
      rw [h3] at h4
      exact h4
    · exact h2 fuel
  unfold gitUploadPack; unfold fetchInit at key; rw [key]; rfl

/-- Example id. -/
def exId : Bytes := ascii "0123456789abcdef0123456789abcdef01234567"

theorem exWant_ok : (Spec.ReqLine.want exId (ascii " multi_ack_detailed side-band-64k\n")).Ok := by
  refine ⟨by decide, by decide, ⟨0x20, ascii "multi_ack_detailed side-band-64k\n", by decide, by decide⟩, by decide⟩

theorem exHave_ok : (Spec.ReqLine.have_ exId (ascii "\n")).Ok := by
  refine ⟨by decide, by decide, ⟨0x0a, [], by decide, by decide⟩, by decide⟩

theorem exOther_ok : (Spec.ReqLine.other (ascii "deepen 1\n")).Ok := by
  refine ⟨by decide, by decide, by decide, by decide, by decide⟩

/-- **C18 is false**: some request bodies are never answered (a want line and a flush packet). -/
theorem C18_fetch_terminates_false :
    ¬ ∀ (body : Bytes) (St : FetchStore) (ord : List Bytes → List Bytes), ∃ fuel, (gitUploadPack fuel St ord body).halts := by
  intro hall
  obtain ⟨fuel, h⟩ := hall (Spec.stream ([.want exId (ascii " multi_ack_detailed side-band-64k\n"), .flush].map Spec.ReqLine.pkt))
    ⟨fun _ => true, .ok [], fun _ _ => .ok []⟩ id
  rw [C18_fetch_no_done_spins] at h
  · exact h
  · intro l hl
    simp only [List.mem_cons, List.not_mem_nil, or_false] at hl
    rcases hl with rfl | rfl
    · exact exWant_ok
    · trivial

/-- **C19** For any number of want, have, flush and unknown lines before `done`, the server collects exactly the ids named,
and the capabilities on the first want/have line; what follows `done` is not touched. -/
theorem C19_fetch_negotiation (ls : List Spec.ReqLine) (h : ∀ l ∈ ls, l.Ok) (t rest : Bytes) (ht : t.length ≤ 65000) :
    ∃ s, fetchLoop (ls.length + 1) fetchInit (doneBody ls t rest) = .ok (s, rest) ∧
      (∀ x, x ∈ s.want ↔ x ∈ Spec.wantIds ls) ∧ (∀ x, x ∈ s.have_ ↔ x ∈ Spec.haveIds ls) ∧
      s.caps = (match Spec.firstTail ls with
        | none => []
        | some t => parseCapabilities (t.drop 1)) := by
  refine ⟨_, fetchLoop_done ls h t rest ht fetchInit 0, ?_, ?_, ?_⟩
  · intro x; rw [foldl_want]; simp [fetchInit]
  · intro x; rw [foldl_have]; simp [fetchInit]
  · rw [foldl_caps ls fetchInit rfl]; rfl

example : ∃ s, fetchLoop 4 fetchInit (doneBody [.want exId (ascii " multi_ack_detailed side-band-64k\n"), .flush,
      .other (ascii "deepen 1\n")] (ascii "\n") []) = .ok (s, []) ∧ ∀ x, x ∈ s.want ↔ x ∈ [exId] := by
  obtain ⟨s, h1, h2, _⟩ := C19_fetch_negotiation [.want exId (ascii " multi_ack_detailed side-band-64k\n"), .flush,
      .other (ascii "deepen 1\n")] (by
    intro l hl
    simp only [List.mem_cons, List.not_mem_nil, or_false] at hl
    rcases hl with rfl | rfl | rfl
    · exact exWant_ok
    · trivial
    · exact exOther_ok) (ascii "\n") [] (by decide)
  exact ⟨s, h1, h2⟩

theorem ackLine_fits (id suf : Bytes) (h : id.length = 40) (hs : suf.length ≤ 10) : (ackLine id suf).length ≤ 65531 := by
  simp only [ackLine, List.length_append, h, ascii]
  simp
  omega

theorem ackIds_append (a b : List Spec.Pkt) : Spec.ackIds (a ++ b) = Spec.ackIds a ++ Spec.ackIds b := by
  induction a with
  | nil => rfl
  | cons p a ih =>
    cases p with
    | flush => simp [Spec.ackIds, ih]
    | line l => simp only [List.cons_append, Spec.ackIds, ih]; split <;> simp

theorem ackIds_ackLine (id suf : Bytes) (h : id.length = 40) : Spec.ackIds [.line (ackLine id suf)] = [id] := by
  have e : ackLine id suf = [65, 67, 75, 32] ++ (id ++ (ascii " " ++ suf ++ ascii "\n")) := by
    simp [ackLine, ascii]
  rw [e, Spec.ackIds, if_pos (by rfl)]
  have : (([65, 67, 75, 32] ++ (id ++ (ascii " " ++ suf ++ ascii "\n")) : Bytes).drop 4).take 40 = id := by
    show (id ++ (ascii " " ++ suf ++ ascii "\n")).take 40 = id
    rw [List.take_left' h]
  rw [this]; rfl

theorem haveAcks_ids (St : FetchStore) (hs : List Bytes) (hl : ∀ h ∈ hs, h.length = 40) :
    (∀ l ∈ haveAcks St hs, l.length ≤ 65531) ∧
    ∀ id ∈ Spec.ackIds ((haveAcks St hs).map .line), id ∈ hs ∧ St.known id = true := by
  induction hs with
  | nil => simp [haveAcks, Spec.ackIds]
  | cons h hs ih =>
    obtain ⟨i1, i2⟩ := ih (fun x hx => hl x (by simp [hx]))
    have hh := hl h (by simp)
    rw [haveAcks, List.flatMap_cons, ← haveAcks]
    split
    · rename_i hk
      constructor
      · intro l hl'
        rcases List.mem_append.1 hl' with hl' | hl'
        · simp at hl'; subst hl'; exact ackLine_fits h _ hh (by decide)
        · exact i1 l hl'
      · rw [List.map_append, ackIds_append, List.map_singleton, ackIds_ackLine h _ hh]
        intro id hid
        rcases List.mem_append.1 hid with hid | hid
        · simp at hid; subst hid; exact ⟨by simp, hk⟩
        · exact ⟨by simp [(i2 id hid).1], (i2 id hid).2⟩
    · constructor
      · simpa using i1
      · intro id hid
        simp only [List.nil_append] at hid
        exact ⟨by simp [(i2 id hid).1], (i2 id hid).2⟩

theorem wantAcks_ids (St : FetchStore) (nd : Bool) (hs : List Bytes) (hl : ∀ h ∈ hs, h.length = 40) :
    (∀ l ∈ wantAcks St nd hs, l.length ≤ 65531) ∧
    ∀ id ∈ Spec.ackIds ((wantAcks St nd hs).map .line), id ∈ hs ∧ (St.known id = true ∨ nd = true) := by
  induction hs with
  | nil => simp [wantAcks, Spec.ackIds]
  | cons h hs ih =>
    obtain ⟨i1, i2⟩ := ih (fun x hx => hl x (by simp [hx]))
    have hh := hl h (by simp)
    rw [wantAcks, List.flatMap_cons, ← wantAcks]
    constructor
    · intro l hl'
      rcases List.mem_append.1 hl' with hl' | hl'
      · rcases List.mem_append.1 hl' with hl' | hl'
        · split at hl'
          · simp at hl'; subst hl'; exact ackLine_fits h _ hh (by decide)
          · cases hl'
        · split at hl'
          · simp at hl'; subst hl'; exact ackLine_fits h _ hh (by decide)
          · cases hl'
      · exact i1 l hl'
    · rw [List.map_append, List.map_append, ackIds_append, ackIds_append]
      intro id hid
      rcases List.mem_append.1 hid with hid | hid
      · rcases List.mem_append.1 hid with hid | hid
        · split at hid
          · rename_i hk
            rw [List.map_singleton, ackIds_ackLine h _ hh] at hid
            simp at hid; subst hid; exact ⟨by simp, .inl hk⟩
          · cases hid
        · split at hid
          · rename_i hk
            rw [List.map_singleton, ackIds_ackLine h _ hh] at hid
            simp at hid; subst hid; exact ⟨by simp, .inr hk⟩
          · cases hid
      · exact ⟨by simp [(i2 id hid).1], (i2 id hid).2⟩

theorem hardCoded_line : ascii "ACK " ++ hardCodedAck ++ ascii " \n" = ackLine hardCodedAck [] := by decide

theorem reqIds_length (ls : List Spec.ReqLine) (h : ∀ l ∈ ls, l.Ok) :
    (∀ x ∈ Spec.wantIds ls, x.length = 40) ∧ (∀ x ∈ Spec.haveIds ls, x.length = 40) := by
  induction ls with
  | nil => simp [Spec.wantIds, Spec.haveIds]
  | cons l ls ih =>
    obtain ⟨i1, i2⟩ := ih (fun x hx => h x (by simp [hx]))
    have hl := h l (by simp)
    cases l with
    | want id t =>
      refine ⟨?_, i2⟩
      intro x hx
      rcases List.mem_cons.1 hx with rfl | hx
      · exact hl.1
      · exact i1 x hx
    | have_ id t =>
      refine ⟨i1, ?_⟩
      intro x hx
      rcases List.mem_cons.1 hx with rfl | hx
      · exact hl.1
      · exact i2 x hx
    | flush => exact ⟨i1, i2⟩
    | other p => exact ⟨i1, i2⟩

/-- **C20** For every well-formed request, every id acknowledged is one hard-coded id, or an id the client named that
storage has, or (only if the client asked for `no-done`) a wanted id. Missing from the full claim: the hard-coded id and
the unchecked `ready` ids, see `C20_acks_false`. Without haves nothing is acknowledged at all. -/
theorem C20_acks_partial (ls : List Spec.ReqLine) (h : ∀ l ∈ ls, l.Ok) (t rest : Bytes) (ht : t.length ≤ 65000)
    (St : FetchStore) (ord : List Bytes → List Bytes) (hord : ∀ l x, x ∈ ord l ↔ x ∈ l) (pack buf : Bytes)
    (hr : gitUploadPack (ls.length + 1) St ord (doneBody ls t rest) = .ok (pack, buf)) :
    ∃ pkts, Spec.readPkts buf = some pkts ∧
      (Spec.haveIds ls = [] → pkts = [.line (ascii "NAK\n")]) ∧
      ∀ id ∈ Spec.ackIds pkts, id = hardCodedAck ∨
        (id ∈ Spec.wantIds ls ++ Spec.haveIds ls ∧ St.known id = true) ∨
        (id ∈ Spec.wantIds ls ∧ ∃ tl, Spec.firstTail ls = some tl ∧ .noDone ∈ parseCapabilities (tl.drop 1)) := by
  obtain ⟨s, hs, hw, hh, hc⟩ := C19_fetch_negotiation ls h t rest ht
  rw [gitUploadPack_of_loop hs] at hr
  obtain ⟨lw, lh⟩ := reqIds_length ls h
  have hw' : ∀ x ∈ ord s.want, x.length = 40 := fun x hx => lw x ((hw x).1 ((hord _ x).1 hx))
  have hh' : ∀ x ∈ ord s.have_, x.length = 40 := fun x hx => lh x ((hh x).1 ((hord _ x).1 hx))
  have hack : (ackLine hardCodedAck []).length ≤ 65531 := ackLine_fits _ _ (by decide) (by decide)
  have nonil : Spec.haveIds ls = [] → ord s.have_ = [] := by
    intro e
    apply List.eq_nil_iff_forall_not_mem.2
    intro x hx
    have := (hh x).1 ((hord _ x).1 hx)
    rw [e] at this; cases this
  unfold fetchAnswer at hr
  split at hr
  · simp only [Res.bind_eq_ok, Res.pure_eq, Res.ok.injEq, Prod.mk.injEq] at hr
    obtain ⟨_, _, _, rfl⟩ := hr
    rw [addPktLine_frame _ _ (by decide)]
    have e : ([] : Bytes) ++ Spec.frame (.line (ascii "NAK\n")) = Spec.stream [.line (ascii "NAK\n")] := by
      simp [Spec.stream]
    refine ⟨[.line (ascii "NAK\n")], ?_, fun _ => rfl, ?_⟩
    · rw [e]
      apply readPkts_stream
      intro p hp
      simp only [List.mem_singleton] at hp
      subst hp
      show (ascii "NAK\n").length ≤ 65531
      decide
    · intro id hid
      have : Spec.ackIds [.line (ascii "NAK\n")] = [] := by decide
      rw [this] at hid; cases hid
  · rename_i hne
    split at hr
    · simp only [Res.bind_eq_ok, Res.pure_eq, Res.ok.injEq, Prod.mk.injEq] at hr
      obtain ⟨_, _, _, rfl⟩ := hr
      obtain ⟨a1, a2⟩ := haveAcks_ids St _ hh'
      obtain ⟨b1, b2⟩ := wantAcks_ids St (decide (Capability.noDone ∈ s.caps)) _ hw'
      rw [hardCoded_line, addPktLine_frame _ _ hack, foldl_addPktLine _ _ b1, foldl_addPktLine _ _ a1, List.nil_append]
      refine ⟨(haveAcks St (ord s.have_)).map .line ++ (wantAcks St (decide (Capability.noDone ∈ s.caps)) (ord s.want)).map .line ++
        [.line (ackLine hardCodedAck [])], ?_, fun e => absurd (nonil e) hne, ?_⟩
      · have e : Spec.stream ((haveAcks St (ord s.have_)).map .line) ++
            Spec.stream ((wantAcks St (decide (Capability.noDone ∈ s.caps)) (ord s.want)).map .line) ++
            Spec.frame (.line (ackLine hardCodedAck [])) = Spec.stream ((haveAcks St (ord s.have_)).map .line ++
              (wantAcks St (decide (Capability.noDone ∈ s.caps)) (ord s.want)).map .line ++
              [.line (ackLine hardCodedAck [])]) := by
          rw [stream_append, stream_append]; simp [Spec.stream]
        rw [e]
        apply readPkts_stream
        intro p hp
        simp only [List.mem_append, List.mem_map, List.mem_singleton] at hp
        rcases hp with (⟨l, hl, rfl⟩ | ⟨l, hl, rfl⟩) | rfl
        · exact a1 l hl
        · exact b1 l hl
        · exact hack
      · rw [ackIds_append, ackIds_append, ackIds_ackLine _ _ (by decide)]
        intro id hid
        simp only [List.mem_append, List.mem_singleton] at hid
        rcases hid with (hid | hid) | hid
        · obtain ⟨c1, c2⟩ := a2 id hid
          right; left
          exact ⟨List.mem_append.2 (.inr ((hh id).1 ((hord _ id).1 c1))), c2⟩
        · obtain ⟨c1, c2⟩ := b2 id hid
          have hwid := (hw id).1 ((hord _ id).1 c1)
          right
          rcases c2 with c2 | c2
          · left; exact ⟨List.mem_append.2 (.inl hwid), c2⟩
          · right
            refine ⟨hwid, ?_⟩
            simp only [decide_eq_true_eq] at c2
            rw [hc] at c2
            cases hf : Spec.firstTail ls with
            | none => rw [hf] at c2; cases c2
            | some tl => rw [hf] at c2; exact ⟨tl, rfl, c2⟩
        · exact .inl hid
    · simp only [Res.pure_eq, Res.ok.injEq, Prod.mk.injEq] at hr
      obtain ⟨_, rfl⟩ := hr
      rw [hardCoded_line, addPktLine_frame _ _ hack]
      refine ⟨[.line (ackLine hardCodedAck [])], ?_, fun e => absurd (nonil e) hne, ?_⟩
      · have e : ([] : Bytes) ++ Spec.frame (.line (ackLine hardCodedAck [])) =
            Spec.stream [.line (ackLine hardCodedAck [])] := by simp [Spec.stream]
        rw [e]
        apply readPkts_stream
        intro p hp
        simp only [List.mem_singleton] at hp
        subst hp
        exact hack
      · intro id hid
        rw [ackIds_ackLine _ _ (by decide)] at hid
        left; simpa using hid

theorem trim_nil : trim [] = [] := by
  have e : dropWs wsLen [] = [] := dropWs_stop _ _ rfl
  have e' : dropWs wsLenRev [] = [] := dropWs_stop _ _ rfl
  rw [trim, e, List.reverse_nil, e', List.reverse_nil]

theorem parseCapabilities_nil : parseCapabilities [] = [] := by
  have e : splitOn 0x20 [] = [[]] := rfl
  rw [parseCapabilities, e]
  simp only [List.filterMap_cons, trim_nil, List.filterMap_nil]
  decide

/-- **C20 is false**: the answer to any fetch with a `have` line acknowledges a hard-coded id the client never named and
the store does not have. -/
theorem C20_acks_false :
    ¬ ∀ (ls : List Spec.ReqLine) (St : FetchStore) (pack buf : Bytes), (∀ l ∈ ls, l.Ok) →
      gitUploadPack (ls.length + 1) St id (doneBody ls [] []) = .ok (pack, buf) →
      ∃ pkts, Spec.readPkts buf = some pkts ∧
        ∀ i ∈ Spec.ackIds pkts, i ∈ Spec.wantIds ls ++ Spec.haveIds ls ∧ St.known i = true := by
  intro hall
  have hok : ∀ l ∈ [Spec.ReqLine.have_ exId (ascii "\n")], l.Ok := by
    intro l hl; simp only [List.mem_singleton] at hl; subst hl; exact exHave_ok
  have hrun : gitUploadPack ([Spec.ReqLine.have_ exId (ascii "\n")].length + 1)
      ⟨fun _ => false, .ok [], fun _ _ => .ok []⟩ id (doneBody [.have_ exId (ascii "\n")] [] []) =
      .ok ([], addPktLine [] (ackLine hardCodedAck [])) := by
    rw [gitUploadPack_of_loop (fetchLoop_done _ hok [] [] (by decide) fetchInit 0), ← hardCoded_line]
    have hc : (List.foldl reqStep fetchInit [Spec.ReqLine.have_ exId (ascii "\n")]).caps = [] := by
      show parseCapabilities [] = []
      exact parseCapabilities_nil
    rw [hc]
    rfl
  obtain ⟨pkts, h1, h2⟩ := hall _ _ _ _ hok hrun
  rw [addPktLine_frame _ _ (by decide)] at h1
  have e : ([] : Bytes) ++ Spec.frame (.line (ackLine hardCodedAck [])) =
            Spec.stream [.line (ackLine hardCodedAck [])] := by simp [Spec.stream]
  rw [e, readPkts_stream _ (by
    intro p hp
    simp only [List.mem_singleton] at hp
    subst hp
    exact ackLine_fits _ _ (by decide) (by decide))] at h1
  simp only [Option.some.injEq] at h1
  subst h1
  have := (h2 hardCodedAck (by rw [ackIds_ackLine _ _ (by decide)]; simp)).2
  exact absurd this (by decide)

/-! ## C21: capabilities -/

namespace Spec
/-- Protocol names of the capabilities the server knows. -/
def capName : Capability → Bytes
  | .multiAck => ascii "multi_ack"
  | .multiAckDetailed => ascii "multi_ack_detailed"
  | .noDone => ascii "no-done"
  | .sideBand => ascii "side-band"
  | .sideBand64k => ascii "side-band-64k"
  | .reportStatus => ascii "report-status"
  | .reportStatusv2 => ascii "report-status-v2"
  | .ofsDelta => ascii "ofs-delta"
  | .deepenSince => ascii "deepen-since"
  | .deepenNot => ascii "deepen-not"
end Spec

theorem fromStr_iff (s : Bytes) (c : Capability) : Capability.fromStr s = some c ↔ s = Spec.capName c := by
  constructor
  · intro h
    unfold Capability.fromStr at h
    repeat' (split at h; · rename_i e; simp only [Option.some.injEq] at h; subst h; exact e)
    cases h
  · rintro rfl
    cases c <;> decide

theorem trim_capName (w : Bytes) (c : Capability) :
    trim w = Spec.capName c ↔ ∃ l r, Spec.Ws l ∧ Spec.Ws r ∧ w = l ++ Spec.capName c ++ r := by
  have key : ∀ (name : Bytes) (x y : UInt8), name.head? = some x → name.getLast? = some y → plainAscii x → plainAscii y →
      (trim w = name ↔ ∃ l r, Spec.Ws l ∧ Spec.Ws r ∧ w = l ++ name ++ r) := by
    intro name x y h1 h2 h3 h4
    refine trim_eq_iff w name x y name.dropLast h3 h4 ?_ ?_
    · cases name with
      | nil => cases h1
      | cons a t => simp at h1; subst h1; exact ⟨t, rfl⟩
    · have hne : name ≠ [] := by rintro rfl; cases h1
      rw [List.getLast?_eq_some_getLast hne] at h2
      have := List.dropLast_concat_getLast hne
      simp only [Option.some.injEq] at h2
      rw [h2] at this
      exact this.symm
  cases c
  all_goals
    exact key _ _ _ (by rfl) (by rfl) (by unfold plainAscii; decide) (by unfold plainAscii; decide)

/-- **C21** A capability is enabled by a capability list exactly when one of the space-separated words is its name, possibly
surrounded by other white space; order, repetition and unknown words do not matter. -/
theorem C21_capabilities_iff (s : Bytes) (words : List Bytes) (hs : Spec.SpaceSeparated s words) (c : Capability) :
    c ∈ parseCapabilities s ↔ ∃ w ∈ words, ∃ l r, Spec.Ws l ∧ Spec.Ws r ∧ w = l ++ Spec.capName c ++ r := by
  obtain ⟨h1, h2, h3⟩ := hs
  rw [parseCapabilities, splitOn_unique 0x20 words s h1 h2 h3, List.mem_filterMap]
  simp only [fromStr_iff, trim_capName]

/-- **C21** Every string has such words. -/
theorem C21_words_exist (s : Bytes) : Spec.SpaceSeparated s (splitOn 0x20 s) :=
  ⟨splitOn_ne_nil _ _, splitOn_notin _ _, splitOn_intercalate _ _⟩

/-- **C21** Two lists with the same set of words enable the same capabilities. -/
theorem C21_order_independent (s s' : Bytes) (ws ws' : List Bytes) (h : Spec.SpaceSeparated s ws)
    (h' : Spec.SpaceSeparated s' ws') (hw : ∀ w, w ∈ ws ↔ w ∈ ws') (c : Capability) :
    c ∈ parseCapabilities s ↔ c ∈ parseCapabilities s' := by
  rw [C21_capabilities_iff s ws h, C21_capabilities_iff s' ws' h']
  simp only [hw]

example : parseCapabilities (ascii " foo ofs-delta\n side-band-64k ofs-delta") = [.ofsDelta, .sideBand64k, .ofsDelta] := by
  have e : splitOn 0x20 (ascii " foo ofs-delta\n side-band-64k ofs-delta") =
      [[], ascii "foo", ascii "ofs-delta\n", ascii "side-band-64k", ascii "ofs-delta"] := by decide
  have t1 := trim_nil
  have t2 : trim (ascii "foo") = ascii "foo" := by
    have e1 : dropWs wsLen (ascii "foo") = ascii "foo" := dropWs_stop _ _ (by decide)
    have e2 : dropWs wsLenRev (ascii "foo").reverse = (ascii "foo").reverse := dropWs_stop _ _ (by decide)
    rw [trim, e1, e2, List.reverse_reverse]
  have t3 : trim (ascii "ofs-delta\n") = Spec.capName .ofsDelta :=
    (trim_capName _ _).2 ⟨[], [10], .nil, .cons (.tab_to_cr 10 (by decide) (by decide)) .nil, by decide⟩
  have t4 : trim (ascii "ofs-delta") = Spec.capName .ofsDelta := (trim_capName _ _).2 ⟨[], [], .nil, .nil, by decide⟩
  have t5 : trim (ascii "side-band-64k") = Spec.capName .sideBand64k :=
    (trim_capName _ _).2 ⟨[], [], .nil, .nil, by decide⟩
  rw [parseCapabilities, e]
  simp only [List.filterMap_cons, t1, t2, t3, t4, t5, List.filterMap_nil]
  decide

/-! ## C22, C23: ref commands -/

/-- **C22** Classification of a ref command by its two ids. -/
theorem C22_ref_command_type (o n name : Bytes) :
    ((RefCommand.new o n name).commandType = .create ↔ o = List.replicate 40 48) ∧
    ((RefCommand.new o n name).commandType = .delete ↔ o ≠ List.replicate 40 48 ∧ n = List.replicate 40 48) ∧
    ((RefCommand.new o n name).commandType = .update ↔ o ≠ List.replicate 40 48 ∧ n ≠ List.replicate 40 48) ∧
    (RefCommand.new o n name).oldId = o ∧ (RefCommand.new o n name).newId = n ∧
    (RefCommand.new o n name).refName = name := by
  have key : ∀ z : Bytes, ∀ t, t = (if z = o then Command.create else if z = n then .delete else .update) →
      (t = .create ↔ o = z) ∧ (t = .delete ↔ o ≠ z ∧ n = z) ∧ (t = .update ↔ o ≠ z ∧ n ≠ z) := by
    rintro z t rfl
    by_cases h1 : z = o
    · subst h1; simp
    · by_cases h2 : z = n
      · subst h2; simp [h1, Ne.symm h1]
      · simp [h1, h2, Ne.symm h1, Ne.symm h2]
  obtain ⟨k1, k2, k3⟩ := key zeroId _ rfl
  exact ⟨k1, k2, k3, rfl, rfl, rfl⟩

example : (RefCommand.new exId zeroId (ascii "refs/heads/x")).commandType = .delete :=
  ((C22_ref_command_type _ _ _).2.1).2 ⟨by decide, by decide⟩

theorem hexDigit_notWs (c : UInt8) (h : Spec.IsHexDigit c) : isAsciiWs c = false := by
  revert c; apply forall_byte; decide +kernel

theorem printable_notWs (c : UInt8) (h : 33 ≤ c.toNat ∧ c.toNat < 127) : isAsciiWs c = false := by
  revert c; apply forall_byte; decide +kernel

/-- **C23** What is recorded for the command line a git client sends: the two ids exactly, but the ref name *with the NUL
byte that ends it* on the wire. (The full claim, the name exactly as sent, is false: `C23_ref_name_false`.) -/
theorem C23_ref_name_partial (c : Spec.PushCmd) (h : c.Ok) (caps : Bytes) :
    parseRefUpdate (Spec.firstCmdLine c caps) = .ok (RefCommand.new c.old c.new (c.name ++ [0]), caps) := by
  obtain ⟨h1, h2, h3, h4, h5, h6, h7⟩ := h
  have e : Spec.firstCmdLine c caps = c.old ++ 32 :: (c.new ++ 32 :: ((c.name ++ [0]) ++ 32 :: caps)) := by
    simp [Spec.firstCmdLine]
  rw [e]
  refine parseRefUpdate_line c.old c.new (c.name ++ [0]) caps 32 (fun x hx => hexDigit_notWs x (h2 x hx))
    (fun x hx => hexDigit_notWs x (h4 x hx)) ?_ (by decide) ?_ ?_ ?_
  · intro x hx
    rcases List.mem_append.1 hx with hx | hx
    · exact printable_notWs x (h7 x hx)
    · simp at hx; subst hx; decide
  · exact utf8Valid_ascii _ (fun x hx => hexDigit_lt x (h2 x hx))
  · exact utf8Valid_ascii _ (fun x hx => hexDigit_lt x (h4 x hx))
  · apply utf8Valid_ascii
    intro x hx
    rcases List.mem_append.1 hx with hx | hx
    · have := h7 x hx; omega
    · simp at hx; subst hx; decide

/-- Example commands. -/
def exCreate : Spec.PushCmd := { old := zeroId, new := exId, name := ascii "refs/heads/master" }
def exCreate2 : Spec.PushCmd := { old := zeroId, new := exId, name := ascii "refs/heads/dev" }
def exDelete : Spec.PushCmd := { old := exId, new := zeroId, name := ascii "refs/heads/master" }

theorem exCreate_ok : exCreate.Ok := by
  refine ⟨by decide, by decide, by decide, by decide, by decide, by decide, by decide⟩
theorem exCreate2_ok : exCreate2.Ok := by
  refine ⟨by decide, by decide, by decide, by decide, by decide, by decide, by decide⟩
theorem exDelete_ok : exDelete.Ok := by
  refine ⟨by decide, by decide, by decide, by decide, by decide, by decide, by decide⟩

/-- **C23 is false**: the ref name recorded is not the one the client sent. -/
theorem C23_ref_name_false :
    ¬ ∀ (c : Spec.PushCmd) (caps : Bytes), c.Ok → ∃ cmd rest, parseRefUpdate (Spec.firstCmdLine c caps) = .ok (cmd, rest) ∧
      cmd.refName = c.name := by
  intro hall
  obtain ⟨cmd, rest, h1, h2⟩ := hall exCreate (ascii "report-status") exCreate_ok
  rw [C23_ref_name_partial _ exCreate_ok] at h1
  simp only [Res.ok.injEq, Prod.mk.injEq] at h1
  rw [← h1.1] at h2
  exact absurd h2 (by decide)

/-! ## C24, C25: pushes -/

theorem readPktLine_two (p : Spec.Pkt) (r : Bytes) (h : p.Fits) (q : Bytes) :
    readPktLine (Spec.frame p ++ r ++ q) = .ok (p.observed, r ++ q) := by
  rw [List.append_assoc]; exact readPktLine_frame p _ h

theorem firstCmdLine_fits (c : Spec.PushCmd) (h : c.Ok) (caps : Bytes) (hc : caps.length ≤ 4000) :
    (Spec.Pkt.line (Spec.firstCmdLine c caps)).Fits := by
  obtain ⟨h1, h2, h3, h4, h5, h6, h7⟩ := h
  show (Spec.firstCmdLine c caps).length ≤ 65531
  simp only [Spec.firstCmdLine, List.length_append, List.length_cons]
  omega

/-- First call on a body that starts with a command packet. -/
theorem receiveCommand_first {σ : Type} (st : PushState σ) (c : Spec.PushCmd) (h : c.Ok) (caps : Bytes)
    (hc : caps.length ≤ 4000) (hu : ∀ x ∈ caps, x.toNat < 128) (a b : Bytes) (ha : a.length = 4) :
    receiveCommand st (Spec.frame (.line (Spec.firstCmdLine c caps)) ++ (a ++ b)) =
      .ok (b, { st with caps := st.caps ++ parseCapabilities caps,
                        commands := st.commands ++ [RefCommand.new c.old c.new (c.name ++ [0])] }) := by
  have e : readPktLine (Spec.frame (.line (Spec.firstCmdLine c caps)) ++ (a ++ b)) =
      .ok (((Spec.firstCmdLine c caps).length + 4, Spec.firstCmdLine c caps), a ++ b) :=
    readPktLine_frame _ _ (firstCmdLine_fits c h caps hc)
  rw [receiveCommand, e, Res.bind_ok]
  simp only
  rw [if_neg (by simp), C23_ref_name_partial c h caps, Res.bind_ok]
  simp only
  rw [if_pos (utf8Valid_ascii _ hu), sliceFrom_append a b 4 ha.symm]
  rfl

theorem frame_not_pack (p : Spec.Pkt) (rest : Bytes) : (ascii "PACK").isPrefixOf (Spec.frame p ++ rest) = false := by
  have hd : ∀ d < 16, Spec.hexDigit d ≠ 80 := by decide
  cases p with
  | flush => rfl
  | line b =>
    have hx := hd ((b.length + 4) / 4096 % 16) (Nat.mod_lt _ (by decide))
    have e : ascii "PACK" = [80, 65, 67, 75] := by decide
    simp only [Spec.frame, Spec.len4, List.cons_append, e, List.isPrefixOf]
    simp [Ne.symm hx]

/-- **C25** A push of one ref command, a flush packet and a pack: the command recorded has exactly the two ids sent, and
exactly the pack bytes are handed to unpacking. When unpacking, storing and the ref update succeed, the database is the
result of exactly these steps and the report is the one for this command. -/
theorem C25_single_push {σ P : Type} (E : PushEnv σ P) (path : Bytes) (db db1 db2 : σ) (c : Spec.PushCmd) (h : c.Ok)
    (caps : Bytes) (hc : caps.length ≤ 4000) (hu : ∀ x ∈ caps, x.toNat < 128) (pack : Bytes)
    (hp : (ascii "PACK").isPrefixOf pack = true) (P0 : P) (h1 : E.unpack db pack = .ok P0)
    (h2 : E.savePack P0 path db = (.ok (), db1))
    (h3 : ∀ cmd : RefCommand, cmd = RefCommand.new c.old c.new (c.name ++ [0]) → E.handleRefs cmd path db1 = (.ok (), db2)) :
    ∃ st', httpReceivePack E { caps := [], commands := [], path := path, db := db } (Spec.pushBody c [] caps pack) =
        .ok (pushReport (parseCapabilities caps) st'.commands, st') ∧
      st'.db = db2 ∧ st'.commands = [RefCommand.new c.old c.new (c.name ++ [0])] ∧
      (∀ cmd ∈ st'.commands, cmd.oldId = c.old ∧ cmd.newId = c.new) := by
  have e : Spec.pushBody c [] caps pack = Spec.frame (.line (Spec.firstCmdLine c caps)) ++ (Spec.frame .flush ++ pack) := by
    simp [Spec.pushBody, Spec.stream]
  refine ⟨{ caps := parseCapabilities caps, commands := [RefCommand.new c.old c.new (c.name ++ [0])], path := path, db := db2 },
    ?_, rfl, rfl, by simp [RefCommand.new]⟩
  have hcmd : ({ RefCommand.new c.old c.new (c.name ++ [0]) with ok := true } : RefCommand) =
      RefCommand.new c.old c.new (c.name ++ [0]) := rfl
  rw [httpReceivePack, e, gitReceivePack, frame_not_pack]
  simp only [Bool.false_eq_true, if_false]
  rw [receiveCommand_first _ c h caps hc hu (Spec.frame .flush) pack rfl]
  simp only [Res.unwrap_ok, Res.bind_ok]
  rw [gitReceivePack, if_pos hp, receiveData]
  simp only [List.nil_append, List.getLast?_singleton, h1, h2, hcmd, h3 _ rfl, List.dropLast_singleton, Res.unwrap_ok]

/-- **C25** If the pack is rejected, or storing it panics, no ref is touched and no report is sent: the request fails. -/
theorem C25_bad_pack_fails {σ P : Type} (E : PushEnv σ P) (path : Bytes) (db : σ) (c : Spec.PushCmd) (h : c.Ok)
    (caps : Bytes) (hc : caps.length ≤ 4000) (hu : ∀ x ∈ caps, x.toNat < 128) (pack : Bytes)
    (hp : (ascii "PACK").isPrefixOf pack = true) (e : GitErr) (h1 : E.unpack db pack = .err e) :
    httpReceivePack E { caps := [], commands := [], path := path, db := db } (Spec.pushBody c [] caps pack) = .panic := by
  have e : Spec.pushBody c [] caps pack = Spec.frame (.line (Spec.firstCmdLine c caps)) ++ (Spec.frame .flush ++ pack) := by
    simp [Spec.pushBody, Spec.stream]
  rw [httpReceivePack, e, gitReceivePack, frame_not_pack]
  simp only [Bool.false_eq_true, if_false]
  rw [receiveCommand_first _ c h caps hc hu (Spec.frame .flush) pack rfl]
  simp only [Res.unwrap_ok, Res.bind_ok]
  rw [gitReceivePack, if_pos hp, receiveData]
  simp [h1]

/-- A storage that accepts everything and records the ref commands it was asked to execute. -/
def recordingEnv : PushEnv (List RefCommand) Bytes where
  unpack := fun _ b => .ok b
  savePack := fun _ _ db => (.ok (), db)
  handleRefs := fun c _ db => (.ok (), db ++ [c])

/-- A fresh connection to that storage. -/
def recordingState : PushState (List RefCommand) := { caps := [], commands := [], path := ascii "/r", db := [] }

example : ∃ st', httpReceivePack recordingEnv recordingState (Spec.pushBody exCreate [] (ascii "report-status") (ascii "PACK...")) =
      .ok (pushReport (parseCapabilities (ascii "report-status")) st'.commands, st') ∧
    st'.db = [RefCommand.new zeroId exId (ascii "refs/heads/master" ++ [0])] := by
  obtain ⟨st', h1, h2, _⟩ := C25_single_push recordingEnv (ascii "/r") [] []
    [RefCommand.new zeroId exId (ascii "refs/heads/master" ++ [0])] exCreate exCreate_ok
    (ascii "report-status") (by decide) (by decide) (ascii "PACK...") (by decide) (ascii "PACK...") rfl rfl
    (by rintro _ rfl; rfl)
  exact ⟨st', h1, h2⟩

/-- **C24** A push with one command and a pack executes that command (see `C25_single_push` for the details); this is the
part of C24 that holds. -/
theorem C24_single_command_partial (c : Spec.PushCmd) (h : c.Ok) (caps : Bytes) (hc : caps.length ≤ 4000)
    (hu : ∀ x ∈ caps, x.toNat < 128) (pack : Bytes) (hp : (ascii "PACK").isPrefixOf pack = true) :
    ∃ resp st', httpReceivePack recordingEnv recordingState (Spec.pushBody c [] caps pack) = .ok (resp, st') ∧
      st'.db.map (fun r => (r.oldId, r.newId)) = [(c.old, c.new)] := by
  obtain ⟨st', h1, h2, _⟩ := C25_single_push recordingEnv (ascii "/r") [] []
    [RefCommand.new c.old c.new (c.name ++ [0])] c h caps hc hu pack hp pack rfl rfl (by rintro _ rfl; rfl)
  exact ⟨_, st', h1, by rw [h2]; rfl⟩

/-- **C24 fails** for every push whose second command creates a ref: whatever the storage, nothing is executed, and the
client gets back the tail of its own request instead of a report. -/
theorem C24_two_commands_lost {σ P : Type} (E : PushEnv σ P) (st : PushState σ) (c c2 : Spec.PushCmd) (h : c.Ok)
    (caps : Bytes) (hc : caps.length ≤ 4000) (hu : ∀ x ∈ caps, x.toNat < 128) (h2 : c2.old = List.replicate 40 48)
    (cs : List Spec.PushCmd) (pack : Bytes) :
    ∃ resp st', httpReceivePack E st (Spec.pushBody c (c2 :: cs) caps pack) = .ok (resp, st') ∧ st'.db = st.db := by
  obtain ⟨o2, n2, m2⟩ := c2
  simp only at h2
  subst h2
  let tail : Bytes := List.replicate 36 48 ++ 0x20 :: (n2 ++ 0x20 :: m2) ++
    (Spec.stream (cs.map (fun c => .line (Spec.cmdLine c))) ++ (Spec.frame .flush ++ pack))
  have e4 : (List.replicate 40 48 : Bytes) = [48, 48, 48, 48] ++ List.replicate 36 48 := by decide
  have e : Spec.pushBody c (⟨List.replicate 40 48, n2, m2⟩ :: cs) caps pack =
      Spec.frame (.line (Spec.firstCmdLine c caps)) ++ (Spec.len4 ((Spec.cmdLine ⟨List.replicate 40 48, n2, m2⟩).length + 4) ++
        ([48, 48, 48, 48] ++ tail)) := by
    simp only [Spec.pushBody, List.map_cons, stream_cons]
    simp only [Spec.frame, Spec.cmdLine, e4, tail, List.append_assoc, List.cons_append, List.nil_append]
  refine ⟨tail, { st with caps := st.caps ++ parseCapabilities caps,
                                 commands := st.commands ++ [RefCommand.new c.old c.new (c.name ++ [0])] }, ?_, ?_⟩
  · rw [httpReceivePack, e, gitReceivePack, frame_not_pack]
    simp only [Bool.false_eq_true, if_false]
    rw [receiveCommand_first _ c h caps hc hu _ _ (len4_length _)]
    simp only [Res.unwrap_ok, Res.bind_ok]
    have np : (ascii "PACK").isPrefixOf ([48, 48, 48, 48] ++ tail) = false := rfl
    rw [gitReceivePack, np]
    simp only [Bool.false_eq_true, if_false]
    rw [receiveCommand, readPktLine_flush, Res.bind_ok]
    simp only [and_self, if_true, Res.pure_eq, Res.unwrap_ok]
  · rfl

/-- **C24 fails** for a push that only deletes a ref: nothing is executed and the answer is empty. -/
theorem C24_delete_lost {σ P : Type} (E : PushEnv σ P) (st : PushState σ) (c : Spec.PushCmd) (h : c.Ok)
    (caps : Bytes) (hc : caps.length ≤ 4000) (hu : ∀ x ∈ caps, x.toNat < 128) :
    ∃ st', httpReceivePack E st (Spec.pushBody c [] caps []) = .ok ([], st') ∧ st'.db = st.db := by
  have e : Spec.pushBody c [] caps [] = Spec.frame (.line (Spec.firstCmdLine c caps)) ++ (Spec.frame .flush ++ []) := by
    simp [Spec.pushBody, Spec.stream]
  refine ⟨{ st with caps := st.caps ++ parseCapabilities caps,
                                 commands := st.commands ++ [RefCommand.new c.old c.new (c.name ++ [0])] }, ?_, ?_⟩
  · rw [httpReceivePack, e, gitReceivePack, frame_not_pack]
    simp only [Bool.false_eq_true, if_false]
    rw [receiveCommand_first _ c h caps hc hu (Spec.frame .flush) [] rfl]
    simp only [Res.unwrap_ok, Res.bind_ok]
    have np : (ascii "PACK").isPrefixOf ([] : Bytes) = false := rfl
    rw [gitReceivePack, np]
    simp only [Bool.false_eq_true, if_false]
    rw [receiveCommand, readPktLine]
    simp only [if_true, Res.bind_ok, and_self, Res.pure_eq, Res.unwrap_ok]
  · rfl

/-- **C24 is false**: even with a storage that never fails, a push of two creations does not execute them. -/
theorem C24_all_commands_false :
    ¬ ∀ (c : Spec.PushCmd) (cs : List Spec.PushCmd) (caps pack : Bytes), c.Ok → (∀ x ∈ cs, x.Ok) →
      (ascii "PACK").isPrefixOf pack = true → caps.length ≤ 4000 → (∀ x ∈ caps, x.toNat < 128) →
      ∃ resp st', httpReceivePack recordingEnv recordingState (Spec.pushBody c cs caps pack) = .ok (resp, st') ∧
        st'.db.map (fun r => (r.oldId, r.newId)) = (c :: cs).map (fun c => (c.old, c.new)) := by
  intro hall
  obtain ⟨resp, st', h1, h2⟩ := hall exCreate [exCreate2] [] (ascii "PACK") exCreate_ok (by
    intro x hx; simp only [List.mem_singleton] at hx; subst hx; exact exCreate2_ok) (by decide) (by decide) (by decide)
  obtain ⟨resp', st'', h3, h4⟩ := C24_two_commands_lost recordingEnv recordingState exCreate exCreate2 exCreate_ok []
    (by decide) (by decide) rfl [] (ascii "PACK")
  rw [h3] at h1
  simp only [Res.ok.injEq, Prod.mk.injEq] at h1
  rw [← h1.2, h4] at h2
  simp [recordingState] at h2

/-! ## C63: SSH messages -/

/-- A well-formed request cut just before its `done` line. -/
theorem split_before_done (ls : List Spec.ReqLine) (hok : ∀ l ∈ ls, l.Ok) (t : Bytes) (ht : t.length ≤ 65000)
    (St : FetchStore) (ord : List Bytes → List Bytes) (hfull : St.fullPack.halts) (hinc : ∀ w v, (St.incPack w v).halts) :
    (∃ fuel, (gitUploadPack fuel St ord (Spec.stream (ls.map Spec.ReqLine.pkt) ++
        (Spec.frame (.line ([100, 111, 110, 101] ++ t)) ++ []))).halts) ∧
      ¬ ∃ fuel, (gitUploadPack fuel St ord (Spec.stream (ls.map Spec.ReqLine.pkt))).halts := by
  refine ⟨⟨ls.length + 1, C18_fetch_terminates_partial ls hok t [] ht St ord hfull hinc⟩, ?_⟩
  rintro ⟨fuel, h⟩
  rw [C18_fetch_no_done_spins ls hok] at h
  exact h

/-- **C63 is false**: over SSH the server handles each data message on its own. A fetch request delivered in two messages
(the first without `done`) makes it loop forever on the first one, although the same request in one message is
answered. -/
theorem C63_ssh_fetch_split_false :
    ¬ ∀ (a b : Bytes) (St : FetchStore) (ord : List Bytes → List Bytes),
      (∃ fuel, (gitUploadPack fuel St ord (a ++ b)).halts) → ∃ fuel, (gitUploadPack fuel St ord a).halts := by
  intro hall
  obtain ⟨h1, h2⟩ := split_before_done [.want exId (ascii " multi_ack_detailed side-band-64k\n")] (by
    intro l hl; simp only [List.mem_singleton] at hl; subst hl; exact exWant_ok) [10] (by decide)
    ⟨fun _ => true, .ok [], fun _ _ => .ok []⟩ id trivial (fun _ _ => trivial)
  exact h2 (hall _ _ _ _ h1)

/-- **C63** For a push, a message that is a whole command section or a whole pack is handled exactly as the corresponding half
of an HTTP request: if the division into messages is this one, both transports leave the same state and send the same
report. -/
theorem C63_ssh_push_partial {σ P : Type} (E : PushEnv σ P) (st : PushState σ) (c : Spec.PushCmd) (h : c.Ok)
    (caps : Bytes) (hc : caps.length ≤ 4000) (hu : ∀ x ∈ caps, x.toNat < 128) (pack : Bytes) :
    (sshReceivePack E st (Spec.pushBody c [] caps []) >>= fun r => sshReceivePack E r.2 pack) =
      httpReceivePack E st (Spec.pushBody c [] caps pack) := by
  have e : ∀ pack, Spec.pushBody c [] caps pack =
      Spec.frame (.line (Spec.firstCmdLine c caps)) ++ (Spec.frame .flush ++ pack) := by
    intro pack; simp [Spec.pushBody, Spec.stream]
  rw [httpReceivePack, sshReceivePack, e, e pack, gitReceivePack, gitReceivePack, frame_not_pack, frame_not_pack]
  simp only [Bool.false_eq_true, if_false]
  rw [receiveCommand_first _ c h caps hc hu (Spec.frame .flush) [] rfl,
    receiveCommand_first _ c h caps hc hu (Spec.frame .flush) pack rfl]
  simp only [Res.unwrap_ok, Res.bind_ok, sshReceivePack]

/-- **C63 is false** for pushes too: a pack cut into two messages is handed to unpacking truncated, and the second part is
taken for a command line. -/
theorem C63_ssh_push_split_false :
    ¬ ∀ (st : PushState (List RefCommand)) (a b : Bytes) (r : Bytes × PushState (List RefCommand)),
      sshReceivePack recordingEnv st (a ++ b) = .ok r →
      ∃ r', (sshReceivePack recordingEnv st a >>= fun q => sshReceivePack recordingEnv q.2 b) = .ok r' := by
  intro hall
  let st : PushState (List RefCommand) :=
    { caps := [], commands := [RefCommand.new zeroId exId (ascii "r")], path := [], db := [] }
  have h1 : ∃ r, sshReceivePack recordingEnv st (ascii "PACK" ++ ascii "xy") = .ok r := by
    have np : (ascii "PACK").isPrefixOf (ascii "PACK" ++ ascii "xy") = true := by decide
    rw [sshReceivePack, gitReceivePack, if_pos np, receiveData]
    simp only [st, recordingEnv, List.getLast?_singleton, Res.unwrap_ok]
    exact ⟨_, rfl⟩
  obtain ⟨r, h1⟩ := h1
  obtain ⟨r', h2⟩ := hall st (ascii "PACK") (ascii "xy") r h1
  rw [Res.bind_eq_ok] at h2
  obtain ⟨q, _, h3⟩ := h2
  have : sshReceivePack recordingEnv q.2 (ascii "xy") = .panic := by
    have np : (ascii "PACK").isPrefixOf (ascii "xy") = false := by decide
    have hr : readPktLine (ascii "xy") = .panic := by
      rw [readPktLine, if_neg (by decide), if_pos (by decide)]
    rw [sshReceivePack, gitReceivePack, np]
    simp only [Bool.false_eq_true, if_false]
    rw [receiveCommand, hr]
    rfl
  rw [this] at h3
  cases h3

/-! ## C60: ref advertisement -/

theorem cut_append (b : UInt8) (a r : Bytes) (h : b ∉ a) : Spec.cut b (a ++ b :: r) = some (a, r) := by
  induction a with
  | nil => simp [Spec.cut]
  | cons c a ih =>
    simp only [List.mem_cons, not_or] at h
    simp [Spec.cut, Ne.symm h.1, ih h.2]

theorem parseRefLine_line (id name : Bytes) (h1 : (0x20 : UInt8) ∉ id) (h2 : (0x0a : UInt8) ∉ name) :
    Spec.parseRefLine (id ++ [0x20] ++ name ++ [0x0a]) = some (id, name) := by
  have e : id ++ [0x20] ++ name ++ [0x0a] = id ++ 0x20 :: (name ++ 0x0a :: []) := by simp
  rw [e, Spec.parseRefLine, cut_append _ _ _ h1]
  simp only
  rw [cut_append _ _ _ h2]

theorem parseFirstLine_headLine (service : ServiceType) (headId : Bytes) (h1 : (0x20 : UInt8) ∉ headId) :
    Spec.parseFirstLine (headLine service headId) =
      some (headId, (if headId = List.replicate 40 48 then ascii "capabilities^{}" else ascii "HEAD"), capList service) := by
  have e : headLine service headId = headId ++ 0x20 :: ((if headId = zeroId then ascii "capabilities^{}" else ascii "HEAD") ++
      0 :: (capList service ++ 0x0a :: [])) := by simp [headLine]
  have h0 : (0 : UInt8) ∉ (if headId = zeroId then ascii "capabilities^{}" else ascii "HEAD") := by split <;> decide
  have hn : (0x0a : UInt8) ∉ capList service := by cases service <;> decide
  rw [e, Spec.parseFirstLine, cut_append _ _ _ h1]
  simp only
  rw [cut_append _ _ _ h0]
  simp only
  rw [cut_append _ _ _ hn]
  rfl

/-- What a client finds in an advertisement (after the service announcement, if any). -/
def advertised (service : ServiceType) (headId : Bytes) (refs : List (Bytes × Bytes)) (pkts : List Spec.Pkt) : Prop :=
  ∃ (first : Bytes) (lines : List Bytes),
    pkts = .line first :: lines.map Spec.Pkt.line ++ [.flush] ∧
    Spec.parseFirstLine first = some (headId,
      (if headId = List.replicate 40 48 then ascii "capabilities^{}" else ascii "HEAD"), capList service) ∧
    lines.map Spec.parseRefLine = refs.map some

theorem infoRefs_body (service : ServiceType) (headId : Bytes) (refs : List (Bytes × Bytes)) (start : Bytes)
    (hh : headId.length = 40) (hx : ∀ x ∈ headId, Spec.IsHexDigit x)
    (hr : ∀ p ∈ refs, p.1.length = 40 ∧ (∀ x ∈ p.1, Spec.IsHexDigit x) ∧ p.2.length ≤ 65000 ∧ (0x0a : UInt8) ∉ p.2) :
    ∃ pkts, (headLine service headId :: refs.map (fun p => p.1 ++ [0x20] ++ p.2 ++ [0x0a])).foldl addPktLine start ++ flushPkt =
        start ++ Spec.stream pkts ∧ (∀ p ∈ pkts, p.Fits) ∧ advertised service headId refs pkts := by
  have hsp : ∀ l : Bytes, (∀ x ∈ l, Spec.IsHexDigit x) → (0x20 : UInt8) ∉ l := by
    intro l hl hm; exact absurd (hl _ hm) (by decide)
  have hhead : (headLine service headId).length ≤ 65531 := by
    have c1 : ∀ s, (capList s).length ≤ 200 := by intro s; cases s <;> decide +kernel
    have c2 : (if headId = zeroId then ascii "capabilities^{}" else ascii "HEAD").length ≤ 20 := by split <;> decide
    have := c1 service
    simp only [headLine, List.length_append, List.length_cons, List.length_nil, hh]
    omega
  have hlen : ∀ l ∈ headLine service headId :: refs.map (fun p => p.1 ++ [0x20] ++ p.2 ++ [0x0a]), l.length ≤ 65531 := by
    intro l hl
    rcases List.mem_cons.1 hl with rfl | hl
    · exact hhead
    · obtain ⟨p, hp, rfl⟩ := List.mem_map.1 hl
      obtain ⟨a1, _, a3, _⟩ := hr p hp
      simp only [List.length_append, List.length_cons, List.length_nil]; omega
  refine ⟨(headLine service headId :: refs.map (fun p => p.1 ++ [0x20] ++ p.2 ++ [0x0a])).map .line ++ [.flush], ?_, ?_, ?_⟩
  · rw [foldl_addPktLine _ _ hlen, stream_append, flushPkt_frame]
    simp [Spec.stream]
  · intro p hp
    rcases List.mem_append.1 hp with hp | hp
    · obtain ⟨l, hl, rfl⟩ := List.mem_map.1 hp
      exact hlen l hl
    · simp at hp; subst hp; trivial
  · refine ⟨headLine service headId, refs.map (fun p => p.1 ++ [0x20] ++ p.2 ++ [0x0a]), by simp,
      parseFirstLine_headLine service headId (hsp _ hx), ?_⟩
    rw [List.map_map]
    apply List.map_congr_left
    intro p hp
    obtain ⟨_, a2, _, a4⟩ := hr p hp
    exact parseRefLine_line p.1 p.2 (hsp _ a2) a4

/-- **C60** Over HTTP a client reads: the service announcement, a flush packet, a first line with HEAD's id and the service's
capabilities, one line per ref with its id and name in order, and a final flush packet. -/
theorem C60_advertisement_http (service : ServiceType) (headId : Bytes) (refs : List (Bytes × Bytes))
    (hh : headId.length = 40) (hx : ∀ x ∈ headId, Spec.IsHexDigit x)
    (hr : ∀ p ∈ refs, p.1.length = 40 ∧ (∀ x ∈ p.1, Spec.IsHexDigit x) ∧ p.2.length ≤ 65000 ∧ (0x0a : UInt8) ∉ p.2) :
    ∃ pkts, Spec.readPkts (gitInfoRefs .http service headId refs) =
        some (.line (ascii "# service=" ++ service.display ++ ascii "\n") :: .flush :: pkts) ∧
      advertised service headId refs pkts := by
  obtain ⟨pkts, h1, h2, h3⟩ := infoRefs_body service headId refs
    (addPktLine [] (ascii "# service=" ++ service.display ++ ascii "\n") ++ flushPkt) hh hx hr
  refine ⟨pkts, ?_, h3⟩
  have hs : (ascii "# service=" ++ service.display ++ ascii "\n").length ≤ 65531 := by cases service <;> decide
  rw [gitInfoRefs, buildSmartReply]
  simp only [if_true]
  rw [h1, addPktLine_frame _ _ hs, List.nil_append, flushPkt_frame, List.append_assoc, ← stream_cons, ← stream_cons]
  apply readPkts_stream
  intro p hp
  rcases List.mem_cons.1 hp with rfl | hp
  · exact hs
  rcases List.mem_cons.1 hp with rfl | hp
  · trivial
  · exact h2 p hp

/-- **C60** Over SSH the same without the announcement. -/
theorem C60_advertisement_ssh (service : ServiceType) (headId : Bytes) (refs : List (Bytes × Bytes))
    (hh : headId.length = 40) (hx : ∀ x ∈ headId, Spec.IsHexDigit x)
    (hr : ∀ p ∈ refs, p.1.length = 40 ∧ (∀ x ∈ p.1, Spec.IsHexDigit x) ∧ p.2.length ≤ 65000 ∧ (0x0a : UInt8) ∉ p.2) :
    ∃ pkts, Spec.readPkts (gitInfoRefs .ssh service headId refs) = some pkts ∧ advertised service headId refs pkts := by
  obtain ⟨pkts, h1, h2, h3⟩ := infoRefs_body service headId refs [] hh hx hr
  refine ⟨pkts, ?_, h3⟩
  rw [gitInfoRefs, buildSmartReply]
  simp only [reduceCtorEq, if_false]
  rw [h1, List.nil_append]
  exact readPkts_stream _ h2

example : ∃ pkts, Spec.readPkts (gitInfoRefs .http .uploadPack exId [(exId, ascii "refs/heads/master")]) =
    some (.line (ascii "# service=git-upload-pack\n") :: .flush :: pkts) ∧
    advertised .uploadPack exId [(exId, ascii "refs/heads/master")] pkts :=
  C60_advertisement_http .uploadPack exId [(exId, ascii "refs/heads/master")] (by decide) (by decide) (by decide)

end Gust

import Verif.Props.Protocol

/-! # C70: what a client reads in the report of a push -/

namespace Gust

/-- What a client reads as the lines of a report: with side-band, the packets within the data of band 1 up to a flush packet and
nothing after it; without, the packets of the answer. Only the lines before the first flush packet count. -/
def Spec.reportLines (sideBand : Bool) (out : Bytes) : Option (List Bytes) :=
  let data := if sideBand then (match Spec.demux out with | some (d, []) => some d | _ => none) else some out
  match data.bind Spec.readPkts with
  | some ps =>
    if .flush ∈ ps then
      some ((ps.takeWhile (· ≠ .flush)).filterMap (fun p => match p with | .line l => some l | .flush => none))
    else none
  | none => none

/-- The status line of a ref (gitprotocol-pack, "Report Status"): `ok <ref>` or `ng <ref> <reason>`. -/
def Spec.statusLine (name : Bytes) : Option Bytes → Bytes
  | none => [111, 107, 32] ++ name
  | some reason => [110, 103, 32] ++ name ++ [32] ++ reason

theorem getStatus_eq (c : RefCommand) : c.getStatus = Spec.statusLine c.refName (if c.ok then none else some c.errorMsg) := by
  unfold RefCommand.getStatus
  cases c.ok
  · show _ = [110, 103, 32] ++ c.refName ++ [32] ++ c.errorMsg
    rw [if_neg (by simp)]
    rfl
  · rfl

theorem pushReport_lines (caps : List Capability) (commands : List RefCommand)
    (h : ∀ c ∈ commands, c.getStatus.length ≤ 65000)
    (hl : (Spec.stream ((ascii "unpack ok\n" :: commands.map RefCommand.getStatus).map .line)).length ≤ 65520) :
    Spec.reportLines (decide (.sideBand ∈ caps ∨ .sideBand64k ∈ caps)) (pushReport caps commands) =
      some (ascii "unpack ok\n" :: commands.map RefCommand.getStatus) := by
  have hfit : ∀ l ∈ ascii "unpack ok\n" :: commands.map RefCommand.getStatus, l.length ≤ 65531 := by
    intro l hl
    rcases List.mem_cons.1 hl with rfl | hl
    · decide
    · obtain ⟨c, hc, rfl⟩ := List.mem_map.1 hl
      have := h c hc; omega
  generalize hls : ascii "unpack ok\n" :: commands.map RefCommand.getStatus = ls at *
  have hrep : ls.foldl addPktLine [] ++ flushPkt = Spec.stream (ls.map .line ++ [.flush]) := by
    rw [foldl_addPktLine ls [] hfit, flushPkt_frame, stream_append]
    simp [Spec.stream]
  have hfits : ∀ p ∈ ls.map Spec.Pkt.line ++ [.flush], p.Fits := by
    intro p hp
    rcases List.mem_append.1 hp with hp | hp
    · obtain ⟨l, hl, rfl⟩ := List.mem_map.1 hp
      exact hfit l hl
    · rw [List.mem_singleton.1 hp]; trivial
  have htake : ∀ (ls : List Bytes) (tl : List Spec.Pkt), ((ls.map Spec.Pkt.line ++ Spec.Pkt.flush :: tl).takeWhile (· ≠ .flush)).filterMap
      (fun p => match p with | .line l => some l | .flush => none) = ls := by
    intro ls tl
    induction ls with
    | nil => simp
    | cons l ls ih =>
      rw [List.map_cons, List.cons_append, List.takeWhile_cons, if_pos (by simp), List.filterMap_cons]
      simp only
      rw [ih]
  have hlen : (Spec.stream (ls.map Spec.Pkt.line ++ [.flush])).length ≤ 65530 := by
    rw [stream_append, List.length_append]
    have : (Spec.stream [Spec.Pkt.flush]).length = 4 := by decide
    omega
  unfold pushReport Spec.reportLines
  simp only [hls, hrep]
  by_cases hc : .sideBand ∈ caps ∨ .sideBand64k ∈ caps
  · have hd : Spec.demux (sendPack caps [Spec.stream (ls.map Spec.Pkt.line ++ [.flush])]) =
        some (Spec.stream (ls.map Spec.Pkt.line ++ [.flush]), []) := by
      rw [sendPack_stream caps hc _ (by simpa using hlen)]
      have := demuxFuel_stream [Spec.stream (ls.map Spec.Pkt.line ++ [.flush])] (by simpa using hlen) []
        ((Spec.stream (sideBandPkts [Spec.stream (ls.map Spec.Pkt.line ++ [.flush])])).length + 1) (by
          have := stream_length (sideBandPkts [Spec.stream (ls.map Spec.Pkt.line ++ [.flush])])
          have h2 : (sideBandPkts [Spec.stream (ls.map Spec.Pkt.line ++ [.flush])]).length = 2 := rfl
          simp only [List.length_singleton]
          omega)
      rw [List.append_nil] at this
      rw [Spec.demux, this]
      simp
    simp only [sendPack, List.flatMap_cons, List.flatMap_nil, List.append_nil] at hd
    rw [decide_eq_true hc]
    simp only [if_true, hd, Option.bind_some, readPkts_stream _ hfits]
    rw [if_pos (by simp), htake]
  · rw [decide_eq_false hc, buildSideBand, if_neg hc]
    have : Spec.stream (ls.map Spec.Pkt.line ++ [.flush]) ++ flushPkt = Spec.stream (ls.map Spec.Pkt.line ++ .flush :: [.flush]) := by
      rw [flushPkt_frame, stream_append, stream_append]
      simp [Spec.stream]
    rw [this]
    simp only [Bool.false_eq_true, if_false, Option.bind_some]
    rw [readPkts_stream _ (by
      intro p hp
      rcases List.mem_append.1 hp with hp | hp
      · exact hfits p (List.mem_append_left _ hp)
      · simp at hp; subst hp; trivial)]
    simp only
    rw [if_pos (by simp), htake]

theorem stream_two (a b : Bytes) : (Spec.stream ([a, b].map .line)).length = a.length + b.length + 8 := by
  simp [Spec.stream, Spec.frame, len4_length]; omega

theorem report_single (caps : List Capability) (cmd : RefCommand) (h : cmd.getStatus.length ≤ 65000) :
    Spec.reportLines (decide (.sideBand ∈ caps ∨ .sideBand64k ∈ caps)) (pushReport caps [cmd]) =
      some [ascii "unpack ok\n", cmd.getStatus] := by
  refine pushReport_lines caps [cmd] (by simpa using h) ?_
  rw [List.map_singleton, stream_two]
  have : (ascii "unpack ok\n").length = 10 := by decide
  omega

theorem push_answer {σ P : Type} (E : PushEnv σ P) (path : Bytes) (db : σ) (c : Spec.PushCmd) (h : c.Ok)
    (caps : Bytes) (hc : caps.length ≤ 4000) (hu : ∀ x ∈ caps, x.toNat < 128) (pack : Bytes)
    (hp : (ascii "PACK").isPrefixOf pack = true) :
    httpReceivePack E { caps := [], commands := [], path := path, db := db } (Spec.pushBody c [] caps pack) =
      (receiveData E { caps := parseCapabilities caps, commands := [RefCommand.new c.old c.new (c.name ++ [0])], path, db } pack).unwrap := by
  have e : Spec.pushBody c [] caps pack = Spec.frame (.line (Spec.firstCmdLine c caps)) ++ (Spec.frame .flush ++ pack) := by
    simp [Spec.pushBody, Spec.stream]
  rw [httpReceivePack, e, gitReceivePack, frame_not_pack]
  simp only [Bool.false_eq_true, if_false]
  rw [receiveCommand_first _ c h caps hc hu (Spec.frame .flush) pack rfl]
  simp only [Res.unwrap_ok, Res.bind_ok, List.nil_append]
  rw [gitReceivePack, if_pos hp]

/-- **C70 (partial)** Whatever the client negotiated, the report of a push of one ref is two lines: `unpack ok`, and the status line of the
ref: ok when the pack was stored and the ref handled; `db operation failed` when storing the pack returned an error, and then
the ref was not touched. (Missing from the full claim: the ref name in the report has a NUL byte appended, see
`C70_report_name_false`; a pack that cannot be unpacked, or a ref that cannot be handled, gives no report at all, see `C25_bad_pack_fails`.) -/
theorem C70_report_partial {σ P : Type} (E : PushEnv σ P) (path : Bytes) (db db1 : σ) (c : Spec.PushCmd) (h : c.Ok)
    (caps : Bytes) (hc : caps.length ≤ 4000) (hu : ∀ x ∈ caps, x.toNat < 128) (pack : Bytes)
    (hp : (ascii "PACK").isPrefixOf pack = true) (P0 : P) (h1 : E.unpack db pack = .ok P0) :
    (∀ db2, E.savePack P0 path db = (.ok (), db1) →
      E.handleRefs (RefCommand.new c.old c.new (c.name ++ [0])) path db1 = (.ok (), db2) →
      ∃ out st', httpReceivePack E { caps := [], commands := [], path := path, db := db } (Spec.pushBody c [] caps pack) = .ok (out, st') ∧
        st'.db = db2 ∧
        Spec.reportLines (decide (.sideBand ∈ parseCapabilities caps ∨ .sideBand64k ∈ parseCapabilities caps)) out =
          some [ascii "unpack ok\n", Spec.statusLine (c.name ++ [0]) none]) ∧
    (∀ err, E.savePack P0 path db = (.err err, db1) →
      ∃ out st', httpReceivePack E { caps := [], commands := [], path := path, db := db } (Spec.pushBody c [] caps pack) = .ok (out, st') ∧
        st'.db = db1 ∧
        Spec.reportLines (decide (.sideBand ∈ parseCapabilities caps ∨ .sideBand64k ∈ parseCapabilities caps)) out =
          some [ascii "unpack ok\n", Spec.statusLine (c.name ++ [0]) (some (ascii "db operation failed"))]) := by
  rw [push_answer E path db c h caps hc hu pack hp]
  have hn : c.name.length ≤ 60000 := h.2.2.2.2.2.1
  have hcmd : ({ RefCommand.new c.old c.new (c.name ++ [0]) with ok := true } : RefCommand) =
      RefCommand.new c.old c.new (c.name ++ [0]) := rfl
  constructor
  · intro db2 h2 h3
    unfold receiveData
    simp only [List.getLast?_singleton, h1, h2, hcmd, h3, List.dropLast_singleton, List.nil_append, Res.unwrap_ok]
    refine ⟨_, _, rfl, rfl, ?_⟩
    rw [report_single _ _ ?_, getStatus_eq]
    · rfl
    · rw [getStatus_eq]
      show (Spec.statusLine (c.name ++ [0]) none).length ≤ 65000
      simp [Spec.statusLine]; omega
  · intro err h2
    unfold receiveData
    simp only [List.getLast?_singleton, h1, h2, List.dropLast_singleton, List.nil_append, Res.unwrap_ok]
    refine ⟨_, _, rfl, rfl, ?_⟩
    rw [report_single _ _ ?_, getStatus_eq]
    · rfl
    · rw [getStatus_eq]
      show (Spec.statusLine (c.name ++ [0]) (some (ascii "db operation failed"))).length ≤ 65000
      have : (ascii "db operation failed").length = 19 := by decide
      simp [Spec.statusLine, this]; omega

/-- **C70 is false** as far as the name is concerned: no successful push of one ref is reported as `ok <ref>`. -/
theorem C70_report_name_false {σ P : Type} (E : PushEnv σ P) (path : Bytes) (db db1 db2 : σ) (c : Spec.PushCmd) (h : c.Ok)
    (caps : Bytes) (hc : caps.length ≤ 4000) (hu : ∀ x ∈ caps, x.toNat < 128) (pack : Bytes)
    (hp : (ascii "PACK").isPrefixOf pack = true) (P0 : P) (h1 : E.unpack db pack = .ok P0) (h2 : E.savePack P0 path db = (.ok (), db1))
    (h3 : E.handleRefs (RefCommand.new c.old c.new (c.name ++ [0])) path db1 = (.ok (), db2)) :
    ∃ out st', httpReceivePack E { caps := [], commands := [], path := path, db := db } (Spec.pushBody c [] caps pack) = .ok (out, st') ∧
      Spec.reportLines (decide (.sideBand ∈ parseCapabilities caps ∨ .sideBand64k ∈ parseCapabilities caps)) out ≠
        some [ascii "unpack ok\n", Spec.statusLine c.name none] := by
  obtain ⟨out, st', ho, -, hr⟩ := (C70_report_partial E path db db1 c h caps hc hu pack hp P0 h1).1 db2 h2 h3
  refine ⟨out, st', ho, ?_⟩
  rw [hr]
  intro e
  simp [Spec.statusLine] at e

/-- A push with side-band-64k: the client reads two lines. -/
example : ∃ out st', httpReceivePack recordingEnv recordingState
    (Spec.pushBody exCreate [] (ascii "report-status side-band-64k") (ascii "PACK...")) = .ok (out, st') ∧
    Spec.reportLines true out = some [ascii "unpack ok\n", ascii "ok refs/heads/master" ++ [0]] := by
  obtain ⟨out, st', ho, -, hr⟩ := (C70_report_partial recordingEnv (ascii "/r") [] [] exCreate exCreate_ok
    (ascii "report-status side-band-64k") (by decide) (by decide) (ascii "PACK...") (by decide) _ rfl).1 _ rfl rfl
  refine ⟨out, st', ho, ?_⟩
  have : decide (Capability.sideBand ∈ parseCapabilities (ascii "report-status side-band-64k") ∨
    .sideBand64k ∈ parseCapabilities (ascii "report-status side-band-64k")) = true := by decide +kernel
  rw [this] at hr
  rw [hr]
  decide

end Gust

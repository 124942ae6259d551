import Verif.Model.Hash

/-! # `/repo/src/git/protocol/pack.rs`, `mod.rs`, `http.rs`, `ssh.rs` -/

namespace Gust

/-! ## pkt-lines -/

/-- `PKT_LINE_END_MARKER`, pack.rs 31. -/
def flushPkt : Bytes := ascii "0000"

/-- `add_pkt_line_string`, pack.rs 383-387. -/
def addPktLine (stream buf : Bytes) : Bytes := stream ++ hex4 (buf.length + 4) ++ buf

/-- `read_pkt_line`, pack.rs 390-405: the length field, the payload, and the bytes left.
`copy_to_bytes(n)` panics when fewer than `n` bytes are left; a non-hexadecimal length panics (invalid UTF-8 in it
included); `pkt_length - 4` underflows for lengths 1 to 3. -/
def readPktLine (bytes : Bytes) : Res ((Nat × Bytes) × Bytes) :=
  if bytes = [] then .ok ((0, []), bytes)
  else if bytes.length < 4 then .panic
  else
    match parseHexUsize (bytes.take 4) with
    | none => .panic
    | some n =>
      let rest := bytes.drop 4
      if n = 0 then .ok ((0, []), rest)
      else if n < 4 then .panic
      else if rest.length < n - 4 then .panic
      else .ok ((n, rest.take (n - 4)), rest.drop (n - 4))

/-! ## Capabilities -/

/-- `Capability`, mod.rs 68-80. -/
inductive Capability
  | multiAck
  | multiAckDetailed
  | noDone
  | sideBand
  | sideBand64k
  | reportStatus
  | reportStatusv2
  | ofsDelta
  | deepenSince
  | deepenNot
  deriving DecidableEq, Repr

/-- `FromStr for Capability`, mod.rs 82-100. -/
def Capability.fromStr (s : Bytes) : Option Capability :=
  if s = ascii "report-status" then some .reportStatus
  else if s = ascii "report-status-v2" then some .reportStatusv2
  else if s = ascii "side-band" then some .sideBand
  else if s = ascii "side-band-64k" then some .sideBand64k
  else if s = ascii "ofs-delta" then some .ofsDelta
  else if s = ascii "multi_ack" then some .multiAck
  else if s = ascii "multi_ack_detailed" then some .multiAckDetailed
  else if s = ascii "no-done" then some .noDone
  else if s = ascii "deepen-since" then some .deepenSince
  else if s = ascii "deepen-not" then some .deepenNot
  else none

/-- Number of bytes of the white-space character at the front of a UTF-8 string (0 if there is none):
the `White_Space` property used by `char::is_whitespace`, as byte sequences. -/
def wsLen : Bytes → Nat
  | [] => 0
  | a :: s =>
    if (9 ≤ a ∧ a ≤ 13) ∨ a = 32 then 1
    else
      match s with
      | b :: s' =>
        if a = 0xC2 ∧ (b = 0x85 ∨ b = 0xA0) then 2
        else
          match s' with
          | c :: _ =>
            if (a = 0xE1 ∧ b = 0x9A ∧ c = 0x80) ∨
               (a = 0xE2 ∧ b = 0x80 ∧ ((0x80 ≤ c ∧ c ≤ 0x8A) ∨ c = 0xA8 ∨ c = 0xA9 ∨ c = 0xAF)) ∨
               (a = 0xE2 ∧ b = 0x81 ∧ c = 0x9F) ∨ (a = 0xE3 ∧ b = 0x80 ∧ c = 0x80) then 3
            else 0
          | [] => 0
      | [] => 0

/-- Number of bytes of the white-space character at the end of a string, given reversed. -/
def wsLenRev : Bytes → Nat
  | [] => 0
  | a :: s =>
    if (9 ≤ a ∧ a ≤ 13) ∨ a = 32 then 1
    else
      match s with
      | b :: s' =>
        if b = 0xC2 ∧ (a = 0x85 ∨ a = 0xA0) then 2
        else
          match s' with
          | c :: _ =>
            if (c = 0xE1 ∧ b = 0x9A ∧ a = 0x80) ∨
               (c = 0xE2 ∧ b = 0x80 ∧ ((0x80 ≤ a ∧ a ≤ 0x8A) ∨ a = 0xA8 ∨ a = 0xA9 ∨ a = 0xAF)) ∨
               (c = 0xE2 ∧ b = 0x81 ∧ a = 0x9F) ∨ (c = 0xE3 ∧ b = 0x80 ∧ a = 0x80) then 3
            else 0
          | [] => 0
      | [] => 0

/-- Drop white-space characters from the front, `len` telling how long the first one is. -/
def dropWs (len : Bytes → Nat) (s : Bytes) : Bytes :=
  if len s = 0 ∨ s = [] then s else dropWs len (s.drop (len s))
termination_by s.length
decreasing_by
  rename_i h
  have h1 : len s ≠ 0 := fun e => h (.inl e)
  have h2 : s.length ≠ 0 := fun e => h (.inr (List.length_eq_zero_iff.1 e))
  simp only [List.length_drop]
  omega

/-- `str::trim`. -/
def trim (s : Bytes) : Bytes := (dropWs wsLenRev (dropWs wsLen s).reverse).reverse

/-- `str.split(c)` for a one-byte separator: always at least one piece. -/
def splitOn (c : UInt8) : Bytes → List Bytes
  | [] => [[]]
  | b :: s =>
    if b = c then [] :: splitOn c s
    else
      match splitOn c s with
      | w :: ws => (b :: w) :: ws
      | [] => [[b]]

/-- `PackProtocol::parse_capabilities`, pack.rs 255-263: the capabilities pushed, in order. -/
def parseCapabilities (s : Bytes) : List Capability :=
  (splitOn 0x20 s).filterMap (fun w => Capability.fromStr (trim w))

/-! ## Ref commands -/

/-- `ZERO_ID`, `/repo/src/gust/driver/mod.rs` 27-30. -/
def zeroId : Bytes := List.replicate 40 48

/-- `Command`, mod.rs 137-142. -/
inductive Command
  | create
  | delete
  | update
  deriving DecidableEq, Repr

/-- `RefCommand`, mod.rs 127-135. `status` is `ok`/`ng` in the code, a flag here. -/
structure RefCommand where
  refName : Bytes
  oldId : Bytes
  newId : Bytes
  ok : Bool
  errorMsg : Bytes
  commandType : Command
  deriving DecidableEq, Repr

/-- `RefCommand::new`, mod.rs 146-162. -/
def RefCommand.new (oldId newId refName : Bytes) : RefCommand :=
  { refName := refName, oldId := oldId, newId := newId, ok := true, errorMsg := [],
    commandType := if zeroId = oldId then .create else if zeroId = newId then .delete else .update }

/-- `RefCommand::get_status`, mod.rs 182-195. -/
def RefCommand.getStatus (c : RefCommand) : Bytes :=
  if c.ok then ascii "ok" ++ ascii " " ++ c.refName
  else ascii "ng" ++ ascii " " ++ c.refName ++ ascii " " ++ c.errorMsg

/-- `u8::is_ascii_whitespace`: space, tab, line feed, form feed, carriage return. -/
def isAsciiWs (c : UInt8) : Bool := c == 0x20 || c == 0x09 || c == 0x0A || c == 0x0C || c == 0x0D

/-- Loop of `read_until_white_space`, pack.rs 276-283: bytes before the first white space, and the bytes after it. -/
def untilWs : Bytes → Bytes × Bytes
  | [] => ([], [])
  | c :: s => if isAsciiWs c then ([], s) else ((c :: (untilWs s).1), (untilWs s).2)

/-- `read_until_white_space`, pack.rs 275-285. -/
def readUntilWhiteSpace (s : Bytes) : Res (Bytes × Bytes) :=
  if utf8Valid (untilWs s).1 then .ok (untilWs s) else .panic

/-- `PackProtocol::parse_ref_update`, pack.rs 266-272: the command and the rest of the line. -/
def parseRefUpdate (line : Bytes) : Res (RefCommand × Bytes) := do
  let (o, r) ← readUntilWhiteSpace line
  let (n, r) ← readUntilWhiteSpace r
  let (name, r) ← readUntilWhiteSpace r
  pure (RefCommand.new o n name, r)

/-! ## Ref advertisement -/

/-- `Protocol`, mod.rs 32-39. -/
inductive Protocol
  | localP
  | http
  | ssh
  | git
  deriving DecidableEq, Repr

/-- `ServiceType`, mod.rs 41-45. -/
inductive ServiceType
  | uploadPack
  | receivePack
  deriving DecidableEq, Repr

/-- `ServiceType::to_string`, mod.rs 47-54. -/
def ServiceType.display : ServiceType → Bytes
  | .uploadPack => ascii "git-upload-pack"
  | .receivePack => ascii "git-receive-pack"

/-- `FromStr for ServiceType`, mod.rs 55-65. -/
def ServiceType.fromStr (s : Bytes) : Option ServiceType :=
  if s = ascii "git-upload-pack" then some .uploadPack
  else if s = ascii "git-receive-pack" then some .receivePack
  else none

/-- `cap_list` in `git_info_refs`, pack.rs 55-59, with the constants of 35-43. -/
def capList : ServiceType → Bytes
  | .uploadPack =>
    ascii "shallow deepen-since deepen-not deepen-relative multi_ack_detailed no-done " ++
      ascii "side-band-64k ofs-delta object-format=sha1"
  | .receivePack =>
    ascii "report-status report-status-v2 delete-refs quiet atomic " ++
      ascii "side-band-64k ofs-delta object-format=sha1"

/-- `build_smart_reply`, pack.rs 241-253. -/
def buildSmartReply (protocol : Protocol) (refList : List Bytes) (service : Bytes) : Bytes :=
  let start :=
    if protocol = .http then
      addPktLine [] (ascii "# service=" ++ service ++ ascii "\n") ++ flushPkt
    else []
  refList.foldl addPktLine start ++ flushPkt

/-- First line of the advertisement, pack.rs 50-60. -/
def headLine (service : ServiceType) (headId : Bytes) : Bytes :=
  headId ++ [0x20] ++ (if headId = zeroId then ascii "capabilities^{}" else ascii "HEAD") ++ [0] ++ capList service ++
    [0x0a]

/-- `git_info_refs`, pack.rs 46-71. `headId` and `refs` are what storage returns (`get_head_object_id`,
`get_ref_object_id`, as pairs id, name in the iteration order of the map). -/
def gitInfoRefs (protocol : Protocol) (service : ServiceType) (headId : Bytes) (refs : List (Bytes × Bytes)) : Bytes :=
  buildSmartReply protocol
    (headLine service headId :: refs.map (fun p => p.1 ++ [0x20] ++ p.2 ++ [0x0a])) service.display

/-! ## Fetch -/

/-- Variables of the request loop in `git_upload_pack`, pack.rs 77-80 (and `self.capabilities`).
The two `HashSet`s are lists without duplicates. -/
structure FetchState where
  want : List Bytes
  have_ : List Bytes
  caps : List Capability
  firstLine : Bool
  deriving DecidableEq, Repr

/-- `HashSet::insert`. -/
def insertNew (x : Bytes) (l : List Bytes) : List Bytes := if x ∈ l then l else l ++ [x]

/-- The id in a want/have line: `String::from_utf8(dst[5..45].to_vec()).unwrap()`, pack.rs 93-94. -/
def lineId (dst : Bytes) : Res Bytes := do
  let id ← slice dst 5 45
  if utf8Valid id then pure id else .panic

/-- The capability part of the first line, pack.rs 104-107. -/
def firstCaps (s : FetchState) (dst : Bytes) : Res FetchState :=
  if s.firstLine then do
    let t ← sliceFrom dst 46
    if utf8Valid t then pure { s with caps := s.caps ++ parseCapabilities t, firstLine := false } else .panic
  else .ok s

/-- One non-flush line of the request loop, pack.rs 88-107; `none` means `done`. -/
def fetchLine (s : FetchState) (dst : Bytes) : Res (Option FetchState) := do
  let cmd ← slice dst 0 4
  if cmd = ascii "want" then do
    let id ← lineId dst
    let s ← firstCaps { s with want := insertNew id s.want } dst
    pure (some s)
  else if cmd = ascii "have" then do
    let id ← lineId dst
    let s ← firstCaps { s with have_ := insertNew id s.have_ } dst
    pure (some s)
  else if cmd = ascii "done" then pure none
  else pure (some s)

/-- The request loop, pack.rs 81-108, with fuel (`spin` when it runs out). -/
def fetchLoop : Nat → FetchState → Bytes → Res (FetchState × Bytes)
  | 0, _, _ => .spin
  | fuel + 1, s, bytes => do
    let ((n, line), rest) ← readPktLine bytes
    if n = 0 ∧ line = [] then fetchLoop fuel s rest
    else do
      let r ← fetchLine s line
      match r with
      | none => pure (s, rest)
      | some s' => fetchLoop fuel s' rest

/-- What storage answers during one fetch. The store is taken not to change during the request. -/
structure FetchStore where
  /-- `get_commit_by_hash(..).is_ok()` -/
  known : Bytes → Bool
  /-- `get_full_pack_data` -/
  fullPack : Res Bytes
  /-- `get_incremental_pack_data` -/
  incPack : List Bytes → List Bytes → Res Bytes

/-- The id hard-coded in the last ACK, pack.rs 161. -/
def hardCodedAck : Bytes := ascii "27dd8d4cf39f3868c6eee38b601bc9e9939304f5"

/-- `format!("ACK {} common\n", hash)` etc. -/
def ackLine (id suffix : Bytes) : Bytes := ascii "ACK " ++ id ++ ascii " " ++ suffix ++ ascii "\n"

/-- The pkt-lines sent for the haves, pack.rs 135-140. -/
def haveAcks (St : FetchStore) (haves : List Bytes) : List Bytes :=
  haves.flatMap (fun h => if St.known h then [ackLine h (ascii "common")] else [])

/-- The pkt-lines sent for the wants, pack.rs 148-157. -/
def wantAcks (St : FetchStore) (noDone : Bool) (wants : List Bytes) : List Bytes :=
  wants.flatMap (fun h =>
    (if St.known h then [ackLine h (ascii "common")] else []) ++
    (if noDone then [ackLine h (ascii "ready")] else []))

/-- The answer of `git_upload_pack`, pack.rs 117-166: pack data and the pkt-lines before it.
`wants` and `haves` are the two sets in the (arbitrary) iteration order of `HashSet`. -/
def fetchAnswer (St : FetchStore) (caps : List Capability) (wants haves : List Bytes) : Res (Bytes × Bytes) :=
  if haves = [] then do
    let pack ← St.fullPack.unwrap
    pure (pack, addPktLine [] (ascii "NAK\n"))
  else
    if .multiAckDetailed ∈ caps then do
      let buf := (haveAcks St haves).foldl addPktLine []
      let pack ← (St.incPack wants haves).unwrap
      let buf := (wantAcks St (decide (Capability.noDone ∈ caps)) wants).foldl addPktLine buf
      pure (pack, addPktLine buf (ascii "ACK " ++ hardCodedAck ++ ascii " \n"))
    else pure ([], addPktLine [] (ascii "ACK " ++ hardCodedAck ++ ascii " \n"))

/-- `git_upload_pack`, pack.rs 73-167, for a fresh `PackProtocol`. `ord` is the iteration order of a `HashSet`. -/
def gitUploadPack (fuel : Nat) (St : FetchStore) (ord : List Bytes → List Bytes) (body : Bytes) :
    Res (Bytes × Bytes) := do
  let (s, _) ← fetchLoop fuel { want := [], have_ := [], caps := [], firstLine := true } body
  fetchAnswer St s.caps (ord s.want) (ord s.have_)

/-! ## Side-band -/

/-- `build_side_band_format`, pack.rs 226-239. -/
def buildSideBand (caps : List Capability) (bytes : Bytes) (length : Nat) : Bytes :=
  if .sideBand ∈ caps ∨ .sideBand64k ∈ caps then hex4 (length + 5) ++ [1] ++ bytes else bytes

/-- `send_pack`, http.rs 35-56, and the loop of `handle_upload_pack`, ssh.rs 170-184: everything sent, given the
pieces `read_buf` returns (any cutting of the pack into non-empty pieces; with the buffer capacity reserved by the two
callers no piece is longer than 65500 bytes). -/
def sendPack (caps : List Capability) (pieces : List Bytes) : Bytes :=
  pieces.flatMap (fun p => buildSideBand caps p p.length) ++ flushPkt

/-! ## Push -/

/-- What `git_receive_pack` uses of storage and of the pack decoder. `σ` is the database, `P` a decoded pack.
Each call returns its outcome together with the state of the database afterwards. -/
structure PushEnv (σ P : Type) where
  /-- `RefCommand::unpack` → `Pack::decode` -/
  unpack : σ → Bytes → Res P
  /-- `save_packfile` -/
  savePack : P → Bytes → σ → Res Unit × σ
  /-- `handle_refs` -/
  handleRefs : RefCommand → Bytes → σ → Res Unit × σ

/-- `PackProtocol` fields used while receiving, and the database. -/
structure PushState (σ : Type) where
  caps : List Capability
  commands : List RefCommand
  path : Bytes
  db : σ

/-- Report and side-band framing, pack.rs 199-211. -/
def pushReport (caps : List Capability) (commands : List RefCommand) : Bytes :=
  let report := (ascii "unpack ok\n" :: commands.map RefCommand.getStatus).foldl addPktLine [] ++ flushPkt
  buildSideBand caps report report.length ++ flushPkt

/-- First branch of `git_receive_pack`, pack.rs 174-212. The temporary file is taken to hold exactly the body
(see `Model/TempFile.lean` for what can go wrong there). -/
def receiveData {σ P : Type} (E : PushEnv σ P) (st : PushState σ) (body : Bytes) : Res (Bytes × PushState σ) :=
  match st.commands.getLast? with
  | none => .panic
  | some cmd =>
    match E.unpack st.db body with
    | .ok pack =>
      let cmd := { cmd with ok := true }
      let commands := st.commands.dropLast ++ [cmd]
      match E.savePack pack st.path st.db with
      | (.ok (), db) =>
        match E.handleRefs cmd st.path db with
        | (.ok (), db) => .ok (pushReport st.caps commands, { st with commands := commands, db := db })
        | (.spin, _) => .spin
        | (_, _) => .panic
      | (.err _, db) =>
        let cmd := { cmd with ok := false, errorMsg := ascii "db operation failed" }
        let commands := st.commands.dropLast ++ [cmd]
        .ok (pushReport st.caps commands, { st with commands := commands, db := db })
      | (.panic, _) => .panic
      | (.spin, _) => .spin
    | .spin => .spin
    | _ => .panic

/-- Second branch of `git_receive_pack`, pack.rs 213-222: one command line; `split_off(4)` drops four more bytes. -/
def receiveCommand {σ : Type} (st : PushState σ) (body : Bytes) : Res (Bytes × PushState σ) := do
  let ((n, line), rest) ← readPktLine body
  if n = 0 ∧ line = [] then pure (rest, st)
  else do
    let (cmd, capText) ← parseRefUpdate line
    if utf8Valid capText then do
      let out ← sliceFrom rest 4
      pure (out, { st with caps := st.caps ++ parseCapabilities capText, commands := st.commands ++ [cmd] })
    else .panic

/-- `git_receive_pack`, pack.rs 169-223. -/
def gitReceivePack {σ P : Type} (E : PushEnv σ P) (st : PushState σ) (body : Bytes) : Res (Bytes × PushState σ) :=
  if (ascii "PACK").isPrefixOf body then receiveData E st body else receiveCommand st body

/-- `http::git_receive_pack`, http.rs 87-111: the whole body, then whatever the first call returned. -/
def httpReceivePack {σ P : Type} (E : PushEnv σ P) (st : PushState σ) (body : Bytes) : Res (Bytes × PushState σ) := do
  let (packData, st) ← (gitReceivePack E st body).unwrap
  (gitReceivePack E st packData).unwrap

/-- `handle_receive_pack`, ssh.rs 187-202: one SSH data message. -/
def sshReceivePack {σ P : Type} (E : PushEnv σ P) (st : PushState σ) (data : Bytes) : Res (Bytes × PushState σ) :=
  (gitReceivePack E st data).unwrap

end Gust

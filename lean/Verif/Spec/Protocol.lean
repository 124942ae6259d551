import Verif.Spec.Object

/-!
# The git wire format, independently of the model

From gitprotocol-common ("pkt-line format") and gitprotocol-pack.
-/

namespace Gust.Spec

/-- One packet. -/
inductive Pkt
  | flush
  | line (payload : Bytes)
  deriving DecidableEq, Repr

/-- Lower-case hexadecimal digit. -/
def hexDigit (d : Nat) : UInt8 :=
  ([48, 49, 50, 51, 52, 53, 54, 55, 56, 57, 97, 98, 99, 100, 101, 102] : Bytes).getD d 0

/-- Four hexadecimal digits. -/
def len4 (n : Nat) : Bytes :=
  [hexDigit (n / 4096 % 16), hexDigit (n / 256 % 16), hexDigit (n / 16 % 16), hexDigit (n % 16)]

/-- A packet on the wire. -/
def frame : Pkt → Bytes
  | .flush => [48, 48, 48, 48]
  | .line p => len4 (p.length + 4) ++ p

/-- A sequence of packets on the wire. -/
def stream (ps : List Pkt) : Bytes := ps.flatMap frame

/-- The longest payload whose length field has four digits. -/
def Pkt.Fits : Pkt → Prop
  | .flush => True
  | .line p => p.length ≤ 65531

/-- How a packet is presented by a reader that returns length field and payload. -/
def Pkt.observed : Pkt → Nat × Bytes
  | .flush => (0, [])
  | .line p => (p.length + 4, p)

/-- Read `n` packets one after the other with a given reader. -/
def readSeq (read : Bytes → Res ((Nat × Bytes) × Bytes)) : Nat → Bytes → Res (List (Nat × Bytes) × Bytes)
  | 0, s => .ok ([], s)
  | n + 1, s => do
    let (p, s) ← read s
    let (ps, s) ← readSeq read n s
    pure (p :: ps, s)

/-- Value of a hexadecimal digit (either case). -/
def hexVal (c : UInt8) : Option Nat :=
  if 48 ≤ c.toNat ∧ c.toNat < 58 then some (c.toNat - 48)
  else if 97 ≤ c.toNat ∧ c.toNat < 103 then some (c.toNat - 87)
  else if 65 ≤ c.toNat ∧ c.toNat < 71 then some (c.toNat - 55)
  else none

/-- What a git client reads: one packet from the front of a byte string. -/
def readPkt : Bytes → Option (Pkt × Bytes)
  | a :: b :: c :: d :: s =>
    match hexVal a, hexVal b, hexVal c, hexVal d with
    | some a, some b, some c, some d =>
      let n := a * 4096 + b * 256 + c * 16 + d
      if n = 0 then some (.flush, s)
      else if n < 4 ∨ s.length < n - 4 then none
      else some (.line (s.take (n - 4)), s.drop (n - 4))
    | _, _, _, _ => none
  | _ => none

/-- A client that reads packets until the input is used up (`none`: the input is not a sequence of packets). -/
def readPktsFuel : Nat → Bytes → Option (List Pkt)
  | _, [] => some []
  | 0, _ :: _ => none
  | n + 1, s =>
    match readPkt s with
    | none => none
    | some (p, rest) => (readPktsFuel n rest).map (p :: ·)

/-- All packets of a byte string. (Every packet takes at least four bytes, so the length bounds their number.) -/
def readPkts (s : Bytes) : Option (List Pkt) := readPktsFuel s.length s

/-- A side-band client: reads packets until a flush packet, appending the payloads of band 1; bands 2 and 3 are
progress and error text. Returns the data and the bytes after the flush packet. -/
def demuxFuel : Nat → Bytes → Option (Bytes × Bytes)
  | 0, _ => none
  | n + 1, s =>
    match readPkt s with
    | some (.flush, rest) => some ([], rest)
    | some (.line (band :: d), rest) =>
      if band = 1 then (demuxFuel n rest).map (fun p => (d ++ p.1, p.2))
      else if band = 2 then demuxFuel n rest
      else none
    | _ => none

/-- The side-band client on a whole response. -/
def demux (s : Bytes) : Option (Bytes × Bytes) := demuxFuel (s.length + 1) s

/-- One white-space character in UTF-8 (Unicode property White_Space). -/
inductive WsChar : Bytes → Prop
  | tab_to_cr (b : UInt8) : 9 ≤ b → b ≤ 13 → WsChar [b]
  | space : WsChar [32]
  | nel : WsChar [0xC2, 0x85]
  | nbsp : WsChar [0xC2, 0xA0]
  | ogham : WsChar [0xE1, 0x9A, 0x80]
  | u2000 (b : UInt8) : 0x80 ≤ b → b ≤ 0x8A → WsChar [0xE2, 0x80, b]
  | u2028 : WsChar [0xE2, 0x80, 0xA8]
  | u2029 : WsChar [0xE2, 0x80, 0xA9]
  | u202f : WsChar [0xE2, 0x80, 0xAF]
  | u205f : WsChar [0xE2, 0x81, 0x9F]
  | u3000 : WsChar [0xE3, 0x80, 0x80]

/-- A string of white space. -/
inductive Ws : Bytes → Prop
  | nil : Ws []
  | cons {c s : Bytes} : WsChar c → Ws s → Ws (c ++ s)

/-- `words` are the pieces of `s` between single spaces. -/
def SpaceSeparated (s : Bytes) (words : List Bytes) : Prop :=
  words ≠ [] ∧ (∀ w ∈ words, (32 : UInt8) ∉ w) ∧ [(32 : UInt8)].intercalate words = s

/-- One line of a fetch request, as a git client writes it. -/
inductive ReqLine
  /-- `want <id>` followed by ` capabilities` and/or a line feed -/
  | want (id tail : Bytes)
  | have_ (id tail : Bytes)
  | flush
  /-- any other line (shallow, deepen, filter, ...) -/
  | other (payload : Bytes)

/-- The packet of a request line. -/
def ReqLine.pkt : ReqLine → Pkt
  | .want id tail => .line ([119, 97, 110, 116, 32] ++ id ++ tail)
  | .have_ id tail => .line ([104, 97, 118, 101, 32] ++ id ++ tail)
  | .flush => .flush
  | .other p => .line p

/-- Ids of the want lines. -/
def wantIds : List ReqLine → List Bytes
  | [] => []
  | .want id _ :: ls => id :: wantIds ls
  | _ :: ls => wantIds ls

/-- Ids of the have lines. -/
def haveIds : List ReqLine → List Bytes
  | [] => []
  | .have_ id _ :: ls => id :: haveIds ls
  | _ :: ls => haveIds ls

/-- Text after the id in the first want or have line. -/
def firstTail : List ReqLine → Option Bytes
  | [] => none
  | .want _ t :: _ => some t
  | .have_ _ t :: _ => some t
  | _ :: ls => firstTail ls

/-- A request line as a git client sends it: 40 hex digits, then a space (capabilities) or line feed; other lines
have at least four bytes and start with another word. -/
def ReqLine.Ok : ReqLine → Prop
  | .want id t => id.length = 40 ∧ (∀ c ∈ id, IsHexDigit c) ∧ (∃ c u, t = c :: u ∧ ∀ x ∈ u, x.toNat < 128) ∧
      t.length ≤ 65000
  | .have_ id t => id.length = 40 ∧ (∀ c ∈ id, IsHexDigit c) ∧ (∃ c u, t = c :: u ∧ ∀ x ∈ u, x.toNat < 128) ∧
      t.length ≤ 65000
  | .flush => True
  | .other p => 4 ≤ p.length ∧ p.length ≤ 65531 ∧ p.take 4 ≠ [119, 97, 110, 116] ∧ p.take 4 ≠ [104, 97, 118, 101] ∧
      p.take 4 ≠ [100, 111, 110, 101]

/-- The ids acknowledged in a list of packets: the 40 characters after `ACK `. -/
def ackIds : List Pkt → List Bytes
  | [] => []
  | .line p :: ps => if p.take 4 = [65, 67, 75, 32] then (p.drop 4).take 40 :: ackIds ps else ackIds ps
  | .flush :: ps => ackIds ps

/-- Bytes before and after the first `b`. -/
def cut (b : UInt8) : Bytes → Option (Bytes × Bytes)
  | [] => none
  | c :: s => if c = b then some ([], s) else (cut b s).map (fun p => (c :: p.1, p.2))

/-- A line `<id> SP <name> LF` of a ref advertisement. -/
def parseRefLine (l : Bytes) : Option (Bytes × Bytes) :=
  match cut 0x20 l with
  | some (id, r) =>
    match cut 0x0a r with
    | some (name, []) => some (id, name)
    | _ => none
  | none => none

/-- The first line `<id> SP <name> NUL <capabilities> LF` of a ref advertisement. -/
def parseFirstLine (l : Bytes) : Option (Bytes × Bytes × Bytes) :=
  match cut 0x20 l with
  | some (id, r) =>
    match cut 0 r with
    | some (name, r) =>
      match cut 0x0a r with
      | some (caps, []) => some (id, name, caps)
      | _ => none
    | none => none
  | none => none

/-- A ref command of a push: old id, new id, ref name. -/
structure PushCmd where
  old : Bytes
  new : Bytes
  name : Bytes

/-- First command line as git clients write it: capabilities after a NUL, introduced by a space. -/
def firstCmdLine (c : PushCmd) (caps : Bytes) : Bytes :=
  c.old ++ 0x20 :: (c.new ++ 0x20 :: (c.name ++ 0 :: 0x20 :: caps))

/-- Any further command line. -/
def cmdLine (c : PushCmd) : Bytes := c.old ++ 0x20 :: (c.new ++ 0x20 :: c.name)

/-- Body of a push request: command lines, flush packet, pack (empty for a push that only deletes). -/
def pushBody (c : PushCmd) (cs : List PushCmd) (caps pack : Bytes) : Bytes :=
  frame (.line (firstCmdLine c caps)) ++ stream (cs.map (fun c => .line (cmdLine c))) ++ frame .flush ++ pack

/-- A well-formed command: two 40-digit ids and a ref name of printable ASCII characters without spaces. -/
def PushCmd.Ok (c : PushCmd) : Prop :=
  c.old.length = 40 ∧ (∀ x ∈ c.old, IsHexDigit x) ∧ c.new.length = 40 ∧ (∀ x ∈ c.new, IsHexDigit x) ∧
    c.name ≠ [] ∧ c.name.length ≤ 60000 ∧ (∀ x ∈ c.name, 33 ≤ x.toNat ∧ x.toNat < 127)

end Gust.Spec

import Verif.Model.Text
import Verif.Base.Res

/-! # Starting the servers: the address a server listens at

`http_server`, `/repo/src/gateway/api/lib.rs` 48-74, and `server`, `/repo/src/gateway/ssh_server.rs` 21-50, for the options in `/repo/src/main.rs` 101-119: `SocketAddr::from_str(&format!("{}:{}", host, port)).unwrap()`.
The parser is the one of the Rust standard library (`core::net::parser`), function by function. Not modelled: the parser of the command line (`clap`), and whether the operating system lets the server have the address. -/

namespace Gust

/-- `ServeConfig`, main.rs 103-119: the options of both servers. `port` is a `u16`. -/
structure ServeConfig where
  host : Bytes
  port : Nat
  keyPath : Option Bytes
  certPath : Option Bytes
  lfsContentPath : Bytes

/-- The defaults, main.rs 104-117. -/
def ServeConfig.default : ServeConfig := { host := ascii "0.0.0.0", port := 8000, keyPath := none, certPath := none, lfsContentPath := ascii "lfs_content" }

/-- `IpAddr`; an IPv6 address are eight groups of 16 bits. -/
inductive IpAddr
  | v4 (a b c d : Nat)
  | v6 (groups : List Nat)
  deriving DecidableEq

/-- `SocketAddr`; the scope is part of IPv6 socket addresses only. -/
structure SockAddr where
  ip : IpAddr
  scope : Nat
  port : Nat
  deriving DecidableEq

/-- The loop of `Parser::read_number`: all digits that are there. -/
def takeDigits (dv : UInt8 → Option Nat) : Bytes → List Nat × Bytes
  | [] => ([], [])
  | c :: l =>
    match dv c with
    | none => ([], c :: l)
    | some d => ((d :: (takeDigits dv l).1), (takeDigits dv l).2)

/-- The value of digits. -/
def digitsValue (radix : Nat) (ds : List Nat) : Nat := ds.foldl (fun a d => a * radix + d) 0

/-- `Parser::read_number(radix, max_digits, allow_zero_prefix)` for numbers below `lim`. (Without `max_digits` std checks for overflow after each digit; the value never decreases, so this is the same as checking the result.) -/
def readNumber (dv : UInt8 → Option Nat) (radix lim : Nat) (maxDigits : Option Nat) (allowZeroPrefix : Bool) (l : Bytes) : Option (Nat × Bytes) :=
  let ds := (takeDigits dv l).1
  if (match maxDigits with | some k => decide (k < ds.length) | none => false) then none
  else if ds = [] then none
  else if !allowZeroPrefix && (l.head? == some 0x30) && decide (1 < ds.length) then none
  else if digitsValue radix ds < lim then some (digitsValue radix ds, (takeDigits dv l).2) else none

/-- `Parser::read_given_char`. -/
def readChar (c : UInt8) : Bytes → Option Bytes
  | [] => none
  | x :: l => if x = c then some l else none

/-- `Parser::read_separator`: not before the first one. -/
def readSep {α : Type} (sep : UInt8) (index : Nat) (inner : Bytes → Option (α × Bytes)) (l : Bytes) : Option (α × Bytes) :=
  if index > 0 then
    match readChar sep l with
    | none => none
    | some l' => inner l'
  else inner l

/-- A number of an IPv4 address. -/
def readOctet : Bytes → Option (Nat × Bytes) := readNumber decCharValue 10 256 (some 3) false

/-- `Parser::read_ipv4_addr`. -/
def readIpv4 (l : Bytes) : Option ((Nat × Nat × Nat × Nat) × Bytes) := do
  let (a, l) ← readSep 0x2e 0 readOctet l
  let (b, l) ← readSep 0x2e 1 readOctet l
  let (c, l) ← readSep 0x2e 2 readOctet l
  let (d, l) ← readSep 0x2e 3 readOctet l
  pure ((a, b, c, d), l)

/-- A group of an IPv6 address. -/
def readGroup : Bytes → Option (Nat × Bytes) := readNumber hexCharValue 16 65536 (some 4) true

/-- `read_groups` of `Parser::read_ipv6_addr`, with room for `left` groups: the groups, whether the last two come from an IPv4 address, and what is left. -/
def readGroups : (left : Nat) → (i : Nat) → Bytes → List Nat × Bool × Bytes
  | 0, _, l => ([], false, l)
  | left + 1, i, l =>
    match (if 0 < left then readSep 0x3a i readIpv4 l else none) with
    | some ((a, b, c, d), l') => ([a * 256 + b, c * 256 + d], true, l')
    | none =>
      match readSep 0x3a i readGroup l with
      | some (g, l') => (g :: (readGroups left (i + 1) l').1, (readGroups left (i + 1) l').2)
      | none => ([], false, l)

/-- `Parser::read_ipv6_addr`. -/
def readIpv6 (l : Bytes) : Option (List Nat × Bytes) :=
  let (head, v4, l) := readGroups 8 0 l
  if head.length = 8 then some (head, l)
  else if v4 then none
  else do
    let l ← readChar 0x3a l
    let l ← readChar 0x3a l
    let (tail, _, l) := readGroups (8 - (head.length + 1)) 0 l
    pure (head ++ List.replicate (8 - head.length - tail.length) 0 ++ tail, l)

/-- `Parser::read_port`. -/
def readPort (l : Bytes) : Option (Nat × Bytes) := do
  let l ← readChar 0x3a l
  readNumber decCharValue 10 65536 none true l

/-- `Parser::read_scope_id`. -/
def readScope (l : Bytes) : Option (Nat × Bytes) := do
  let l ← readChar 0x25 l
  readNumber decCharValue 10 (2 ^ 32) none true l

/-- `Parser::read_socket_addr_v4`. -/
def readSockV4 (l : Bytes) : Option (SockAddr × Bytes) := do
  let ((a, b, c, d), l) ← readIpv4 l
  let (port, l) ← readPort l
  pure ({ ip := .v4 a b c d, scope := 0, port := port }, l)

/-- `Parser::read_socket_addr_v6`. -/
def readSockV6 (l : Bytes) : Option (SockAddr × Bytes) := do
  let l ← readChar 0x5b l
  let (groups, l) ← readIpv6 l
  let (scope, l) := (readScope l).getD (0, l)
  let l ← readChar 0x5d l
  let (port, l) ← readPort l
  pure ({ ip := .v6 groups, scope := scope, port := port }, l)

/-- `SocketAddr::from_str`: `read_socket_addr`, and all of the text must be used. -/
def SockAddr.parse (l : Bytes) : Option SockAddr :=
  match (match readSockV4 l with | some r => some r | none => readSockV6 l) with
  | some (a, []) => some a
  | _ => none

/-- `server_url`, lib.rs 61 and ssh_server.rs 47. -/
def ServeConfig.url (c : ServeConfig) : Bytes := c.host ++ [0x3a] ++ decStr c.port

/-- The address to listen at, lib.rs 72 and ssh_server.rs 48: other texts are unwrapped, so the process ends. -/
def ServeConfig.listen (c : ServeConfig) : Res SockAddr := Res.unwrapOpt (SockAddr.parse c.url)

/-- `server_url` of `lfs_process_batch`, http.rs 368: what the links to large files begin with. -/
def ServeConfig.origin (c : ServeConfig) : Bytes := ascii "http://" ++ c.host ++ [0x3a] ++ decStr c.port

end Gust

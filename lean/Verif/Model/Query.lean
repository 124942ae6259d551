import Verif.Model.Server

/-! # Query strings

`/repo/src/gateway/api/lib.rs` 34-42 (`GetParams`) and 79-83: the handler of GET requests takes `Query(params): Query<GetParams>`, so axum
(0.6, `axum::extract::Query`) reads the query string with `serde_urlencoded` before the handler runs; other methods do not look at it. What these
crates do is written out here; which bytes a request line may have is not modelled (hyper refuses some before). -/

namespace Gust

/-- Replacement of `+` by a space, `form_urlencoded::replace_plus`. -/
def replacePlus (s : Bytes) : Bytes := s.map (fun b => if b = 0x2b then 0x20 else b)

/-- `percent_encoding::percent_decode`: `%` with two hexadecimal digits is a byte, any other `%` stays. -/
def percentDecode : Bytes → Bytes
  | [] => []
  | [a] => [a]
  | [a, b] => [a, b]
  | c :: a :: b :: s =>
    if c = 0x25 then
      match hexCharValue a, hexCharValue b with
      | some x, some y => u8 (x * 16 + y) :: percentDecode s
      | _, _ => c :: percentDecode (a :: b :: s)
    else c :: percentDecode (a :: b :: s)

/-- The next step of `String::from_utf8_lossy` on a non-empty text: how many bytes it takes, and whether they are a character. -/
def lossyStep : Bytes → Nat × Bool
  | [] => (1, false)
  | a :: s =>
    let cont (b : UInt8) : Bool := 0x80 ≤ b && b ≤ 0xBF
    if a < 0x80 then (1, true)
    else if 0xC2 ≤ a ∧ a ≤ 0xDF then
      match s with
      | b :: _ => if cont b then (2, true) else (1, false)
      | _ => (1, false)
    else if 0xE0 ≤ a ∧ a ≤ 0xEF then
      let second (b : UInt8) : Bool :=
        if a = 0xE0 then 0xA0 ≤ b && b ≤ 0xBF
        else if a = 0xED then 0x80 ≤ b && b ≤ 0x9F
        else cont b
      match s with
      | b :: c :: _ => if second b then (if cont c then (3, true) else (2, false)) else (1, false)
      | [b] => if second b then (2, false) else (1, false)
      | _ => (1, false)
    else if 0xF0 ≤ a ∧ a ≤ 0xF4 then
      let second (b : UInt8) : Bool :=
        if a = 0xF0 then 0x90 ≤ b && b ≤ 0xBF
        else if a = 0xF4 then 0x80 ≤ b && b ≤ 0x8F
        else cont b
      match s with
      | b :: c :: d :: _ => if second b then (if cont c then (if cont d then (4, true) else (3, false)) else (2, false)) else (1, false)
      | [b, c] => if second b then (if cont c then (3, false) else (2, false)) else (1, false)
      | [b] => if second b then (2, false) else (1, false)
      | _ => (1, false)
    else (1, false)

/-- `String::from_utf8_lossy`: what is not UTF-8 becomes U+FFFD; the first argument bounds the recursion and is the length of the text. -/
def lossyGo : Nat → Bytes → Bytes
  | 0, _ => []
  | _, [] => []
  | fuel + 1, s =>
    (if (lossyStep s).2 then s.take (lossyStep s).1 else [0xEF, 0xBF, 0xBD]) ++ lossyGo fuel (s.drop (lossyStep s).1)

/-- `form_urlencoded::decode`. -/
def decodePart (s : Bytes) : Bytes := lossyGo (percentDecode (replacePlus s)).length (percentDecode (replacePlus s))

/-- `form_urlencoded::parse`: pieces between `&`, empty ones passed over, name and value divided by the first `=`. -/
def queryPairs (q : Bytes) : List (Bytes × Bytes) :=
  ((splitOn 0x26 q).filter (· ≠ [])).map
    (fun p => (decodePart (p.takeWhile (· ≠ 0x3d)), decodePart ((p.dropWhile (· ≠ 0x3d)).drop 1)))

/-- `GetParams`, lib.rs 34-42. -/
structure GetParams where
  service : Option Bytes
  refspec : Option Bytes
  id : Option Bytes
  path : Option Bytes
  limit : Option Bytes
  cursor : Option Bytes

/-- One field of the derived `Deserialize`: absent is `None`, twice is an error (the outer `none`). -/
def getParam (ps : List (Bytes × Bytes)) (name : Bytes) : Option (Option Bytes) :=
  match ps.filter (fun p => p.1 = name) with
  | [] => some none
  | [p] => some (some p.2)
  | _ => none

/-- `serde_urlencoded::from_str::<GetParams>`; other names are ignored. -/
def parseQuery (q : Bytes) : Option GetParams := do
  let service ← getParam (queryPairs q) (ascii "service")
  let refspec ← getParam (queryPairs q) (ascii "refspec")
  let id ← getParam (queryPairs q) (ascii "id")
  let path ← getParam (queryPairs q) (ascii "path")
  let limit ← getParam (queryPairs q) (ascii "limit")
  let cursor ← getParam (queryPairs q) (ascii "cursor")
  pure { service := service, refspec := refspec, id := id, path := path, limit := limit, cursor := cursor }

/-- A request as it arrives: the query string as it stands in the URL (empty if there is none). -/
structure RawReq where
  method : Method
  path : Bytes
  query : Bytes := []
  body : Bytes := []

/-- The request the handler sees, lib.rs 98-106. -/
def RawReq.parsed (r : RawReq) (g : GetParams) : HttpReq :=
  { method := r.method
    path := r.path
    service := g.service
    query := { path := g.path, id := g.id, cursor := g.cursor, limit := g.limit, refspec := g.refspec }
    body := r.body }

/-- One request with its query string: only routed GET requests have theirs read, and get status 400 (axum's
`FailedToDeserializeQueryString`) when that fails. -/
def serveRaw (P : ServerExt) (m : Moment) (s : ServerState) (r : RawReq) : Outcome × ServerState :=
  if r.method = .get ∧ r.path ≠ ascii "/" then
    match parseQuery r.query with
    | some g => serve P m s (r.parsed g)
    | none => (.reply (.status 400), s)
  else serve P m s { method := r.method, path := r.path, body := r.body }

/-- The state after a history of requests as they arrive. -/
def runRaw (P : ServerExt) (s : ServerState) (h : List (Moment × RawReq)) : ServerState :=
  h.foldl (fun s p => (serveRaw P p.1 s p.2).2) s

end Gust

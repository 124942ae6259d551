import Verif.Model.MetaData

/-! # `/repo/src/git/object/base/sign.rs`, `commit.rs`, `tag.rs` -/

namespace Gust

/-- `AuthorSign`, sign.rs 18-24. -/
structure AuthorSign where
  t : Bytes
  name : Bytes
  email : Bytes
  timestamp : Nat
  timezone : Bytes
  deriving DecidableEq

/-- `x.to_str().unwrap()` / `String::from_utf8(x).unwrap()`. -/
def toStr (s : Bytes) : Res Bytes := if utf8Valid s then .ok s else .panic

/-- `AuthorSign::decode_from_data`, sign.rs 41-70. `email_start - 1` underflows (panics) when the first byte is `<`. -/
def AuthorSign.decode (data : Bytes) : Res AuthorSign := do
  let nameStart ← Res.unwrapOpt (findByte 0x20 data)
  let t ← slice data 0 nameStart
  let t ← toStr t
  let emailStart ← Res.unwrapOpt (findByte 0x3C data)
  let emailEnd ← Res.unwrapOpt (findByte 0x3E data)
  if emailStart = 0 then .panic
  else do
    let name ← slice data (nameStart + 1) (emailStart - 1)
    let name ← toStr name
    let email ← slice data (emailStart + 1) emailEnd
    let email ← toStr email
    let data ← sliceFrom data (emailEnd + 2)
    let split ← Res.unwrapOpt (findByte 0x20 data)
    let ts ← slice data 0 split
    let ts ← toStr ts
    let timestamp ← Res.unwrapOpt (parseUsize ts)
    let tz ← sliceFrom data (split + 1)
    let tz ← toStr tz
    pure { t := t, name := name, email := email, timestamp := timestamp, timezone := tz }

/-- `AuthorSign::encode_to_data`, sign.rs 74-90. -/
def AuthorSign.encode (s : AuthorSign) : Bytes :=
  s.t ++ [0x20] ++ s.name ++ [0x20] ++ [0x3C] ++ s.email ++ [0x3E] ++ [0x20] ++
    decStr s.timestamp ++ [0x20] ++ s.timezone

/-- `Commit`, commit.rs 24-31 (without the raw `meta`). -/
structure Commit where
  treeId : Hash
  parents : List Hash
  author : AuthorSign
  committer : AuthorSign
  message : Bytes
  deriving DecidableEq

/-- `while index < author_begin` loop of `Commit::decode_meta`, commit.rs 102-108. Note that `data` is not advanced:
every iteration reads the same line. -/
def parentLoop (data : Bytes) (authorBegin index : Nat) : Res (List Hash) :=
  if h : index < authorBegin then
    match findByte 0x20 data, findByte 0x0a data with
    | some b, some e => do
      let text ← slice data (b + 1) e
      let p ← Res.unwrapOpt (Hash.fromBytes text)
      let ps ← parentLoop data authorBegin (index + e + 1)
      pure (p :: ps)
    | _, _ => .panic
  else .ok []
termination_by authorBegin - index

/-- The parent ids of `Commit::decode_meta`, commit.rs 98-111 (initially empty, 63). -/
def decodeParents (data : Bytes) (authorBegin : Nat) : Res (List Hash) :=
  if (findSub (ascii "parent") data).isSome then parentLoop data authorBegin 0 else .ok []

/-- `Commit::decode_meta`, commit.rs 87-129. -/
def Commit.decode (data : Bytes) : Res Commit := do
  let treeBegin ← Res.unwrapOpt (findByte 0x20 data)
  let treeEnd ← Res.unwrapOpt (findByte 0x0a data)
  let treeText ← slice data (treeBegin + 1) treeEnd
  let treeId ← Res.unwrapOpt (Hash.fromBytes treeText)
  let data ← sliceFrom data (treeEnd + 1)
  let authorBegin ← Res.unwrapOpt (findSub (ascii "author") data)
  let parents ← decodeParents data authorBegin
  let data ← sliceFrom data authorBegin
  let nl ← Res.unwrapOpt (findByte 0x0a data)
  let authorData ← slice data 0 nl
  let author ← AuthorSign.decode authorData
  let data ← sliceFrom data (nl + 1)
  let nl ← Res.unwrapOpt (findByte 0x0a data)
  let committerData ← slice data 0 nl
  let committer ← AuthorSign.decode committerData
  let message ← sliceFrom data (nl + 1)
  let message ← toStr message
  pure { treeId := treeId, parents := parents, author := author, committer := committer, message := message }

/-- One parent line of `Commit::encode_metadata`, commit.rs 148-151. -/
def parentLine (p : Hash) : Bytes := ascii "parent" ++ [0x20] ++ Hash.toPlainStr p ++ [0x0a]

/-- `Commit::encode_metadata`, commit.rs 139-161: the commit data. -/
def Commit.encode (c : Commit) : Bytes :=
  ascii "tree" ++ [0x20] ++ Hash.toPlainStr c.treeId ++ [0x0a] ++
    c.parents.flatMap parentLine ++
    c.author.encode ++ [0x0a] ++ c.committer.encode ++ [0x0a] ++ c.message

/-- `Tag`, tag.rs 23-30 (without the raw `meta`). -/
structure Tag where
  object : Hash
  t : ObjectType
  tag : Bytes
  tagger : AuthorSign
  message : Bytes
  deriving DecidableEq

/-- `Tag::decode_metadata`, tag.rs 75-110. -/
def Tag.decode (data : Bytes) : Res Tag := do
  let b ← Res.unwrapOpt (findByte 0x20 data)
  let e ← Res.unwrapOpt (findByte 0x0a data)
  let text ← slice data (b + 1) e
  let object ← Res.unwrapOpt (Hash.fromBytes text)
  let data ← sliceFrom data (e + 1)
  let b ← Res.unwrapOpt (findByte 0x20 data)
  let e ← Res.unwrapOpt (findByte 0x0a data)
  let text ← slice data (b + 1) e
  let text ← toStr text
  let t ← (ObjectType.fromString text).unwrap
  let data ← sliceFrom data (e + 1)
  let b ← Res.unwrapOpt (findByte 0x20 data)
  let e ← Res.unwrapOpt (findByte 0x0a data)
  let text ← slice data (b + 1) e
  let tag ← toStr text
  let data ← sliceFrom data (e + 1)
  let b ← Res.unwrapOpt (findSub (ascii "tagger") data)
  let e ← Res.unwrapOpt (findByte 0x0a data)
  let text ← slice data b e
  let tagger ← AuthorSign.decode text
  let nl ← Res.unwrapOpt (findByte 0x0a data)
  let data ← sliceFrom data (nl + 1)
  let nl ← Res.unwrapOpt (findByte 0x0a data)
  let message ← sliceFrom data nl
  let message ← toStr message
  pure { object := object, t := t, tag := tag, tagger := tagger, message := message }

/-- `Tag::encode_metadata`, tag.rs 114-137: the tag data. -/
def Tag.encode (g : Tag) : Bytes :=
  ascii "object" ++ [0x20] ++ Hash.toPlainStr g.object ++ [0x0a] ++
    ascii "type" ++ [0x20] ++ g.t.display ++ [0x0a] ++
    ascii "tag" ++ [0x20] ++ g.tag ++ [0x0a] ++
    g.tagger.encode ++ [0x0a] ++ g.message

end Gust

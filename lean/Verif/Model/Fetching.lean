import Verif.Model.Concurrent
import Verif.Model.Server

/-! # A fetch over HTTP while other requests are served

`/repo/src/git/protocol/pack.rs` 117-166 asks the storage once per id the client has, then for the pack, then once per id it wants. Other requests may change the database
between any two of these queries. -/

namespace Gust

/-- When the queries of one fetch are answered: behaviour and content of the database at the lookup of each id the client has, at the queries for the pack, and at the lookup of each
id the client wants. -/
structure FetchTimes where
  haves : Bytes → SqlExt × Db
  pack : Nat → SqlExt × Db
  wants : Bytes → SqlExt × Db

/-- The storage with the lookups of commits answered at the given moments. -/
def FetchTimes.store (X : Ext) (T : FetchTimes) (look : Bytes → SqlExt × Db) (fuel : Nat) (path : Bytes) : FetchStore :=
  { known := fun h => match getCommitByHash X (look h).1 (look h).2 h with | .ok _ => true | _ => false
    fullPack := getFullPackL X T.pack fuel path
    incPack := fun want have_ => getIncPackL X T.pack fuel path want have_ }

/-- `fetchAnswer` (pack.rs 117-166) with the lookups of the haves in `SH` and everything later in `SW`. -/
def fetchAnswer2 (SH SW : FetchStore) (caps : List Capability) (wants haves : List Bytes) : Res (Bytes × Bytes) :=
  if haves = [] then do
    let pack ← SW.fullPack.unwrap
    pure (pack, addPktLine [] (ascii "NAK\n"))
  else
    if .multiAckDetailed ∈ caps then do
      let buf := (haveAcks SH haves).foldl addPktLine []
      let pack ← (SW.incPack wants haves).unwrap
      let buf := (wantAcks SW (decide (Capability.noDone ∈ caps)) wants).foldl addPktLine buf
      pure (pack, addPktLine buf (ascii "ACK " ++ hardCodedAck ++ ascii " \n"))
    else pure ([], addPktLine [] (ascii "ACK " ++ hardCodedAck ++ ascii " \n"))

/-- `http::git_upload_pack` and `send_pack`, http.rs 35-85, while other requests are served. -/
def httpUploadPackL (X : Ext) (T : FetchTimes) (fuel : Nat) (path : Bytes) (ord : List Bytes → List Bytes) (cut : Bytes → List Bytes) (body : Bytes) : Res Bytes := do
  let (s, _) ← fetchLoop (body.length + 1) { want := [], have_ := [], caps := [], firstLine := true } body
  let (pack, buf) ← fetchAnswer2 (T.store X T.haves fuel path) (T.store X T.wants fuel path) s.caps (ord s.want) (ord s.have_)
  pure (buf ++ sendPack s.caps (cut pack))

end Gust

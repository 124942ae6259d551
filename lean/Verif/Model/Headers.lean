import Verif.Model.Server

/-! # Status and headers of replies -/

namespace Gust

/-- Status line and headers of a reply. Only the headers the handlers set; hyper adds `date`, `content-length` or `transfer-encoding`. -/
structure ReplyHead where
  status : Nat
  headers : List (Bytes × Bytes)
  deriving DecidableEq, Repr

/-- `build_res_header`, `/repo/src/git/protocol/http.rs` 20-33 (and the same lines in lib.rs 123-139). The headers are collected in a `HashMap`, so
their order on the wire is not fixed; readers look them up by name. -/
def gitHeaders (contentType : Bytes) : List (Bytes × Bytes) :=
  [(ascii "Content-Type", contentType), (ascii "Cache-Control", ascii "no-cache, max-age=0, must-revalidate")]

/-- The head of a successful reply of each handler: lib.rs 116-139 for `info/refs`, http.rs 74 and 107, `/repo/src/git/lfs/http.rs` 48-49
(list), 90-91 (verify), 166-167 and 236 (create), 258-259 (delete), 410-412 (batch), 463-464 (upload), 497-498 (download). The other routes have no
successful reply. -/
def okHead : Route → ReplyHead
  | .infoRefs _ t => ⟨200, gitHeaders (ascii "application/x-" ++ t.display ++ ascii "-advertisement")⟩
  | .uploadPack _ => ⟨200, gitHeaders (ascii "application/x-git-upload-pack-result")⟩
  | .receivePack _ => ⟨200, gitHeaders (ascii "application/x-git-receive-pack-result")⟩
  | .createLock => ⟨201, [(ascii "Content-Type", ascii "application/vnd.git-lfs+json")]⟩
  | .listLocks | .verifyLocks | .deleteLock _ | .batch => ⟨200, [(ascii "Content-Type", ascii "application/vnd.git-lfs+json")]⟩
  | .upload _ => ⟨200, [(ascii "Content-Type", ascii "application/vnd.git-lfs")]⟩
  | _ => ⟨200, []⟩

/-- The head of the reply to a request with this outcome: an error `(StatusCode, String)` becomes plain text in axum, except that the 404 and 405 which
axum gives by itself have no body. No reply, no head. -/
def replyHead (r : HttpReq) : Outcome → Option ReplyHead
  | .reply (.ok _) => some (okHead (route r.method r.path r.service))
  | .reply (.status c) =>
    match route r.method r.path r.service with
    | .notFound | .methodNotAllowed => some ⟨c, []⟩
    | _ => some ⟨c, [(ascii "Content-Type", ascii "text/plain; charset=utf-8")]⟩
  | _ => none

end Gust

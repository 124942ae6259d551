import Verif.Model.Server

/-! # The process that runs the server

`main` is a `#[tokio::main]` function (/repo/src/main.rs 74-75): a number of worker threads, by default as many as the machine has processors, run the handlers. A handler gives
its worker back when it ends, panics or waits. Here requests arrive one after the other; each is handed to a worker that is not taken for ever. (External: tokio. Not modelled: tasks that are
stranded in the queue of a worker that is taken, which makes matters worse.) -/

namespace Gust

/-- What becomes of the worker that handles a request. -/
inductive Fate
  /-- there is a reply or a closed connection; the worker is free again -/
  | answered (r : Reply Payload)
  /-- the worker never comes back -/
  | busy
  /-- the stack overflows; the process is aborted -/
  | overflow
  deriving DecidableEq, Repr

/-- The loop over the lines of a fetch, /repo/src/git/protocol/pack.rs 81-108, waits for nothing and calls nothing recursively: if it does not end it keeps its worker. Everything else that does not
end is recursion: the walk over directories (storage.rs 679-705), deltas (`next_object`, /repo/src/git/pack/mod.rs 167-262) and the tree builder (nodes.rs 320-344). -/
def fate (P : ServerExt) (m : Moment) (s : ServerState) (r : HttpReq) : Fate :=
  match (serve P m s r).1 with
  | .reply x => .answered x
  | .hang =>
    match route r.method r.path r.service with
    | .uploadPack _ =>
      match fetchLoop (r.body.length + 1) { want := [], have_ := [], caps := [], firstLine := true } r.body with
      | .spin => .busy
      | _ => .overflow
    | _ => .overflow

/-- The process: what the server keeps, how many workers are taken for ever, and whether it was aborted. -/
structure Proc where
  state : ServerState
  taken : Nat := 0
  aborted : Bool := false

/-- A request to a process with `W` workers; `none`: no reply, and the connection stays open for ever or is reset. -/
def Proc.handle (W : Nat) (P : ServerExt) (m : Moment) (p : Proc) (r : HttpReq) : Option (Reply Payload) × Proc :=
  if p.aborted ∨ W ≤ p.taken then (none, p)
  else
    let s := (serve P m p.state r).2
    match fate P m p.state r with
    | .answered x => (some x, { p with state := s })
    | .busy => (none, { p with state := s, taken := p.taken + 1 })
    | .overflow => (none, { p with state := s, aborted := true })

/-- The process after a history of requests. -/
def Proc.run (W : Nat) (P : ServerExt) (p : Proc) (h : List (Moment × HttpReq)) : Proc :=
  h.foldl (fun p x => (p.handle W P x.1 x.2).2) p

end Gust

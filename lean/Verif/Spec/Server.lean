import Verif.Model.Server
import Verif.Spec.Router
import Verif.Spec.Protocol

/-! # What the properties of the whole server ask for -/

namespace Gust

/-- The repository path a request is for, if it is a request of git. -/
def HttpReq.repo (r : HttpReq) : Option Bytes := Spec.RepoOf (route r.method r.path r.service)

/-- The pack in the body of a push with one command: what follows the first line and a flush. -/
def Spec.packPart (body : Bytes) : Bytes :=
  match readPktLine body with
  | .ok (_, rest) => rest.drop 4
  | _ => []

/-- Requests of git: by the end of the path. -/
def Spec.GitUrl (r : HttpReq) : Prop :=
  ascii "/info/refs" <:+ r.path ∨ ascii "/git-upload-pack" <:+ r.path ∨ ascii "/git-receive-pack" <:+ r.path

/-- Requests about locks: by the end of the path. -/
def Spec.LockUrl (r : HttpReq) : Prop := ascii "/locks" <:+ r.path ∨ ascii "/locks/verify" <:+ r.path ∨ ascii "/unlock" <:+ r.path

/-- Requests about LFS objects: the last but one segment of the path is `objects`. -/
def Spec.ObjectUrl (r : HttpReq) : Prop := ∃ pre last, r.path = pre ++ ascii "/objects/" ++ last ∧ (0x2f : UInt8) ∉ last

/-- A client that reads the reply to a clone request: a `NAK` packet, then the pack on band 1, then a flush packet. -/
def Spec.readClone (out : Bytes) : Option Bytes :=
  match Spec.readPkt out with
  | some (.line l, rest) => if l = ascii "NAK\n" then
      match Spec.demux rest with
      | some (pack, []) => some pack
      | _ => none
    else none
  | _ => none

/-- No repository of the history is a directory above one that the database takes for `path`. -/
def Spec.NoneAbove (fold : Bytes → Bytes) (path : Bytes) (h : List (Moment × HttpReq)) : Prop :=
  ∀ p ∈ h, ∀ q ∈ h, ∀ a b, p.2.repo = some a → q.2.repo = some b → fold b = fold path → pathStartsWith b a = true → a = b

/-- All requests use a database with the same comparison of strings. -/
def Spec.SameFold (fold : Bytes → Bytes) (h : List (Moment × HttpReq)) : Prop := ∀ p ∈ h, p.1.sql.fold = fold

/-- The request of a client pushing to URL `u`. -/
def Spec.pushReq (u body : Bytes) : HttpReq := { method := .post, path := u ++ ascii "/git-receive-pack", body := body }

/-- The request of a client fetching from URL `u`. -/
def Spec.fetchReq (u body : Bytes) : HttpReq := { method := .post, path := u ++ ascii "/git-upload-pack", body := body }

end Gust

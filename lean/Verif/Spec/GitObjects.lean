import Verif.Model.Hash
import Verif.Model.Types
import Verif.Model.Text

/-! # Commits, directories and annotated tags as git writes them

Written from the documentation of git (`gitformat-commit`, `git help commit-tree`, `git help mktag`), independently of the decoders and encoders of the server. -/

namespace Gust.Spec

/-- A person at a point of time. `before`: the time is before 1970, `seconds` is then the distance. -/
structure Person where
  name : Bytes
  email : Bytes
  before : Bool
  seconds : Nat
  zone : Bytes

/-- git removes these bytes from names and addresses; zones are `+hhmm` or `-hhmm`. The bytes are in whatever encoding the user has chosen. -/
structure Person.Ok (p : Person) : Prop where
  name : ∀ b ∈ p.name, b ≠ 0x3C ∧ b ≠ 0x3E ∧ b ≠ 0x0a ∧ b ≠ 0
  email : ∀ b ∈ p.email, b ≠ 0x3C ∧ b ≠ 0x3E ∧ b ≠ 0x0a ∧ b ≠ 0
  zone : ∃ sign digits, p.zone = sign :: digits ∧ (sign = 0x2B ∨ sign = 0x2D) ∧ digits.length = 4 ∧ ∀ b ∈ digits, 0x30 ≤ b.toNat ∧ b.toNat ≤ 0x39

/-- `name <email> seconds zone`. -/
def Person.text (p : Person) : Bytes :=
  p.name ++ ascii " <" ++ p.email ++ ascii "> " ++ (if p.before then ascii "-" else []) ++ decStr p.seconds ++ ascii " " ++ p.zone

/-- The name and the address are UTF-8 and the time is one since 1970. -/
def Person.Plain (p : Person) : Prop := utf8Valid p.name = true ∧ utf8Valid p.email = true ∧ p.before = false ∧ p.seconds < 2 ^ 64

/-- A commit: `rest` are further headers (signature, encoding, …), each with a line feed, an empty line and the message. -/
structure CommitData where
  tree : Hash
  parents : List Hash
  author : Person
  committer : Person
  rest : Bytes

structure CommitData.Ok (c : CommitData) : Prop where
  author : c.author.Ok
  committer : c.committer.Ok

def CommitData.text (c : CommitData) : Bytes :=
  ascii "tree " ++ Hash.toPlainStr c.tree ++ ascii "\n" ++ c.parents.flatMap (fun p => ascii "parent " ++ Hash.toPlainStr p ++ ascii "\n") ++
    ascii "author " ++ c.author.text ++ ascii "\n" ++ ascii "committer " ++ c.committer.text ++ ascii "\n" ++ c.rest

/-- All of the commit is UTF-8 and since 1970. -/
def CommitData.Plain (c : CommitData) : Prop := c.author.Plain ∧ c.committer.Plain ∧ utf8Valid c.rest = true

/-- An entry of a directory. -/
structure EntryData where
  mode : Bytes
  name : Bytes
  id : Hash

/-- The modes that occur in repositories (`100664` in old ones); names are any bytes but NUL (and `/`, which does not matter here). -/
structure EntryData.Ok (e : EntryData) : Prop where
  mode : e.mode ∈ [ascii "40000", ascii "100644", ascii "100664", ascii "100755", ascii "120000", ascii "160000"]
  name : (0 : UInt8) ∉ e.name

def EntryData.text (e : EntryData) : Bytes := e.mode ++ ascii " " ++ e.name ++ [0] ++ e.id.1

/-- An annotated tag; very old ones have no tagger. -/
structure TagData where
  object : Hash
  kind : ObjectType
  name : Bytes
  tagger : Option Person
  message : Bytes

structure TagData.Ok (g : TagData) : Prop where
  kind : g.kind = .commit ∨ g.kind = .tree ∨ g.kind = .blob ∨ g.kind = .tag
  name : (0x0a : UInt8) ∉ g.name
  tagger : ∀ p, g.tagger = some p → p.Ok

/-- The name of a type of objects. -/
def kindName : ObjectType → Bytes
  | .commit => ascii "commit"
  | .tree => ascii "tree"
  | .blob => ascii "blob"
  | .tag => ascii "tag"
  | _ => []

def TagData.text (g : TagData) : Bytes :=
  ascii "object " ++ Hash.toPlainStr g.object ++ ascii "\n" ++ ascii "type " ++ kindName g.kind ++ ascii "\n" ++ ascii "tag " ++ g.name ++ ascii "\n" ++
    (match g.tagger with | some p => ascii "tagger " ++ p.text ++ ascii "\n" | none => []) ++ ascii "\n" ++ g.message

/-- The tag has a tagger, all of it is UTF-8 and since 1970. -/
def TagData.Plain (g : TagData) : Prop := utf8Valid g.name = true ∧ (∃ p, g.tagger = some p ∧ p.Plain) ∧ utf8Valid g.message = true

end Gust.Spec

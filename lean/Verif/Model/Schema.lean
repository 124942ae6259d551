import Verif.Model.Storage
import Verif.Model.LfsLock
import Verif.Model.Hash

/-! # The limits of the columns, `/repo/Dump20230523.sql`

`/repo/src/gust/driver/database/mysql/mod.rs` connects with the defaults of the driver, which leave the strict mode of the server on: a statement with a value that is too
long for its column fails as a whole, and no row of it is stored. In a `varchar` column the length is counted in characters, and spaces at the end that do not fit are cut off instead. -/

namespace Gust

/-- The number of characters of a text in UTF-8: every byte but the continuation bytes starts one. -/
def chars (s : Bytes) : Nat := (s.filter (fun b => b.toNat / 64 ≠ 2)).length

/-- The text without the spaces at its end. -/
def dropSpaces (s : Bytes) : Bytes := (s.reverse.dropWhile (fun b => b == 0x20)).reverse

/-- A value that a column `varchar(n)` does not take. -/
def overlong (n : Nat) (s : Bytes) : Bool := decide (n < chars (dropSpaces s))

/-- A row that the table `refs` does not take, dump lines 103-112. -/
def RefRow.refused (r : RefRow) : Bool := overlong 64 r.repoPath || overlong 32 r.refName || overlong 40 r.refGitId

/-- A row that the table `commit` does not take, dump lines 25-42: `blob` has at most 65535 bytes. -/
def CommitRow.refused (r : CommitRow) : Bool :=
  overlong 40 r.gitId || overlong 40 r.tree || decide (65535 < r.data.length) || overlong 128 r.repoPath

/-- A row that the table `node` does not take, dump lines 79-95: `blob` has at most 65535 bytes, `mediumblob` 16777215. -/
def NodeRow.refused (r : NodeRow) : Bool :=
  overlong 64 r.gitId || overlong 16 r.nodeType || overlong 128 r.name || decide (65535 < r.mode.length) || decide (16777215 < r.data.length)

/-- A row that the table takes as it is. -/
def RefRow.fits (r : RefRow) : Bool := decide (chars r.repoPath ≤ 64) && decide (chars r.refName ≤ 32) && decide (chars r.refGitId ≤ 40)

/-- A row that the table takes as it is. -/
def CommitRow.fits (r : CommitRow) : Bool :=
  decide (chars r.gitId ≤ 40) && decide (chars r.tree ≤ 40) && decide (r.data.length ≤ 65535) && decide (chars r.repoPath ≤ 128)

/-- A row that the table takes as it is. -/
def NodeRow.fits (r : NodeRow) : Bool :=
  decide (chars r.gitId ≤ 64) && decide (chars r.nodeType ≤ 16) && decide (chars r.name ≤ 128) && decide (r.mode.length ≤ 65535) && decide (r.data.length ≤ 16777215)

/-- A database with the tables of the dump: a statement with a row that does not fit is refused. It may refuse others for other reasons. -/
structure Spec.Schema (E : SqlExt) : Prop where
  nodes : ∀ n rows, (∃ r ∈ rows, r.refused = true) → E.acceptNodes n rows = false
  commits : ∀ n rows, (∃ r ∈ rows, r.refused = true) → E.acceptCommits n rows = false
  refs : ∀ n rows, (∃ r ∈ rows, r.refused = true) → E.acceptRefs n rows = false
  updates : ∀ n id, overlong 40 id = true → E.acceptUpdate n id = false

/-- A database that has the tables of the dump and otherwise never fails. (An insert without rows is left open.) -/
structure Spec.SchemaOnly (E : SqlExt) : Prop extends Spec.Schema E where
  nodes_ok : ∀ n rows, rows ≠ [] → (∀ r ∈ rows, r.fits = true) → E.acceptNodes n rows = true
  commits_ok : ∀ n rows, rows ≠ [] → (∀ r ∈ rows, r.fits = true) → E.acceptCommits n rows = true
  refs_ok : ∀ n rows, rows ≠ [] → (∀ r ∈ rows, r.fits = true) → E.acceptRefs n rows = true
  updates_ok : ∀ n id, chars id ≤ 40 → E.acceptUpdate n id = true

/-! ## LFS: the tables `locks` and `meta` -/

/-- How `serde_json` writes one byte of a text: quotation marks, backslashes and control characters are escaped, everything else stays. -/
def jsonByte (b : UInt8) : Bytes :=
  if b = 0x22 then ascii "\\\"" else if b = 0x5c then ascii "\\\\" else if b = 0x08 then ascii "\\b" else if b = 0x09 then ascii "\\t" else if b = 0x0a then ascii "\\n"
  else if b = 0x0c then ascii "\\f" else if b = 0x0d then ascii "\\r" else if b.toNat < 0x20 then ascii "\\u00" ++ Hash.hexByte b
  else [b]

/-- A text in JSON. -/
def jsonText (s : Bytes) : Bytes := ascii "\"" ++ s.flatMap jsonByte ++ ascii "\""

/-- A lock in JSON, structs.rs 101-112: the fields in their order, no spaces. -/
def jsonLock (l : Lock) : Bytes :=
  ascii "{\"id\":" ++ jsonText l.id ++ ascii ",\"path\":" ++ jsonText l.path ++ ascii ",\"locked_at\":" ++ jsonText l.lockedAt ++ ascii ",\"owner\":" ++
    (match l.owner with
     | none => ascii "null"
     | some n => ascii "{\"name\":" ++ jsonText n ++ ascii "}") ++ ascii "}"

/-- `serde_json::to_string(&locks)`, storage.rs 358, 376 and 466: what is written into the column `data`. -/
def jsonLocks (ls : List Lock) : Bytes := ascii "[" ++ (ascii ",").intercalate (ls.map jsonLock) ++ ascii "]"

/-- A database whose tables `locks` and `meta` are those of the dump, lines 50-54 and 64-69: `locks.data` has 10000 characters, `meta.size` is a 32-bit integer. -/
structure Spec.DumpLimits (D : DbExt) : Prop where
  locks : ∀ r ls, D.locksFit r ls = true → chars (jsonLocks ls) ≤ 10000
  metas : ∀ oid size, D.metaFits oid size = true → -2 ^ 31 ≤ size ∧ size < 2 ^ 31

/-- A database that refuses nothing else: `locks.id` has 200 characters, `meta.oid` has 100. -/
structure Spec.DumpLimitsOnly (D : DbExt) : Prop extends Spec.DumpLimits D where
  locks_ok : ∀ r ls, chars r ≤ 200 → chars (jsonLocks ls) ≤ 10000 → D.locksFit r ls = true
  metas_ok : ∀ oid size, chars oid ≤ 100 → -2 ^ 31 ≤ size → size < 2 ^ 31 → D.metaFits oid size = true

end Gust

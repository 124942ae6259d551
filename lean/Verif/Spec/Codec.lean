import Verif.Model.Tree
import Verif.Model.Commit

/-! # What the object codecs are asked to preserve -/

namespace Gust.Spec

/-- A tree entry as the tree format can carry it: a known mode with its meaning, and a name that is text without a NUL
byte. (The id is 20 bytes by its type.) -/
def TreeEntryOk (i : TreeItem) : Prop :=
  ((i.mode, i.itemType) = (ascii "40000", .tree) ∨
   (i.mode, i.itemType) = (ascii "100644", .blob) ∨
   (i.mode, i.itemType) = (ascii "100664", .blob) ∨
   (i.mode, i.itemType) = (ascii "100640", .blob) ∨
   (i.mode, i.itemType) = (ascii "100755", .blobExecutable) ∨
   (i.mode, i.itemType) = (ascii "120000", .link) ∨
   (i.mode, i.itemType) = (ascii "160000", .commit)) ∧
  (0x00 : UInt8) ∉ i.filename ∧ utf8Valid i.filename = true

/-- An identity line's fields: role without space or angle bracket, name without angle brackets, e-mail without `>`,
everything valid text, timestamp a `usize`. -/
structure SignOk (s : AuthorSign) : Prop where
  t_space : (0x20 : UInt8) ∉ s.t
  t_lt : (0x3C : UInt8) ∉ s.t
  t_gt : (0x3E : UInt8) ∉ s.t
  name_lt : (0x3C : UInt8) ∉ s.name
  name_gt : (0x3E : UInt8) ∉ s.name
  email_gt : (0x3E : UInt8) ∉ s.email
  t_text : utf8Valid s.t = true
  name_text : utf8Valid s.name = true
  email_text : utf8Valid s.email = true
  tz_text : utf8Valid s.timezone = true
  time : s.timestamp < 2 ^ 64

/-- No field contains a line feed, so the identity fits on one line. -/
structure OneLine (s : AuthorSign) : Prop where
  t : (0x0a : UInt8) ∉ s.t
  name : (0x0a : UInt8) ∉ s.name
  email : (0x0a : UInt8) ∉ s.email
  timezone : (0x0a : UInt8) ∉ s.timezone

/-- A commit as the commit format can carry it. -/
structure CommitOk (c : Commit) : Prop where
  author : SignOk c.author
  author_line : OneLine c.author
  /-- The decoder looks for the first `author`; the role is what follows up to the space. -/
  author_role : ascii "author" <+: c.author.t
  committer : SignOk c.committer
  committer_line : OneLine c.committer
  message : utf8Valid c.message = true

/-- An annotated tag as the tag format can carry it: target of a base type, one-line name, any text as message. -/
structure TagOk (g : Tag) : Prop where
  target : g.t = .commit ∨ g.t = .tree ∨ g.t = .blob ∨ g.t = .tag
  name_line : (0x0a : UInt8) ∉ g.tag
  name_text : utf8Valid g.tag = true
  tagger : SignOk g.tagger
  tagger_line : OneLine g.tagger
  tagger_role : ascii "tagger" <+: g.tagger.t
  message : utf8Valid g.message = true

end Gust.Spec

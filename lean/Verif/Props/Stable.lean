import Verif.Lemmas.CommitDecode
import Verif.Props.Head

/-! # C09, C10, C11, C61: objects that have been read can be written and read again -/

namespace Gust

/-- **C09** Every identity line that is accepted, written again, is read as the same identity. -/
theorem C09_stable {d : Bytes} {s : AuthorSign} (h : AuthorSign.decode d = .ok s) : AuthorSign.decode s.encode = .ok s :=
  sign_decode_encode s (sign_decode_ok h).1

/-- **C10** Every commit that is accepted, written again, is read as the same commit: nothing more is lost than at the first reading (for several parents,
all but the first, see `C10_commit_roundtrip_false`). -/
theorem C10_stable {d : Bytes} {c : Commit} (h : Commit.decode d = .ok c) : Commit.decode c.encode = .ok c :=
  (C10_commit_roundtrip_iff c (commit_decode_ok h)).2 (commit_decode_parents h)

/-- **C11** Every tag that is accepted, written again, is read as the same tag. -/
theorem C11_stable {d : Bytes} {g : Tag} (h : Tag.decode d = .ok g) : Tag.decode g.encode = .ok g :=
  (C11_tag_roundtrip_iff g (tag_decode_ok h).1).2 (tag_decode_ok h).2

/-- A commit as old programs wrote it, with a signature line and odd spacing, for the examples. -/
def oddCommit : Bytes :=
  ascii "tree 0000000000000000000000000000000000000000\nnote x\nauthors A\t<a> +12 +0000\ncommitter B  <b<c> 7 \ngpgsig\n\nhi\n"

theorem oddCommit_decode : ∃ c, Commit.decode oddCommit = .ok c ∧ c.author.t = ascii "authors" ∧ c.author.name = ascii "A" ∧ c.committer.name = ascii "B " ∧
    c.encode ≠ oddCommit := by
  have h : (match Commit.decode oddCommit with
    | .ok c => decide (c.author.t = ascii "authors" ∧ c.author.name = ascii "A" ∧ c.committer.name = ascii "B " ∧ c.encode ≠ oddCommit)
    | _ => false) = true := by decide +kernel
  split at h
  · rename_i c hc
    exact ⟨c, hc, of_decide_eq_true h⟩
  · cases h

example : ∃ c, Commit.decode c.encode = .ok c ∧ c.author.t = ascii "authors" := by
  obtain ⟨c, h, h2, _⟩ := oddCommit_decode
  exact ⟨c, C10_stable h, h2⟩

/-- **C61** For every stored commit that can be read, whatever it looks like, the commit generated for a sub-directory has its author, committer and message, the
given tree and no parents, and is recorded under the id of its content, from which it is read again; the content is the encoding of these fields and nothing else. -/
theorem C61_every (X : Ext) (row : CommitRow) (root : NodeRow) (c : Commit) (t : Hash) (hrow : Commit.decode row.data = .ok c) (hroot : root.gitId = Hash.toPlainStr t) :
    ∃ child, buildFromModel X row root = .ok child ∧
      Commit.decode child.base.data = .ok { treeId := t, parents := [], author := c.author, committer := c.committer, message := c.message } ∧
      MetaData.new X .commit child.base.data = .ok child.base ∧
      child.base.data = Commit.encode { treeId := t, parents := [], author := c.author, committer := c.committer, message := c.message } := by
  have hc := commit_decode_ok hrow
  have h2 : Hash.fromStr root.gitId = .ok t := by rw [hroot, Hash.fromStr, Hash.fromBytes_toPlainStr]; rfl
  have hc' : Spec.CommitOk { c with treeId := t, parents := [] } := ⟨hc.author, hc.author_line, hc.author_role, hc.committer, hc.committer_line, hc.message⟩
  obtain ⟨m, hm⟩ : ∃ m, MetaData.new X .commit (Commit.encode { c with treeId := t, parents := [] }) = .ok m := ⟨_, new_base X .commit _ rfl⟩
  have hd : m.data = Commit.encode { c with treeId := t, parents := [] } := (new_ok hm).2.2.1
  refine ⟨{ base := m, commit := { c with treeId := t, parents := [] } }, ?_, ?_, ?_, hd⟩
  · unfold buildFromModel
    rw [hrow, h2]
    simp only [Res.unwrap_ok, Res.bind_ok]
    rw [hm]
    rfl
  · simp only
    rw [hd, commit_decode_encode _ hc']
    rfl
  · simp only
    rw [hd]
    exact hm

example : ∃ child, buildFromModel demoExt { gitId := [], tree := [], data := oddCommit, repoPath := ascii "/r" }
      { gitId := Hash.toPlainStr ⟨List.replicate 20 7, by simp⟩, nodeType := ascii "tree", name := ascii "src", mode := ascii "40000", data := [] } = .ok child ∧
    ∃ c, Commit.decode child.base.data = .ok c ∧ c.author.t = ascii "authors" := by
  obtain ⟨c, h, h2, _⟩ := oddCommit_decode
  obtain ⟨child, k1, k2, _⟩ := C61_every demoExt { gitId := [], tree := [], data := oddCommit, repoPath := ascii "/r" }
    { gitId := Hash.toPlainStr ⟨List.replicate 20 7, by simp⟩, nodeType := ascii "tree", name := ascii "src", mode := ascii "40000", data := [] } c _ h rfl
  exact ⟨child, k1, _, k2, h2⟩

end Gust

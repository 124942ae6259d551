import Verif.Lemmas.Codec

/-! # C08 – C11: trees, identity lines, commits, tags -/

namespace Gust

/-- **C08** (entries survive). Decoding the encoding of any list of representable entries gives the same list. -/
theorem C08_tree_roundtrip (items : List TreeItem) (h : ∀ i ∈ items, Spec.TreeEntryOk i) :
    decodeTree (encodeTree items) = .ok items := by
  induction items with
  | nil => exact decodeTree_nil
  | cons i is ih =>
    have hi := decodeTreeItem_encode i (encodeTree is) (h i (by simp))
    have : encodeTree (i :: is) = encodeTreeItem i ++ encodeTree is := by simp [encodeTree]
    rw [this, decodeTree_cons hi, ih (fun j hj => h j (by simp [hj]))]
    rfl

/-- **C08** (bytes survive). Whatever the decoder accepts is reproduced byte for byte by re-encoding — hence also the
object (and its id) built from it is the same — and all decoded entries are representable. -/
theorem C08_tree_reencode (X : Ext) (data : Bytes) (items : List TreeItem) (h : decodeTree data = .ok items) :
    encodeTree items = data ∧ (∀ i ∈ items, Spec.TreeEntryOk i) ∧
      MetaData.new X .tree (encodeTree items) = MetaData.new X .tree data := by
  have key : encodeTree items = data ∧ (∀ i ∈ items, Spec.TreeEntryOk i) := by
    induction hn : data.length using Nat.strongRecOn generalizing data items with
    | _ n ih =>
      rcases decodeTree_ok_cases h with ⟨rfl, rfl⟩ | ⟨i, rest, is, hi, his, rfl⟩
      · simp [encodeTree]
      · have hs := decodeTreeItem_shrinks hi
        obtain ⟨e, ok⟩ := decodeTreeItem_ok hi
        obtain ⟨e', ok'⟩ := ih rest.length (by simpa [hn] using hs) rest is his rfl
        refine ⟨?_, ?_⟩
        · rw [e, ← e']; simp [encodeTree]
        · intro j hj
          rcases List.mem_cons.1 hj with rfl | hj
          · exact ok
          · exact ok' j hj
  exact ⟨key.1, key.2, by rw [key.1]⟩

/-- **C08** (acceptance). The decoder accepts exactly the concatenations of representable entries; everything else panics
or is an error. -/
theorem C08_tree_accepts_iff (data : Bytes) :
    (∃ items, decodeTree data = .ok items) ↔
      ∃ items, (∀ i ∈ items, Spec.TreeEntryOk i) ∧ data = encodeTree items := by
  constructor
  · rintro ⟨items, h⟩
    obtain ⟨h1, h2, _⟩ := C08_tree_reencode demoExt data items h
    exact ⟨items, h2, h1.symm⟩
  · rintro ⟨items, h, rfl⟩
    exact ⟨items, C08_tree_roundtrip items h⟩

/-- Example tree: a file with a space in its name and a directory. -/
def exampleItems : List TreeItem :=
  [{ mode := ascii "100664", itemType := .blob, id := Hash.zero, filename := ascii "a b" },
   { mode := ascii "40000", itemType := .tree, id := ⟨List.replicate 20 0x20, by simp⟩, filename := ascii "src" }]

theorem exampleItems_ok : ∀ i ∈ exampleItems, Spec.TreeEntryOk i := by
  have h1 : utf8Valid (ascii "a b") = true := utf8Valid_ascii _ (by decide)
  have h2 : utf8Valid (ascii "src") = true := utf8Valid_ascii _ (by decide)
  intro i hi
  simp only [exampleItems, List.mem_cons, List.not_mem_nil, or_false] at hi
  rcases hi with rfl | rfl
  · exact ⟨by simp, by decide, h1⟩
  · exact ⟨by simp, by decide, h2⟩

example : decodeTree (encodeTree exampleItems) = .ok exampleItems :=
  C08_tree_roundtrip _ exampleItems_ok

/-- **C09** Identity lines survive encoding and decoding. -/
theorem C09_sign_roundtrip (s : AuthorSign) (h : Spec.SignOk s) : AuthorSign.decode s.encode = .ok s :=
  sign_decode_encode s h

/-- The encoded line is the usual `role name <email> time zone`. -/
theorem C09_sign_format (s : AuthorSign) :
    s.encode = s.t ++ ascii " " ++ s.name ++ ascii " <" ++ s.email ++ ascii "> " ++ decStr s.timestamp ++
      ascii " " ++ s.timezone := by
  have e1 : ascii " " = [0x20] := by decide
  have e2 : ascii " <" = [0x20, 0x3C] := by decide
  have e3 : ascii "> " = [0x3E, 0x20] := by decide
  simp [AuthorSign.encode, e1, e2, e3]

/-- Two identities with the same line are the same identity. -/
theorem C09_sign_injective (s s' : AuthorSign) (h : Spec.SignOk s) (h' : Spec.SignOk s')
    (e : s.encode = s'.encode) : s = s' := by
  have h1 := sign_decode_encode s h
  rw [e, sign_decode_encode s' h'] at h1
  exact (Res.ok.inj h1).symm

/-- Example identity with spaces in the name. -/
def exampleSign (role : Bytes) : AuthorSign :=
  { t := role, name := ascii "Ada Q. Lovelace", email := ascii "ada@x.org", timestamp := 1684140000,
    timezone := ascii "+0800" }

theorem exampleSign_ok (role : Bytes) (h1 : (0x20 : UInt8) ∉ role) (h2 : (0x3C : UInt8) ∉ role)
    (h3 : (0x3E : UInt8) ∉ role) (h4 : utf8Valid role = true) : Spec.SignOk (exampleSign role) where
  t_space := h1
  t_lt := h2
  t_gt := h3
  name_lt := by simp only [exampleSign]; decide
  name_gt := by simp only [exampleSign]; decide
  email_gt := by simp only [exampleSign]; decide
  t_text := h4
  name_text := utf8Valid_ascii _ (by simp only [exampleSign]; decide)
  email_text := utf8Valid_ascii _ (by simp only [exampleSign]; decide)
  tz_text := utf8Valid_ascii _ (by simp only [exampleSign]; decide)
  time := by simp [exampleSign]

theorem exampleSign_line (role : Bytes) (h : (0x0a : UInt8) ∉ role) : Spec.OneLine (exampleSign role) where
  t := h
  name := by simp only [exampleSign]; decide
  email := by simp only [exampleSign]; decide
  timezone := by simp only [exampleSign]; decide

theorem author_text : utf8Valid (ascii "author") = true := utf8Valid_ascii _ (by decide)

example : AuthorSign.decode (exampleSign (ascii "author")).encode = .ok (exampleSign (ascii "author")) :=
  C09_sign_roundtrip _ (exampleSign_ok _ (by decide) (by decide) (by decide) author_text)

/-- **C10** for commits with at most one parent: full round trip. -/
theorem C10_commit_roundtrip_partial (c : Commit) (h : Spec.CommitOk c) (hp : c.parents.length ≤ 1) :
    Commit.decode c.encode = .ok c := by
  rw [commit_decode_encode c h]
  congr 1
  rcases c with ⟨tr, ps, a, b, m⟩
  match ps, hp with
  | [], _ => rfl
  | [p], _ => rfl

/-- **C10** what really happens for any number of parents: all but the parents survive, and the number of parents
survives, but each is read as the first one. -/
theorem C10_commit_parents_partial (c : Commit) (h : Spec.CommitOk c) :
    ∃ d, Commit.decode c.encode = .ok d ∧ d.treeId = c.treeId ∧ d.author = c.author ∧ d.committer = c.committer ∧
      d.message = c.message ∧ d.parents.length = c.parents.length ∧
      ∀ p ∈ d.parents, some p = c.parents.head? := by
  refine ⟨_, commit_decode_encode c h, rfl, rfl, rfl, rfl, ?_, ?_⟩
  · cases c.parents <;> simp [decodedParents]
  · intro p hp
    cases hc : c.parents with
    | nil => simp [hc, decodedParents] at hp
    | cons q qs =>
      simp only [hc, decodedParents] at hp
      simp [List.eq_of_mem_replicate hp]

/-- The commits that do survive are exactly those whose parents are all equal. -/
theorem C10_commit_roundtrip_iff (c : Commit) (h : Spec.CommitOk c) :
    Commit.decode c.encode = .ok c ↔ ∀ p ∈ c.parents, ∀ q ∈ c.parents, p = q := by
  rw [commit_decode_encode c h]
  constructor
  · intro e p hp q hq
    have e : decodedParents c.parents = c.parents := congrArg Commit.parents (Res.ok.inj e)
    cases hc : c.parents with
    | nil => simp [hc] at hp
    | cons r rs =>
      rw [hc, decodedParents] at e
      rw [hc, ← e] at hp hq
      rw [List.eq_of_mem_replicate hp, List.eq_of_mem_replicate hq]
  · intro e
    have : decodedParents c.parents = c.parents := by
      cases hc : c.parents with
      | nil => rfl
      | cons r rs =>
        rw [decodedParents]
        symm
        rw [List.eq_replicate_iff]
        exact ⟨by simp, fun b hb => e b (by rw [hc]; exact hb) r (by rw [hc]; simp)⟩
    rw [this]

/-- Example commits with any parents. -/
def exampleCommit (parents : List Hash) : Commit :=
  { treeId := Hash.zero, parents := parents, author := exampleSign (ascii "author"),
    committer := exampleSign (ascii "committer"), message := ascii "\nparent author fix\n" }

theorem exampleCommit_ok (ps : List Hash) : Spec.CommitOk (exampleCommit ps) where
  author := exampleSign_ok _ (by decide) (by decide) (by decide) author_text
  author_line := exampleSign_line _ (by decide)
  author_role := List.prefix_rfl
  committer := exampleSign_ok _ (by decide) (by decide) (by decide) (utf8Valid_ascii _ (by decide))
  committer_line := exampleSign_line _ (by decide)
  message := utf8Valid_ascii _ (by simp only [exampleCommit]; decide)

example : Commit.decode (exampleCommit [⟨List.replicate 20 7, by simp⟩]).encode =
    .ok (exampleCommit [⟨List.replicate 20 7, by simp⟩]) :=
  C10_commit_roundtrip_partial _ (exampleCommit_ok _) (by simp [exampleCommit])

/-- **C10 is false**: a merge commit with two different parents is not read back. -/
theorem C10_commit_roundtrip_false :
    ¬ ∀ c : Commit, Spec.CommitOk c → Commit.decode c.encode = .ok c := by
  intro h
  have h := (C10_commit_roundtrip_iff _ (exampleCommit_ok [Hash.zero, ⟨List.replicate 20 7, by simp⟩])).1
    (h _ (exampleCommit_ok _)) Hash.zero (by simp [exampleCommit]) ⟨List.replicate 20 7, by simp⟩
    (by simp [exampleCommit])
  revert h; decide

/-- **C11** exact characterisation: an annotated tag survives exactly when its message starts with a line feed. -/
theorem C11_tag_roundtrip_iff (g : Tag) (h : Spec.TagOk g) :
    Tag.decode g.encode = .ok g ↔ g.message.head? = some 0x0a := by
  rw [tag_decode_encode g h]
  constructor
  · intro e
    cases hf : findByte 0x0a g.message with
    | none => simp [hf] at e
    | some nl =>
      obtain ⟨pre, post, hm, hl, hpre⟩ := findByte_some hf
      rw [hf] at e
      simp only [Res.unwrapOpt_some, Res.bind_ok, Res.bind_eq_ok, Res.pure_eq, Res.ok.injEq] at e
      obtain ⟨m, hm', m', hm'', e⟩ := e
      have e := congrArg Tag.message e
      simp only at e
      have : m' = m := by
        rw [toStr] at hm''
        split at hm''
        · exact (Res.ok.inj hm'').symm
        · cases hm''
      obtain ⟨_, hd⟩ := sliceFrom_ok hm'
      rw [← e, this, hd, hm, ← hl]
      simp
  · intro e
    cases hm : g.message with
    | nil => simp [hm] at e
    | cons a post =>
      rw [hm] at e
      simp only [List.head?_cons, Option.some.injEq] at e
      subst e
      have h1 : findByte 0x0a (0x0a :: post) = some 0 := findByte_append 0x0a [] post (by simp)
      rw [← hm] at h1 ⊢
      simp only [h1, Res.unwrapOpt_some, Res.bind_ok, sliceFrom, Nat.zero_le, if_true, List.drop_zero,
        toStr_ok h.message, Res.pure_eq]

/-- **C11** for messages separated from the headers by the usual blank line. -/
theorem C11_tag_roundtrip_partial (g : Tag) (h : Spec.TagOk g) (rest : Bytes) (hm : g.message = 0x0a :: rest) :
    Tag.decode g.encode = .ok g :=
  (C11_tag_roundtrip_iff g h).2 (by rw [hm]; rfl)

/-- **C11** a message without any line feed makes the decoder panic. -/
theorem C11_tag_no_newline_panics (g : Tag) (h : Spec.TagOk g) (hm : (0x0a : UInt8) ∉ g.message) :
    Tag.decode g.encode = .panic := by
  rw [tag_decode_encode g h, findByte_none hm]
  rfl

/-- Example tags with any message. -/
def exampleTag (m : Bytes) : Tag :=
  { object := Hash.zero, t := .commit, tag := ascii "v1.0 rc", tagger := exampleSign (ascii "tagger"), message := m }

theorem exampleTag_ok (m : Bytes) (hm : utf8Valid m = true) : Spec.TagOk (exampleTag m) where
  target := .inl rfl
  name_line := by simp only [exampleTag]; decide
  name_text := utf8Valid_ascii _ (by simp only [exampleTag]; decide)
  tagger := exampleSign_ok _ (by decide) (by decide) (by decide) (utf8Valid_ascii _ (by decide))
  tagger_line := exampleSign_line _ (by decide)
  tagger_role := List.prefix_rfl
  message := hm

example : Tag.decode (exampleTag (ascii "\nRelease\n")).encode = .ok (exampleTag (ascii "\nRelease\n")) :=
  C11_tag_roundtrip_partial _ (exampleTag_ok _ (utf8Valid_ascii _ (by decide))) (ascii "Release\n")
    (by simp only [exampleTag]; decide)

example : Tag.decode (exampleTag (ascii "x")).encode = .panic :=
  C11_tag_no_newline_panics _ (exampleTag_ok _ (utf8Valid_ascii _ (by decide))) (by simp only [exampleTag]; decide)

/-- **C11 is false** for tags whose message does not start with a line feed: `hi⏎` comes back as `⏎`. -/
theorem C11_tag_roundtrip_false :
    ¬ ∀ g : Tag, Spec.TagOk g → Tag.decode g.encode = .ok g := by
  intro h
  have hok := exampleTag_ok (ascii "hi\n") (utf8Valid_ascii _ (by decide))
  have := (C11_tag_roundtrip_iff _ hok).1 (h _ hok)
  revert this
  simp only [exampleTag]; decide

end Gust

import Verif.Spec.Storage
import Verif.Lemmas.DemoSql
import Verif.Lemmas.Head
import Verif.Lemmas.LfsStore
import Verif.Props.Codec
import Verif.Lemmas.ObjMap

/-! # C54, C55, C61: HEAD, and commits generated for sub-directories -/

namespace Gust

/-! ## Paths -/

theorem relComps_tail : ∀ cs : List Bytes, (∀ c ∈ cs, Spec.NameOk c) → ∀ a : Bytes,
    relComps (a ++ cs.flatMap (fun d => 0x2f :: d)) = relComps a ++ cs
  | [], _, a => by simp
  | c :: cs, h, a => by
    obtain ⟨h1, h2, h3⟩ := h c (by simp)
    have e : a ++ (c :: cs).flatMap (fun d => 0x2f :: d) = a ++ 0x2f :: (c ++ cs.flatMap (fun d => 0x2f :: d)) := by simp
    have ih := relComps_tail cs (fun d hd => h d (by simp [hd])) c
    unfold relComps at ih ⊢
    rw [e, splitOn_glue, List.filter_append, ih, splitOn_plain _ _ h2]
    simp [h1, h3]

theorem components_pathText (abs : Bool) (cs : List Bytes) (h : ∀ c ∈ cs, Spec.NameOk c) :
    components (Spec.pathText abs cs) = (abs, cs) := by
  cases cs with
  | nil => cases abs <;> decide +kernel
  | cons c cs =>
    obtain ⟨h1, h2, h3⟩ := h c (by simp)
    have ht := relComps_tail cs (fun d hd => h d (by simp [hd]))
    have hc : relComps c = [c] := by
      unfold relComps
      rw [splitOn_plain _ _ h2]; simp [h1, h3]
    cases abs with
    | true =>
      have e : Spec.pathText true (c :: cs) = [] ++ (c :: cs).flatMap (fun d => 0x2f :: d) := by simp [Spec.pathText]
      have := relComps_tail (c :: cs) h []
      rw [← e] at this
      unfold components
      rw [show (splitOn 0x2f (Spec.pathText true (c :: cs))).filter (fun c => c ≠ [] ∧ c ≠ [0x2e]) = relComps (Spec.pathText true (c :: cs)) from rfl,
        this]
      simp [Spec.pathText, relComps, splitOn]
    | false =>
      have e : Spec.pathText false (c :: cs) = c ++ cs.flatMap (fun d => 0x2f :: d) := by simp [Spec.pathText]
      have := ht c
      rw [← e, hc] at this
      unfold components
      rw [show (splitOn 0x2f (Spec.pathText false (c :: cs))).filter (fun c => c ≠ [] ∧ c ≠ [0x2e]) = relComps (Spec.pathText false (c :: cs)) from rfl,
        this, e]
      obtain ⟨x, c, rfl⟩ := List.exists_cons_of_ne_nil h1
      have : x ≠ 0x2f := by rintro rfl; exact h2 (by simp)
      simp [this]

/-- Whole components decide. -/
theorem pathStartsWith_text (a b : Bool) (cs bs : List Bytes) (hc : ∀ c ∈ cs, Spec.NameOk c) (hb : ∀ c ∈ bs, Spec.NameOk c) :
    pathStartsWith (Spec.pathText a cs) (Spec.pathText b bs) = true ↔ (b = false ∧ bs = []) ∨ (a = b ∧ bs <+: cs) := by
  unfold pathStartsWith
  rw [components_pathText a cs hc, components_pathText b bs hb]
  simp

theorem notAbove_starts {abs : Bool} {cs : List Bytes} {p : Bytes} (hcs : ∀ c ∈ cs, Spec.NameOk c) (h : Spec.NotAbove abs cs p) :
    pathStartsWith (Spec.pathText abs cs) p = false ∧ p ≠ Spec.pathText abs cs := by
  obtain ⟨b, bs, e, hok, hne, hn⟩ := h
  constructor
  · rw [← Bool.not_eq_true, e, pathStartsWith_text _ _ _ _ hcs hok]
    rintro (⟨rfl, rfl⟩ | ⟨rfl, hp⟩)
    · exact hne (by rw [e]; rfl)
    · exact hn ⟨rfl, hp⟩
  · intro he
    rw [e] at he
    have := congrArg components he
    rw [components_pathText _ _ hok, components_pathText _ _ hcs] at this
    simp only [Prod.mk.injEq] at this
    exact hn ⟨this.1, by rw [this.2]⟩

/-! ## C54 -/

/-- **C54 (partial)** The HEAD of a path is the id of the master ref stored for exactly this path, if there is one, and asking changes nothing. (Missing
from the full claim: a path with a backslash, see `C54_backslash_false`; refs whose names the database takes for `refs/heads/master`,
see `C54_name_false`.) -/
theorem C54_exact_partial (X : Ext) (E : SqlExt) (db : Db) (path id : Bytes) (hb : (0x5c : UInt8) ∉ path)
    (hex : { repoPath := path, refName := ascii "refs/heads/master", refGitId := id } ∈ db.refs)
    (hu : ∀ r ∈ db.refs, r.repoPath = path → Spec.isMaster E.fold r → r.refGitId = id) :
    getHeadObjectId X E db path = (.ok id, db) := by
  have hl : E.like path path = true := by simpa using E.like_prefix path [] hb
  unfold getHeadObjectId
  cases h1 : (searchRefs E db path).find? (fun r => path == r.repoPath) with
  | some r =>
    have hm := mem_searchRefs.1 (List.mem_of_find?_eq_some h1)
    have he := List.find?_some h1
    simp only [beq_iff_eq] at he
    simp only [Prod.mk.injEq, Res.ok.injEq, and_true]
    exact hu r hm.1 he.symm hm.2.2
  | none =>
    have := List.find?_eq_none.1 h1 _ (mem_searchRefs.2 ⟨hex, hl, rfl⟩)
    simp at this

/-- **C54 (partial)** The zero id is answered when the path of no master ref is an ancestor of the path, whatever else the database returns. -/
theorem C54_no_ancestor (X : Ext) (E : SqlExt) (db : Db) (abs : Bool) (cs : List Bytes) (hcs : ∀ c ∈ cs, Spec.NameOk c)
    (h : ∀ r ∈ db.refs, Spec.isMaster E.fold r → Spec.NotAbove abs cs r.repoPath) :
    getHeadObjectId X E db (Spec.pathText abs cs) = (.ok zeroId, db) := by
  have hno : ∀ r ∈ searchRefs E db (Spec.pathText abs cs), pathStartsWith (Spec.pathText abs cs) r.repoPath = false ∧
      r.repoPath ≠ Spec.pathText abs cs := by
    intro r hr
    obtain ⟨h1, _, h3⟩ := mem_searchRefs.1 hr
    exact notAbove_starts hcs (h r h1 h3)
  unfold getHeadObjectId
  rw [List.find?_eq_none.2 (fun r hr => by simpa using fun e => (hno r hr).2 e.symm),
    List.find?_eq_none.2 (fun r hr => by simpa using (hno r hr).1)]

/-- **C54 (partial)** Asking again gives the same answer and changes nothing more, even if the database returns rows in another order, provided that
the generated ref (if any) was accepted by the database. -/
theorem C54_stable_partial (X : Ext) (E E' : SqlExt) (hf : E'.fold = E.fold) (hl : E'.like = E.like) (db db' : Db) (path id : Bytes)
    (hb : (0x5c : UInt8) ∉ path) (hid : id ≠ zeroId)
    (hacc : ∀ n rows, E.acceptRefs n rows = true)
    (hu : ∀ r ∈ db.refs, ∀ r' ∈ db.refs, r.repoPath = path → r'.repoPath = path → Spec.isMaster E.fold r → Spec.isMaster E.fold r' →
      r.refGitId = r'.refGitId)
    (h : getHeadObjectId X E db path = (.ok id, db')) :
    getHeadObjectId X E' db' path = (.ok id, db') := by
  have hlp : E.like path path = true := by simpa using E.like_prefix path [] hb
  have key : ∀ (r0 : RefRow), r0 ∈ db'.refs → r0.repoPath = path → Spec.isMaster E.fold r0 →
      (∀ r ∈ db'.refs, r.repoPath = path → Spec.isMaster E.fold r → r.refGitId = id) →
      getHeadObjectId X E' db' path = (.ok id, db') := by
    intro r0 hm hp hn hall
    unfold getHeadObjectId
    cases h1 : (searchRefs E' db' path).find? (fun r => path == r.repoPath) with
    | some r =>
      have hm := mem_searchRefs.1 (List.mem_of_find?_eq_some h1)
      have he := List.find?_some h1
      simp only [beq_iff_eq] at he
      rw [hf] at hm
      simp only [Prod.mk.injEq, Res.ok.injEq, and_true]
      exact hall r hm.1 he.symm hm.2.2
    | none =>
      have := List.find?_eq_none.1 h1 r0 (mem_searchRefs.2 ⟨hm, by rw [hl, hp]; exact hlp, by rw [hf]; exact hn⟩)
      simp [hp] at this
  rcases getHead_ok h with ⟨r, hm, hp, rfl, rfl⟩ | ⟨hno, ⟨r, hm, _, hg⟩ | ⟨_, rfl, _⟩⟩
  · obtain ⟨h1, _, h3⟩ := mem_searchRefs.1 hm
    exact key r h1 hp h3 (fun r' h' hp' hn' => hu r' h' r h1 hp' hp hn' h3)
  · rcases generateChild_ok hg with ⟨⟨g⟩⟩ | ⟨_, rfl, _⟩
    · have hr : db'.refs = db.refs ++ [{ repoPath := path, refName := r.refName, refGitId := id }] := by
        rw [g.db_eq]; simp [hacc]
      obtain ⟨_, _, h3⟩ := mem_searchRefs.1 hm
      refine key { repoPath := path, refName := r.refName, refGitId := id } (by rw [hr]; simp) rfl h3 ?_
      intro r' h' hp' hn'
      rw [hr, List.mem_append] at h'
      rcases h' with h' | h'
      · exact absurd hp' (hno r' (mem_searchRefs.2 ⟨h', by rw [hp']; exact hlp, hn'⟩))
      · simp at h'; rw [h']
    · exact absurd rfl hid
  · exact absurd rfl hid

/-- Two ids for examples. -/
def headIdA : Bytes := List.replicate 40 0x61
def headIdB : Bytes := List.replicate 40 0x62

example : getHeadObjectId demoExt demoSql { Db.empty with refs :=
      [{ repoPath := ascii "/other", refName := ascii "refs/heads/master", refGitId := headIdB },
       { repoPath := ascii "/repo", refName := ascii "refs/heads/master", refGitId := headIdA }] } (ascii "/repo") =
    (.ok headIdA, { Db.empty with refs :=
      [{ repoPath := ascii "/other", refName := ascii "refs/heads/master", refGitId := headIdB },
       { repoPath := ascii "/repo", refName := ascii "refs/heads/master", refGitId := headIdA }] }) := by decide +kernel

/-- A string that merely begins with a stored path is not below it. -/
example : getHeadObjectId demoExt demoSql { Db.empty with refs :=
      [{ repoPath := ascii "/repo", refName := ascii "refs/heads/master", refGitId := headIdB }] } (ascii "/repo2") =
    (.ok zeroId, { Db.empty with refs := [{ repoPath := ascii "/repo", refName := ascii "refs/heads/master", refGitId := headIdB }] }) := by
  decide +kernel

/-- **C54 is false**: a repository whose path has a backslash has a master ref, but HEAD is the zero id. -/
theorem C54_backslash_false : ∃ (E : SqlExt) (db : Db) (path id : Bytes),
    db.refs = [{ repoPath := path, refName := ascii "refs/heads/master", refGitId := id }] ∧ id ≠ zeroId ∧
    getHeadObjectId demoExt E db path = (.ok zeroId, db) :=
  ⟨demoSql, { Db.empty with refs := [{ repoPath := ascii "/a\\b", refName := ascii "refs/heads/master", refGitId := headIdA }] },
    ascii "/a\\b", headIdA, rfl, by decide +kernel, by decide +kernel⟩

/-- **C54 is false**: a branch `Master` is taken for `master`. -/
theorem C54_name_false : ∃ (E : SqlExt) (db : Db) (path : Bytes), getHeadObjectId demoExt E db path = (.ok headIdB, db) ∧
    db.refs = [{ repoPath := path, refName := ascii "refs/heads/Master", refGitId := headIdB },
      { repoPath := path, refName := ascii "refs/heads/master", refGitId := headIdA }] :=
  ⟨demoSql, { Db.empty with refs := [{ repoPath := ascii "/r", refName := ascii "refs/heads/Master", refGitId := headIdB },
      { repoPath := ascii "/r", refName := ascii "refs/heads/master", refGitId := headIdA }] }, ascii "/r", by decide +kernel, rfl⟩

/-! ## C61 -/

/-- **C61** Whatever is stored: the generated commit has the fields read from the stored commit, the given tree and no parents; its content is
its encoding and its id is the id of this content. -/
theorem C61_generated_fields (X : Ext) (row : CommitRow) (root : NodeRow) (child : CommitObj) (h : buildFromModel X row root = .ok child) :
    ∃ c, Commit.decode row.data = .ok c ∧ child.commit.author = c.author ∧ child.commit.committer = c.committer ∧
      child.commit.message = c.message ∧ child.commit.parents = [] ∧ Hash.fromBytes root.gitId = some child.commit.treeId ∧
      child.base.t = .commit ∧ child.base.data = child.commit.encode ∧
      child.base.id = X.sha1 (ascii "commit " ++ decStr child.base.data.length ++ [0] ++ child.base.data) := by
  simp only [buildFromModel, Res.bind_eq_ok, Res.pure_eq, Res.ok.injEq, Res.unwrap_eq_ok] at h
  obtain ⟨c, h1, t, h2, m, h3, rfl⟩ := h
  have h4 : Hash.fromBytes root.gitId = some t := by
    unfold Hash.fromStr Res.okOr at h2
    cases hh : Hash.fromBytes root.gitId with
    | none => rw [hh] at h2; simp at h2
    | some x => rw [hh] at h2; simp at h2; rw [h2]
  rw [new_base X .commit _ rfl, Res.ok.injEq] at h3
  subst h3
  refine ⟨c, h1, rfl, rfl, rfl, rfl, h4, rfl, rfl, ?_⟩
  simp only
  congr 1

/-- **C61** For a well-formed commit with any number of parents the copy succeeds, and reading the recorded content back gives the parent commit's author,
committer and message, the given tree and no parents. -/
theorem C61_faithful_copy (X : Ext) (row : CommitRow) (root : NodeRow) (c : Commit) (t : Hash) (hc : Spec.CommitOk c) (hrow : row.data = c.encode)
    (hroot : root.gitId = Hash.toPlainStr t) :
    ∃ child, buildFromModel X row root = .ok child ∧
      Commit.decode child.base.data = .ok { treeId := t, parents := [], author := c.author, committer := c.committer, message := c.message } ∧
      MetaData.new X .commit child.base.data = .ok child.base := by
  have h1 : Commit.decode row.data = .ok { c with parents := decodedParents c.parents } := by rw [hrow, commit_decode_encode c hc]
  have h2 : Hash.fromStr root.gitId = .ok t := by rw [hroot, Hash.fromStr, Hash.fromBytes_toPlainStr]; rfl
  have hc' : Spec.CommitOk { c with treeId := t, parents := [] } := ⟨hc.author, hc.author_line, hc.author_role, hc.committer, hc.committer_line, hc.message⟩
  obtain ⟨m, hm⟩ : ∃ m, MetaData.new X .commit (Commit.encode { c with treeId := t, parents := [] }) = .ok m := ⟨_, new_base X .commit _ rfl⟩
  have hd : m.data = Commit.encode { c with treeId := t, parents := [] } := (new_ok hm).2.2.1
  refine ⟨{ base := m, commit := { c with treeId := t, parents := [] } }, ?_, ?_, ?_⟩
  · unfold buildFromModel
    rw [h1, h2]
    simp only [Res.unwrap_ok, Res.bind_ok]
    rw [hm]
    rfl
  · simp only
    rw [hd, commit_decode_encode _ hc']
    rfl
  · simp only
    rw [hd]
    exact hm

/-- **C61** What a generated HEAD leaves in storage: when the database accepts, the commit is recorded for the path under the id of its content, and a ref of the
path has this id. -/
theorem C61_recorded (X : Ext) (E : SqlExt) (db db' : Db) (ref : RefRow) (path id : Bytes) (hid : id ≠ zeroId)
    (hc : ∀ n rows, E.acceptCommits n rows = true) (hr : ∀ n rows, E.acceptRefs n rows = true)
    (h : generateChild X E ref path db = (.ok id, db')) :
    ∃ row m, db'.commits = db.commits ++ [row] ∧ MetaData.new X .commit row.data = .ok m ∧ row.gitId = Hash.toPlainStr m.id ∧
      row.repoPath = path ∧ id = row.gitId ∧
      db'.refs = db.refs ++ [{ repoPath := path, refName := ref.refName, refGitId := id }] ∧ db'.nodes = db.nodes := by
  rcases generateChild_ok h with ⟨⟨rc, root, child, _, _, _, hb, rfl, rfl⟩⟩ | ⟨_, e, _⟩
  · simp only [buildFromModel, Res.bind_eq_ok, Res.pure_eq, Res.ok.injEq, Res.unwrap_eq_ok] at hb
    obtain ⟨c, _, t, _, m, h3, rfl⟩ := hb
    refine ⟨CommitObj.row { base := m, commit := { c with treeId := t, parents := [] } } path, m, ?_, ?_, rfl, rfl, rfl, ?_, rfl⟩
    · simp only [hc, if_true]
    · show MetaData.new X .commit m.data = _
      rw [(new_ok h3).2.2.1]
      exact h3
    · simp only [hr, if_true]
  · exact absurd e hid

example : ∃ child, buildFromModel demoExt { gitId := [], tree := [], data := (exampleCommit [Hash.zero, Hash.zero]).encode, repoPath := ascii "/r" }
      { gitId := Hash.toPlainStr ⟨List.replicate 20 7, by simp⟩, nodeType := ascii "tree", name := ascii "src", mode := ascii "40000", data := [] } = .ok child ∧
    Commit.decode child.base.data = .ok { exampleCommit [] with treeId := ⟨List.replicate 20 7, by simp⟩ } ∧
    MetaData.new demoExt .commit child.base.data = .ok child.base :=
  C61_faithful_copy demoExt _ _ (exampleCommit [Hash.zero, Hash.zero]) _ (exampleCommit_ok _) rfl rfl

/-! ## C55 -/

theorem fileName_text (abs : Bool) (cs : List Bytes) (c : Bytes) (h : ∀ d ∈ cs ++ [c], Spec.NameOk d) (hc : c ≠ [0x2e, 0x2e]) :
    fileName (Spec.pathText abs (cs ++ [c])) = some c := by
  unfold fileName
  rw [components_pathText _ _ h]
  simp [hc]

/-- **C55 (partial)** The first HEAD request for a sub-directory whose name occurs nowhere else: `base` is the only stored repository above the path, its
master commit is `c`, and every stored node named like the sub-directory is the one found by following the path down from the tree of `c`.
Then HEAD is a commit with exactly this tree, with author, committer and message of `c`. (Missing from the full claim: other nodes with
the name, see `C55_wrong_directory_false`; later requests, see `C55_never_updated`.) -/
theorem C55_subdirectory_partial (X : Ext) (E : SqlExt) (db : Db) (abs : Bool) (base below : List Bytes) (name : Bytes) (ref : RefRow)
    (row : CommitRow) (c : Commit) (hok : ∀ d ∈ base ++ below ++ [name], Spec.NameOk d) (hdd : name ≠ [0x2e, 0x2e])
    (hbase : abs = true ∨ base ≠ [])
    (hb : (0x5c : UInt8) ∉ Spec.pathText abs base)
    (href : ref ∈ db.refs) (hrp : ref.repoPath = Spec.pathText abs base) (hrn : Spec.isMaster E.fold ref)
    (huniq : ∀ r ∈ db.refs, Spec.isMaster E.fold r → r = ref ∨ Spec.NotAbove abs (base ++ below ++ [name]) r.repoPath)
    (hrow : row ∈ db.commits) (hcu : ∀ r ∈ db.commits, E.fold r.gitId = E.fold ref.refGitId ↔ r = row)
    (hc : Spec.CommitOk c) (hdata : row.data = c.encode)
    (hsome : ∃ n ∈ db.nodes, E.fold n.name = E.fold name)
    (hnodes : ∀ n ∈ db.nodes, E.fold n.name = E.fold name →
      some n.gitId = (Spec.follow db.nodes c.treeId (below ++ [name])).map Hash.toPlainStr) :
    ∃ (t : Hash) (child : CommitObj) (db' : Db), Spec.follow db.nodes c.treeId (below ++ [name]) = some t ∧
      getHeadObjectId X E db (Spec.pathText abs (base ++ below ++ [name])) = (.ok (Hash.toPlainStr child.base.id), db') ∧
      MetaData.new X .commit child.base.data = .ok child.base ∧
      Commit.decode child.base.data = .ok { treeId := t, parents := [], author := c.author, committer := c.committer, message := c.message } := by
  set path := Spec.pathText abs (base ++ below ++ [name]) with hpath
  obtain ⟨n0, hn0, hn0'⟩ := hsome
  have hf0 := hnodes n0 hn0 hn0'
  obtain ⟨t, ht⟩ : ∃ t, Spec.follow db.nodes c.treeId (below ++ [name]) = some t := by
    cases hh : Spec.follow db.nodes c.treeId (below ++ [name]) with
    | none => rw [hh] at hf0; cases hf0
    | some t => exact ⟨t, rfl⟩
  have hokb : ∀ d ∈ base, Spec.NameOk d := fun d hd => hok d (by simp [hd])
  have hstart : pathStartsWith path ref.repoPath = true := by
    rw [hrp, hpath, pathStartsWith_text _ _ _ _ hok hokb]
    exact .inr ⟨rfl, by rw [List.append_assoc]; exact List.prefix_append _ _⟩
  have hne : ref.repoPath ≠ path := by
    intro e
    rw [hrp] at e
    have := congrArg components e
    rw [hpath, components_pathText _ _ hokb, components_pathText _ _ hok] at this
    simp only [Prod.mk.injEq, true_and] at this
    have := congrArg List.length this
    simp at this
  have hlike : E.like path ref.repoPath = true := by
    obtain ⟨tail, ht⟩ : ∃ tail, path = ref.repoPath ++ tail := by
      rw [hrp, hpath]
      cases base with
      | nil =>
        simp at hbase; subst hbase
        cases below <;> exact ⟨_, rfl⟩
      | cons b bs => exact ⟨(below ++ [name]).flatMap (fun d => 0x2f :: d), by simp [Spec.pathText]⟩
    rw [ht]
    exact E.like_prefix _ _ (by rw [hrp]; exact hb)
  have hroot : ∃ root, searchRootNode E db path = .ok (some root) ∧ root.gitId = Hash.toPlainStr t := by
    have hfn : fileName path = some name := by
      rw [hpath]; exact fileName_text abs (base ++ below) name hok hdd
    obtain ⟨root, hr1, hr2⟩ := order_head_some E (l := db.nodes.filter (fun n => E.fold n.name == E.fold name)) (by
      intro e
      have : n0 ∈ db.nodes.filter (fun n => E.fold n.name == E.fold name) := by rw [List.mem_filter]; simp [hn0, hn0']
      rw [e] at this; cases this)
    rw [List.mem_filter, beq_iff_eq] at hr1
    refine ⟨root, ?_, ?_⟩
    · unfold searchRootNode
      rw [hfn]
      simp only [Res.unwrapOpt, Res.bind_ok, hr2]
      rfl
    · have := hnodes root hr1.1 hr1.2
      rw [ht] at this
      simpa using this
  obtain ⟨root, hr1, hr2⟩ := hroot
  obtain ⟨child, hb1, hb2, hb3⟩ := C61_faithful_copy X row root c t hc hdata hr2
  have hcommit : (E.order (db.commits.filter (fun r => E.fold r.gitId == E.fold ref.refGitId))).head? = some row := by
    obtain ⟨x, hx1, hx2⟩ := order_head_some E (l := db.commits.filter (fun r => E.fold r.gitId == E.fold ref.refGitId)) (by
      intro e
      have : row ∈ db.commits.filter (fun r => E.fold r.gitId == E.fold ref.refGitId) := by
        rw [List.mem_filter, beq_iff_eq]; exact ⟨hrow, (hcu row hrow).2 rfl⟩
      rw [e] at this; cases this)
    rw [List.mem_filter, beq_iff_eq] at hx1
    rw [hx2, (hcu x hx1.1).1 hx1.2]
  obtain ⟨db', hg⟩ : ∃ db', generateChild X E ref path db = (.ok (Hash.toPlainStr child.base.id), db') := by
    unfold generateChild
    rw [hcommit]
    simp only
    rw [hr1]
    simp only
    rw [hb1]
    exact ⟨_, rfl⟩
  refine ⟨t, child, db', ht, ?_, hb3, hb2⟩
  unfold getHeadObjectId
  have hall : ∀ r ∈ searchRefs E db path, r.repoPath ≠ path ∧ (pathStartsWith path r.repoPath = true → r = ref) := by
    intro r hr
    obtain ⟨h1, _, h3⟩ := mem_searchRefs.1 hr
    rcases huniq r h1 h3 with rfl | h4
    · exact ⟨hne, fun _ => rfl⟩
    · obtain ⟨h4, h5⟩ := notAbove_starts hok h4
      exact ⟨h5, fun e => by rw [h4] at e; cases e⟩
  rw [List.find?_eq_none.2 (fun r hr => by simpa using fun e => (hall r hr).1 e.symm)]
  simp only
  cases h2 : (searchRefs E db path).find? (fun r => pathStartsWith path r.repoPath) with
  | some r =>
    have hs := List.find?_some h2
    have e := (hall r (List.mem_of_find?_eq_some h2)).2 hs
    rw [e]
    exact hg
  | none =>
    have := List.find?_eq_none.1 h2 ref (mem_searchRefs.2 ⟨href, hlike, hrn⟩)
    rw [hstart] at this
    simp at this

/-- **C55 is false**: once HEAD of a sub-directory has been answered with a commit, the answer stays the same whatever is pushed to the parent repository: any
later state in which the refs of this very path are the same gives the same HEAD. -/
theorem C55_never_updated (X : Ext) (E : SqlExt) (db db1 db2 : Db) (path id : Bytes) (hb : (0x5c : UInt8) ∉ path) (hid : id ≠ zeroId)
    (hacc : ∀ n rows, E.acceptRefs n rows = true)
    (hno : ∀ r ∈ db.refs, r.repoPath ≠ path)
    (h : getHeadObjectId X E db path = (.ok id, db1))
    (hsame : db2.refs.filter (fun r => r.repoPath == path) = db1.refs.filter (fun r => r.repoPath == path)) :
    getHeadObjectId X E db2 path = (.ok id, db2) := by
  have hlp : E.like path path = true := by simpa using E.like_prefix path [] hb
  rcases getHead_ok h with ⟨r, hm, hp, _, _⟩ | ⟨_, ⟨r, hm, _, hg⟩ | ⟨_, e, _⟩⟩
  · exact absurd hp (hno r (mem_searchRefs.1 hm).1)
  · rcases generateChild_ok hg with ⟨⟨g⟩⟩ | ⟨_, e, _⟩
    · have hr : db1.refs = db.refs ++ [{ repoPath := path, refName := r.refName, refGitId := id }] := by
        rw [g.db_eq]; simp [hacc]
      have hf : db2.refs.filter (fun r => r.repoPath == path) = [{ repoPath := path, refName := r.refName, refGitId := id }] := by
        rw [hsame, hr, List.filter_append, List.filter_eq_nil_iff.2 (by intro x hx; simpa using hno x hx)]
        simp
      have hmem : ∀ x, x ∈ db2.refs ∧ x.repoPath = path ↔ x = { repoPath := path, refName := r.refName, refGitId := id } := by
        intro x
        have : x ∈ db2.refs.filter (fun r => r.repoPath == path) ↔ x ∈ db2.refs ∧ x.repoPath = path := by rw [List.mem_filter]; simp
        rw [← this, hf]; simp
      obtain ⟨_, _, h3⟩ := mem_searchRefs.1 hm
      unfold getHeadObjectId
      cases h1 : (searchRefs E db2 path).find? (fun r => path == r.repoPath) with
      | some x =>
        have hm := mem_searchRefs.1 (List.mem_of_find?_eq_some h1)
        have he := List.find?_some h1
        simp only [beq_iff_eq] at he
        have := (hmem x).1 ⟨hm.1, he.symm⟩
        simp only [this]
      | none =>
        have hx := (hmem { repoPath := path, refName := r.refName, refGitId := id }).2 rfl
        have := List.find?_eq_none.1 h1 _ (mem_searchRefs.2 ⟨hx.1, hlp, h3⟩)
        simp at this
    · exact absurd e hid
  · exact absurd e hid

/-- A toy 20-byte digest that depends on all bytes. -/
def polySha1 (d : Bytes) : Hash :=
  let n := d.foldl (fun a b => (a * 257 + b.toNat + 1) % (2 ^ 160 - 47)) 7
  ⟨(List.range 20).map (fun i => UInt8.ofNat (n >>> (8 * i))), by simp⟩

/-- `demoExt` with this digest. -/
def polyExt : Ext := { demoExt with sha1 := polySha1 }

/-- The id of an object. -/
def polyId (t : ObjectType) (data : Bytes) : Hash :=
  match MetaData.new polyExt t data with
  | .ok m => m.id
  | _ => Hash.zero

/-- An item of a tree. -/
def dirItem (name : String) (id : Hash) : TreeItem := { mode := ascii "40000", itemType := .tree, id := id, filename := ascii name }
def fileItem (name : String) (id : Hash) : TreeItem := { mode := ascii "100644", itemType := .blob, id := id, filename := ascii name }

/-- A stored tree. -/
def treeRow (name : String) (items : List TreeItem) : NodeRow :=
  { gitId := Hash.toPlainStr (polyId .tree (encodeTree items)), nodeType := ascii "tree", name := ascii name, mode := ascii "40000",
    data := encodeTree items }

/-- A repository with `lib/src/a` and `src/b`: contents of the four trees. -/
def srcA : List TreeItem := [fileItem "a" (polyId .blob (ascii "one"))]
def srcB : List TreeItem := [fileItem "b" (polyId .blob (ascii "two"))]
def libItems : List TreeItem := [dirItem "src" (polyId .tree (encodeTree srcA))]
def rootItems : List TreeItem := [dirItem "lib" (polyId .tree (encodeTree libItems)), dirItem "src" (polyId .tree (encodeTree srcB))]

/-- Its commit. -/
def dirCommit : Commit := { exampleCommit [] with treeId := polyId .tree (encodeTree rootItems) }

theorem dirCommit_ok : Spec.CommitOk dirCommit :=
  ⟨(exampleCommit_ok []).author, (exampleCommit_ok []).author_line, (exampleCommit_ok []).author_role, (exampleCommit_ok []).committer,
    (exampleCommit_ok []).committer_line, (exampleCommit_ok []).message⟩

/-- The ref of the repository. -/
def dirRef : RefRow :=
  { repoPath := ascii "/p", refName := ascii "refs/heads/master", refGitId := Hash.toPlainStr (polyId .commit dirCommit.encode) }

/-- The row of the commit. -/
def dirRow : CommitRow :=
  { gitId := Hash.toPlainStr (polyId .commit dirCommit.encode), tree := Hash.toPlainStr (polyId .tree (encodeTree rootItems)),
    data := dirCommit.encode, repoPath := ascii "/p" }

/-- The database after a push of the repository to `/p` (blobs left out). -/
def dirDb : Db :=
  { nodes := [treeRow "" rootItems, treeRow "lib" libItems, treeRow "src" srcA, treeRow "src" srcB]
    commits := [dirRow], refs := [dirRef], inserts := 3 }

theorem dirItem_ok (name : String) (id : Hash) (h : ∀ x ∈ ascii name, 0 < x.toNat ∧ x.toNat < 128) : Spec.TreeEntryOk (dirItem name id) :=
  ⟨by simp [dirItem], fun h0 => by have := (h _ h0).1; simp at this, utf8Valid_ascii _ (fun x hx => (h x hx).2)⟩

theorem rootItems_ok : ∀ i ∈ rootItems, Spec.TreeEntryOk i := by
  intro i hi
  simp only [rootItems, List.mem_cons, List.not_mem_nil, or_false] at hi
  rcases hi with rfl | rfl
  · exact dirItem_ok "lib" _ (by decide)
  · exact dirItem_ok "src" _ (by decide)

theorem dirDb_src : Spec.follow dirDb.nodes dirCommit.treeId [ascii "src"] = some (polyId .tree (encodeTree srcB)) := by
  rw [Spec.follow, show dirDb.nodes.find? (fun n => n.gitId == Hash.toPlainStr dirCommit.treeId && n.nodeType == ascii "tree") =
    some (treeRow "" rootItems) from by decide +kernel]
  simp only [treeRow]
  rw [C08_tree_roundtrip rootItems rootItems_ok]
  decide +kernel

theorem dirDb_lib : Spec.follow dirDb.nodes dirCommit.treeId [ascii "lib"] = some (polyId .tree (encodeTree libItems)) := by
  rw [Spec.follow, show dirDb.nodes.find? (fun n => n.gitId == Hash.toPlainStr dirCommit.treeId && n.nodeType == ascii "tree") =
    some (treeRow "" rootItems) from by decide +kernel]
  simp only [treeRow]
  rw [C08_tree_roundtrip rootItems rootItems_ok]
  decide +kernel

/-- The name `lib` occurs once, so HEAD of `/p/lib` is right. -/
example : ∃ (t : Hash) (child : CommitObj) (db' : Db), Spec.follow dirDb.nodes dirCommit.treeId [ascii "lib"] = some t ∧
      getHeadObjectId polyExt demoSql dirDb (ascii "/p/lib") = (.ok (Hash.toPlainStr child.base.id), db') ∧
      MetaData.new polyExt .commit child.base.data = .ok child.base ∧
      Commit.decode child.base.data =
        .ok { treeId := t, parents := [], author := dirCommit.author, committer := dirCommit.committer, message := dirCommit.message } := by
  refine C55_subdirectory_partial polyExt demoSql dirDb true [ascii "p"] [] (ascii "lib") dirRef dirRow dirCommit (by unfold Spec.NameOk; decide +kernel)
    (by decide +kernel) (by simp) (by decide +kernel) (by decide +kernel) (by decide +kernel) (by unfold Spec.isMaster; decide +kernel) ?_ (by decide +kernel)
    ?_ dirCommit_ok rfl ⟨treeRow "lib" libItems, by decide +kernel, by decide +kernel⟩ ?_
  · intro r hr _
    exact .inl (by simpa [dirDb] using hr)
  · intro r hr
    have : r = dirRow := by simpa [dirDb] using hr
    subst this
    exact ⟨fun _ => rfl, fun _ => rfl⟩
  · simp only [List.nil_append]
    rw [dirDb_lib]
    decide +kernel

/-- **C55 is false**: in a repository with directories `lib/src` and `src`, HEAD of `/p/src` is a commit of the tree `lib/src`. -/
theorem C55_wrong_directory_false : ∃ (db db' : Db) (child : CommitObj) (c : Commit) (right : Hash),
    db.refs = [dirRef] ∧ dirRef.repoPath = ascii "/p" ∧
    Spec.follow db.nodes dirCommit.treeId [ascii "src"] = some right ∧
    getHeadObjectId polyExt demoSql db (ascii "/p/src") = (.ok (Hash.toPlainStr child.base.id), db') ∧
    Commit.decode child.base.data = .ok c ∧ c.treeId ≠ right := by
  obtain ⟨child, h1, h2, h3⟩ := C61_faithful_copy polyExt dirRow (treeRow "src" srcA) dirCommit (polyId .tree (encodeTree srcA)) dirCommit_ok rfl rfl
  obtain ⟨db', hg⟩ : ∃ db', getHeadObjectId polyExt demoSql dirDb (ascii "/p/src") = (.ok (Hash.toPlainStr child.base.id), db') := by
    unfold getHeadObjectId
    rw [show (searchRefs demoSql dirDb (ascii "/p/src")).find? (fun r => ascii "/p/src" == r.repoPath) = none from by decide +kernel,
      show (searchRefs demoSql dirDb (ascii "/p/src")).find? (fun r => pathStartsWith (ascii "/p/src") r.repoPath) = some dirRef from by decide +kernel]
    simp only
    unfold generateChild
    rw [show (demoSql.order (dirDb.commits.filter (fun c => demoSql.fold c.gitId == demoSql.fold dirRef.refGitId))).head? = some dirRow from by
      decide +kernel]
    simp only
    rw [show searchRootNode demoSql dirDb (ascii "/p/src") = .ok (some (treeRow "src" srcA)) from by decide +kernel]
    simp only
    rw [h1]
    exact ⟨_, rfl⟩
  exact ⟨dirDb, db', child, _, _, rfl, rfl, dirDb_src, hg, h2, by decide +kernel⟩

end Gust

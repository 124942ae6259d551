import Verif.Props.Stable
import Verif.Props.RefsShown

/-! # C99: asking for the refs of a repository -/

namespace Gust

/-- The parts of a path between slashes, without empty parts and parts `.`. -/
def Spec.parts (u : Bytes) : List Bytes := (splitOn 0x2f u).filter (fun c => c ≠ [] ∧ c ≠ [0x2e])

/-- The name a path ends in: the last part, unless it is `..`. -/
def Spec.lastName (u : Bytes) : Option Bytes :=
  match (Spec.parts u).getLast? with
  | none => none
  | some c => if c = ascii ".." then none else some c

/-- The path is `u` or a directory above it. -/
def Spec.DirAbove (p u : Bytes) : Prop :=
  (p.head? ≠ some 0x2f ∧ Spec.parts p = []) ∨ ((p.head? = some 0x2f ↔ u.head? = some 0x2f) ∧ Spec.parts p <+: Spec.parts u)

theorem fileName_lastName (u : Bytes) : fileName u = Spec.lastName u := by
  unfold fileName Spec.lastName
  rw [show ascii ".." = [0x2e, 0x2e] from by decide]
  change (match (Spec.parts u).getLast? with | some c => if c = [0x2e, 0x2e] then none else some c | none => none) = _
  cases (Spec.parts u).getLast? <;> rfl

theorem above_of_startsWith {u p : Bytes} (h : pathStartsWith u p = true) : Spec.DirAbove p u := by
  simp only [pathStartsWith, components, Bool.or_eq_true, beq_iff_eq, Prod.mk.injEq, Bool.and_eq_true, List.isPrefixOf_iff_prefix] at h
  rcases h with ⟨h1, h2⟩ | ⟨h1, h2⟩
  · exact .inl ⟨by simpa using h1, h2⟩
  · refine .inr ⟨?_, h2⟩
    rw [← beq_iff_eq, ← h1, beq_iff_eq]

theorem startsWith_below (p tail : Bytes) : pathStartsWith (p ++ 0x2f :: tail) p = true := by
  simp only [pathStartsWith, components, Bool.or_eq_true, beq_iff_eq, Prod.mk.injEq, Bool.and_eq_true, List.isPrefixOf_iff_prefix]
  cases p with
  | nil => exact .inl ⟨rfl, rfl⟩
  | cons a p =>
    refine .inr ⟨rfl, ?_⟩
    rw [splitOn_glue, List.filter_append]
    exact List.prefix_append _ _

/-- The rows can be read. -/
structure Readable (db : Db) : Prop where
  nodes : ∀ n ∈ db.nodes, ∃ h : Hash, n.gitId = Hash.toPlainStr h
  commits : ∀ r ∈ db.commits, ∃ c, Commit.decode r.data = .ok c

theorem searchRootNode_mem {E : SqlExt} {db : Db} {path : Bytes} {root : NodeRow} (h : searchRootNode E db path = .ok (some root)) : root ∈ db.nodes := by
  simp only [searchRootNode, Res.bind_eq_ok, Res.pure_eq, Res.ok.injEq] at h
  obtain ⟨name, _, h⟩ := h
  split at h
  · rename_i n hn
    cases h
    exact (List.mem_filter.1 (order_head hn)).1
  · exact (List.mem_filter.1 (order_head h)).1

theorem child_readable {X : Ext} {row : CommitRow} {root : NodeRow} {child : CommitObj} {db : Db} (hr : Readable db) (hrow : row ∈ db.commits)
    (hroot : root ∈ db.nodes) (h : buildFromModel X row root = .ok child) : ∃ c, Commit.decode child.base.data = .ok c := by
  obtain ⟨c, hc⟩ := hr.commits row hrow
  obtain ⟨t, ht⟩ := hr.nodes root hroot
  obtain ⟨child', h1, h2, _⟩ := C61_every X row root c t hc ht
  rw [h] at h1
  cases h1
  exact ⟨_, h2⟩

theorem generateChild_readable {X : Ext} {E : SqlExt} {ref : RefRow} {path : Bytes} {db : Db} (hr : Readable db) :
    Readable (generateChild X E ref path db).2 := by
  unfold generateChild
  split
  · exact hr
  · rename_i row hrow
    split
    · rename_i root hroot
      split
      · rename_i child hb
        simp only
        rw [saveChild_eq]
        refine ⟨hr.nodes, fun r hc => ?_⟩
        simp only at hc
        split at hc
        · rcases List.mem_append.1 hc with hc | hc
          · exact hr.commits r hc
          · rw [List.mem_singleton.1 hc]
            exact child_readable hr (List.mem_filter.1 (order_head hrow)).1 (searchRootNode_mem hroot) hb
        · exact hr.commits r hc
      · exact hr
      · exact hr
    · exact hr
    · exact hr
    · exact hr

theorem getHead_readable {X : Ext} {E : SqlExt} {path : Bytes} {db : Db} (hr : Readable db) : Readable (getHeadObjectId X E db path).2 := by
  unfold getHeadObjectId
  split
  · exact hr
  · split
    · exact generateChild_readable hr
    · exact hr

theorem serve_readable {P : ServerExt} {m : Moment} {s : ServerState} {r : HttpReq} (hr : Readable s.db) : Readable (serve P m s r).2.db := by
  rw [serve_db]
  cases h : route r.method r.path r.service <;> simp only <;> (try exact hr)
  · exact getHead_readable hr
  · rename_i repo
    have push : ∀ (file : Bytes) (p : Pack), decodePack P.X (getHashObject P.X m.sql s.db) m.fuel file = .ok p →
        Readable (savePackfile m.sql m.fuel p repo s.db).2 := by
      intro file p hd
      obtain ⟨rows, h1, h2, _, h4⟩ := push_effect hd m.sql m.fuel repo s.db
      refine ⟨?_, ?_⟩
      · intro n hn
        rw [h1] at hn
        rcases List.mem_append.1 hn with hn | hn
        · exact hr.nodes n hn
        · obtain ⟨o, _, _, e, _⟩ := h2 n hn
          exact ⟨_, e⟩
      · intro c hc
        rcases h4 c hc with hc | ⟨_, _, o, c', _, _, e, e2, _⟩
        · exact hr.commits c hc
        · exact ⟨c', by rw [e, e2]⟩
    rcases httpReceiveDb_cases P.X m.sql m.fuel repo r.body s.db with e | ⟨file, p, hd, e | ⟨cmd, e⟩⟩ <;> rw [e]
    · exact hr
    · exact push file p hd
    · obtain ⟨k1, k2⟩ := handleRefs_only m.sql cmd repo (savePackfile m.sql m.fuel p repo s.db).2
      have := push file p hd
      exact ⟨by rw [k1]; exact this.nodes, by rw [k2]; exact this.commits⟩

theorem run_readable (P : ServerExt) : ∀ (h : List (Moment × HttpReq)) (s : ServerState), Readable s.db → Readable (runServer P s h).db
  | [], _, hr => hr
  | (m, r) :: h, s, hr => run_readable P h _ (serve_readable (m := m) (r := r) hr)

theorem empty_readable : Readable ServerState.empty.db := ⟨(by intro n h; cases h), (by intro n h; cases h)⟩

/-- The commit generated for a path below a repository exists when the repository's commit does and the path ends in a name. -/
theorem generateChild_answers {X : Ext} {E : SqlExt} {ref : RefRow} {path : Bytes} {db : Db} (hr : Readable db)
    (hc : ∃ c ∈ db.commits, E.fold c.gitId = E.fold ref.refGitId) (hn : Spec.lastName path ≠ none) : ∃ id, (generateChild X E ref path db).1 = .ok id := by
  obtain ⟨c, hc1, hc2⟩ := hc
  obtain ⟨row, h1, h2⟩ := order_head_some E (l := db.commits.filter (fun c => E.fold c.gitId == E.fold ref.refGitId)) (by
    intro e
    have : c ∈ db.commits.filter (fun c => E.fold c.gitId == E.fold ref.refGitId) := by rw [List.mem_filter, beq_iff_eq]; exact ⟨hc1, hc2⟩
    rw [e] at this
    cases this)
  obtain ⟨cm, hcm⟩ := hr.commits row (List.mem_filter.1 h1).1
  obtain ⟨name, hname⟩ := Option.ne_none_iff_exists'.1 hn
  unfold generateChild
  rw [h2]
  simp only
  have hs : ∃ o, searchRootNode E db path = .ok o := by
    unfold searchRootNode
    rw [fileName_lastName, hname]
    exact ⟨_, rfl⟩
  obtain ⟨o, ho⟩ := hs
  rw [ho]
  cases o with
  | none => exact ⟨_, rfl⟩
  | some root =>
    obtain ⟨t, ht⟩ := hr.nodes root (searchRootNode_mem ho)
    obtain ⟨child, hb, _⟩ := C61_every X row root cm t hcm ht
    simp only [hb]
    exact ⟨_, rfl⟩

theorem asked {P : ServerExt} {m : Moment} {s : ServerState} {u g : Bytes} (hu : Spec.CleanUrl u) (hg : g = [] ∨ g = ascii ".git") (t : ServiceType) :
    (serve P m s (Spec.refsReq (u ++ g) t)).1 = (advertise P.X m.sql .http t s.db u).1.outcome .bytes := by
  have hr : route .get (u ++ g ++ ascii "/info/refs") (some t.display) = .infoRefs u t := route_discover hu hg t
  unfold serve
  simp only [Spec.refsReq, hr]

theorem advertise_answers {X : Ext} {E : SqlExt} {t : ServiceType} {db : Db} {u id : Bytes} (h : (getHeadObjectId X E db u).1 = .ok id) :
    ∃ out, (advertise X E .http t db u).1 = .ok out := by
  unfold advertise
  rcases hh : getHeadObjectId X E db u with ⟨a, db'⟩
  rw [hh] at h
  simp only at h
  subst h
  exact ⟨_, rfl⟩

/-- There is a HEAD, if for every repository above with a master this master names a stored commit. -/
theorem getHead_answers {X : Ext} {E : SqlExt} {db : Db} {u : Bytes} (hr : Readable db)
    (hc : ∀ r ∈ db.refs, Spec.isMaster E.fold r → r.repoPath ≠ u → Spec.DirAbove r.repoPath u →
      Spec.lastName u ≠ none ∧ ∃ c ∈ db.commits, E.fold c.gitId = E.fold r.refGitId) : ∃ id, (getHeadObjectId X E db u).1 = .ok id := by
  unfold getHeadObjectId
  split
  · exact ⟨_, rfl⟩
  · rename_i h1
    split
    · rename_i r h2
      have hm := List.mem_of_find?_eq_some h2
      have hne : r.repoPath ≠ u := fun e => by
        have := List.find?_eq_none.1 h1 r hm
        simp [e] at this
      obtain ⟨k1, k2⟩ := hc r (mem_searchRefs.1 hm).1 (mem_searchRefs.1 hm).2.2 hne (above_of_startsWith (by simpa using List.find?_some h2))
      exact generateChild_answers hr k2 k1
    · exact ⟨_, rfl⟩

/-- **C99 (partial)** After any history of requests with any bodies, a client that asks for the refs of a repository gets an answer, if for every repository
above it in the directory tree that has a master, this master names a stored commit and the URL asked for ends in a name. (Missing: the other
cases, where the server crashes, see `C99_crash`.) -/
theorem C99_answered_partial {P : ServerExt} (h : List (Moment × HttpReq)) (m : Moment) {u g : Bytes} (hu : Spec.CleanUrl u) (hg : g = [] ∨ g = ascii ".git")
    (t : ServiceType)
    (hc : ∀ r ∈ (runServer P .empty h).db.refs, Spec.isMaster m.sql.fold r → r.repoPath ≠ u → Spec.DirAbove r.repoPath u →
      Spec.lastName u ≠ none ∧ ∃ c ∈ (runServer P .empty h).db.commits, m.sql.fold c.gitId = m.sql.fold r.refGitId) :
    ∃ out, (serve P m (runServer P .empty h) (Spec.refsReq (u ++ g) t)).1 = .reply (.ok (.bytes out)) := by
  have hr := run_readable P h _ empty_readable
  rw [asked hu hg]
  generalize runServer P .empty h = s at hc hr ⊢
  obtain ⟨id, hid⟩ := getHead_answers (X := P.X) hr hc
  obtain ⟨out, ho⟩ := advertise_answers (t := t) hid
  exact ⟨out, by rw [ho]; rfl⟩

/-- Then there is no HEAD. -/
theorem getHead_panics {X : Ext} {E : SqlExt} {db : Db} {u : Bytes}
    (hown : ∀ r ∈ db.refs, Spec.isMaster E.fold r → r.repoPath ≠ u)
    (hb : ∃ r ∈ db.refs, Spec.isMaster E.fold r ∧ (∃ tail, u = r.repoPath ++ 0x2f :: tail) ∧ (0x5c : UInt8) ∉ r.repoPath)
    (hc : Spec.lastName u = none ∨ ∀ r ∈ db.refs, Spec.isMaster E.fold r → Spec.DirAbove r.repoPath u →
      ∀ c ∈ db.commits, E.fold c.gitId ≠ E.fold r.refGitId) : (getHeadObjectId X E db u).1 = .panic := by
  unfold getHeadObjectId
  split
  · rename_i r h1
    have hm := mem_searchRefs.1 (List.mem_of_find?_eq_some h1)
    have he := List.find?_some h1
    simp only [beq_iff_eq] at he
    exact absurd he.symm (hown r hm.1 hm.2.2)
  · split
    · rename_i r h2
      have hm := mem_searchRefs.1 (List.mem_of_find?_eq_some h2)
      unfold generateChild
      split
      · rfl
      · rename_i row hrow
        rcases hc with hc | hc
        · have : searchRootNode E db u = .panic := by
            unfold searchRootNode
            rw [fileName_lastName, hc]
            rfl
          rw [this]
        · have hrm := List.mem_filter.1 (order_head hrow)
          exact absurd (eq_of_beq hrm.2) (hc r hm.1 hm.2.2 (above_of_startsWith (by simpa using List.find?_some h2)) row hrm.1)
    · rename_i h2
      obtain ⟨r, k1, k2, ⟨tail, k3⟩, k4⟩ := hb
      have hl : E.like u r.repoPath = true := by rw [k3]; exact E.like_prefix _ _ k4
      have := List.find?_eq_none.1 h2 r (mem_searchRefs.2 ⟨k1, hl, k2⟩)
      rw [k3, startsWith_below] at this
      exact absurd rfl this

/-- **C99** Exactly then: if a repository without a master of its own lies below one with a master, and either its URL does not end in a name or no such
master names a stored commit, then asking for its refs crashes the handler, in every state. -/
theorem C99_crash {P : ServerExt} (s : ServerState) (m : Moment) {u g : Bytes} (hu : Spec.CleanUrl u) (hg : g = [] ∨ g = ascii ".git") (t : ServiceType)
    (hown : ∀ r ∈ s.db.refs, Spec.isMaster m.sql.fold r → r.repoPath ≠ u)
    (hb : ∃ r ∈ s.db.refs, Spec.isMaster m.sql.fold r ∧ (∃ tail, u = r.repoPath ++ 0x2f :: tail) ∧ (0x5c : UInt8) ∉ r.repoPath)
    (hc : Spec.lastName u = none ∨ ∀ r ∈ s.db.refs, Spec.isMaster m.sql.fold r → Spec.DirAbove r.repoPath u →
      ∀ c ∈ s.db.commits, m.sql.fold c.gitId ≠ m.sql.fold r.refGitId) :
    (serve P m s (Spec.refsReq (u ++ g) t)).1 = .reply .panic := by
  rw [asked hu hg]
  have hp := getHead_panics (X := P.X) hown hb hc
  unfold advertise
  rcases hh : getHeadObjectId P.X m.sql s.db u with ⟨a, db'⟩
  rw [hh] at hp
  simp only at hp
  subst hp
  rfl

/-- **C99 is false** for URLs ending in `..`: a branch is pushed to `/app`; asking for the refs of `/app/..` crashes the handler. -/
theorem C99_dotdot_false : ∃ (P : ServerExt) (m : Moment) (pack rep : Bytes) (s : ServerState),
    serve P m .empty (Spec.pushReq (ascii "/app" ++ []) (Spec.pushBody appCmd [] (ascii "report-status") pack)) = (.reply (.ok (.bytes rep)), s) ∧
    (serve P m s (Spec.refsReq (ascii "/app/.." ++ []) .uploadPack)).1 = .reply .panic := by
  obtain ⟨pack, rep, s, _, h2, h3⟩ := demo_app
  refine ⟨demoServer, demoMoment, pack, rep, s, h2, C99_crash s demoMoment ⟨by decide, by decide, by decide, by decide⟩ (.inl rfl) .uploadPack ?_ ?_ (.inl (by decide +kernel))⟩
  · rw [h3]
    intro r hr _
    rw [List.mem_singleton.1 hr]
    decide
  · exact ⟨masterRow, by rw [h3]; simp, by unfold Spec.isMaster; decide +kernel, ⟨ascii "..", by decide⟩, by decide⟩

/-- A master at an id nobody pushed a commit for. -/
def lostCmd : Spec.PushCmd := { old := zeroId, new := List.replicate 40 0x62, name := ascii "refs/heads/master" }

theorem lostCmd_ok : lostCmd.Ok := ⟨by decide, by decide, by decide, by decide, by decide, by decide, by decide⟩

/-- **C99 is false** for a master without a commit: a client pushes objects to `/app` together with a master that names none of them, and is told that
all is well; asking for the refs of `/app/x` crashes the handler. -/
theorem C99_dangling_false : ∃ (P : ServerExt) (m : Moment) (pack rep : Bytes) (s : ServerState),
    serve P m .empty (Spec.pushReq (ascii "/app" ++ []) (Spec.pushBody lostCmd [] (ascii "report-status") pack)) = (.reply (.ok (.bytes rep)), s) ∧
    Spec.lastName (ascii "/app/x") = some (ascii "x") ∧
    (serve P m s (Spec.refsReq (ascii "/app/x" ++ []) .uploadPack)).1 = .reply .panic := by
  obtain ⟨pack, rep, s, _, h2, h3, h4, _⟩ := demo_create_rows app_url (.inl rfl) .empty lostCmd lostCmd_ok rfl
  replace h3 : s.db.refs = [{ repoPath := ascii "/app", refName := lostCmd.name ++ [0], refGitId := lostCmd.new }] := h3
  refine ⟨demoServer, demoMoment, pack, rep, s, h2, by decide +kernel,
    C99_crash s demoMoment ⟨by decide, by decide, by decide, by decide⟩ (.inl rfl) .uploadPack ?_ ?_ (.inr ?_)⟩
  · rw [h3]
    intro r hr _
    rw [List.mem_singleton.1 hr]
    decide
  · exact ⟨_, by rw [h3]; exact .head _, by unfold Spec.isMaster; decide +kernel, ⟨ascii "x", by decide⟩, by decide⟩
  · rw [h3]
    intro r hr _ _ c hc
    rw [List.mem_singleton.1 hr]
    rcases h4 c hc with hc | hc
    · cases hc
    · rw [hc]
      decide +kernel

/-- After a push of master to `/app`, asking for the refs of `/app/x` is answered. -/
example : ∃ (pack out : Bytes), (serve demoServer demoMoment (runServer demoServer .empty
    [(demoMoment, Spec.pushReq (ascii "/app" ++ []) (Spec.pushBody appCmd [] (ascii "report-status") pack))])
    (Spec.refsReq (ascii "/app/x" ++ []) .uploadPack)).1 = .reply (.ok (.bytes out)) := by
  obtain ⟨pack, rep, s, _, h2, h3, _, x, hx, ex⟩ := demo_create_rows app_url (.inl rfl) .empty appCmd appCmd_ok rfl
  replace h3 : s.db.refs = [masterRow] := h3
  obtain ⟨k, hk⟩ : ∃ k, k = [(demoMoment, Spec.pushReq (ascii "/app" ++ []) (Spec.pushBody appCmd [] (ascii "report-status") pack))] := ⟨_, rfl⟩
  have e : runServer demoServer .empty k = s := by
    rw [hk, ← List.nil_append [_], runServer_concat]
    exact congrArg Prod.snd h2
  obtain ⟨out, ho⟩ := C99_answered_partial (P := demoServer) k demoMoment (u := ascii "/app/x") (g := [])
    ⟨by decide, by decide, by decide, by decide⟩ (.inl rfl) .uploadPack (by
      rw [e, h3]
      intro r hr _ _ _
      rw [List.mem_singleton.1 hr]
      exact ⟨by decide +kernel, x, hx, by rw [ex]; rfl⟩)
  exact ⟨pack, out, by rw [← hk]; exact ho⟩

end Gust

import Verif.Lemmas.Concurrent

/-! # Refs and commits when requests overlap -/

namespace Gust

open Spec (nodeObj StoreReach commitsAt InRepo)

/-- A commit with this id is stored for this path. -/
def Named (fold : Bytes → Bytes) (cs : List CommitRow) (q id : Bytes) : Prop := ∃ c ∈ cs, fold c.repoPath = fold q ∧ c.gitId = id

theorem Named.mono {fold : Bytes → Bytes} {cs cs' : List CommitRow} {q id : Bytes} (h : Named fold cs q id) (hs : ∀ c ∈ cs, c ∈ cs') : Named fold cs' q id := by
  obtain ⟨c, hc, r⟩ := h
  exact ⟨c, hs c hc, r⟩

/-- What a task is going to do names commits that are stored then. -/
def RefsOk (fold : Bytes → Bytes) (paths : List Bytes) : List CommitRow → List Act → Prop
  | _, [] => True
  | cs, a :: as =>
    match a with
    | .commits b => RefsOk fold paths (cs ++ b) as
    | .refs b => (∀ r ∈ b, Named fold cs r.repoPath r.refGitId) ∧ RefsOk fold paths cs as
    | .findRef cmd q => Named fold cs q cmd.newId ∧ RefsOk fold paths cs as
    | .setRef i id => (∀ q, paths[i]? = some q → Named fold cs q id) ∧ i < paths.length ∧ RefsOk fold paths cs as
    | _ => RefsOk fold paths cs as

theorem RefsOk.mono {fold : Bytes → Bytes} {paths paths' : List Bytes} (hp : paths <+: paths') :
    ∀ {as : List Act} {cs cs' : List CommitRow}, RefsOk fold paths cs as → (∀ c ∈ cs, c ∈ cs') → RefsOk fold paths' cs' as
  | [], _, _, _, _ => trivial
  | a :: as, cs, cs', h, hs => by
    cases a with
    | commits b =>
      refine RefsOk.mono (as := as) hp h ?_
      intro c hc
      rcases List.mem_append.1 hc with hc | hc
      · exact List.mem_append_left _ (hs c hc)
      · exact List.mem_append_right _ hc
    | refs b => exact ⟨fun r hr => (h.1 r hr).mono hs, h.2.mono hp hs⟩
    | findRef cmd q => exact ⟨h.1.mono hs, h.2.mono hp hs⟩
    | setRef i id =>
      obtain ⟨h1, h2, h3⟩ := h
      refine ⟨fun q hq => (h1 q ?_).mono hs, Nat.lt_of_lt_of_le h2 hp.length_le, h3.mono hp hs⟩
      obtain ⟨t, rfl⟩ := hp
      rw [List.getElem?_append_left h2] at hq
      exact hq
    | nodes b => exact RefsOk.mono (as := as) hp h hs
    | headRefs q => exact RefsOk.mono (as := as) hp h hs
    | headCommit r q => exact RefsOk.mono (as := as) hp h hs
    | headRoot _ _ q _ => exact RefsOk.mono (as := as) hp h hs
    | fail => exact RefsOk.mono (as := as) hp h hs

/-- The paths of the refs stay, more are added at the end. -/
theorem step_paths (X : Ext) (E : SqlExt) (db : Db) (a : Act) : db.refs.map RefRow.repoPath <+: (a.step X E db).2.refs.map RefRow.repoPath := by
  have same : db.refs.map RefRow.repoPath <+: db.refs.map RefRow.repoPath := List.prefix_refl _
  cases a with
  | nodes b =>
    simp only [Act.step]
    split <;> exact same
  | commits b => exact same
  | refs b =>
    show db.refs.map RefRow.repoPath <+: (if E.acceptRefs db.inserts b then db.refs ++ b else db.refs).map RefRow.repoPath
    split
    · rw [List.map_append]
      exact List.prefix_append _ _
    · exact same
  | findRef cmd path =>
    simp only [Act.step]
    split <;> exact same
  | setRef i id =>
    simp only [Act.step]
    split
    · show db.refs.map RefRow.repoPath <+: (db.refs.modify i (fun r => { r with refGitId := id })).map RefRow.repoPath
      have : (db.refs.modify i (fun r => { r with refGitId := id })).map RefRow.repoPath = db.refs.map RefRow.repoPath := by
        apply List.ext_getElem?
        intro j
        rw [List.getElem?_map, List.getElem?_map, List.getElem?_modify]
        cases db.refs[j]? with
        | none => rfl
        | some r =>
          simp only [Option.map_some]
          split <;> rfl
      rw [this]
    · exact same
  | headRefs path =>
    simp only [Act.step]
    split
    · exact same
    · split <;> exact same
  | headCommit r path =>
    simp only [Act.step]
    split <;> exact same
  | headRoot row r path second =>
    simp only [Act.step]
    split
    · exact same
    · split
      · exact same
      · split <;> exact same
  | fail => exact same

/-- What holds at all times when inserts of commits do not fail. -/
structure RefInv (fold : Bytes → Bytes) (s : Sys) : Prop where
  refs : ∀ r ∈ s.db.refs, Named fold s.db.commits r.repoPath r.refGitId
  tasks : ∀ as, some as ∈ s.tasks → RefsOk fold (s.db.refs.map RefRow.repoPath) s.db.commits as

theorem refStep {X : Ext} {E : SqlExt} (hacc : ∀ n b, E.acceptCommits n b = true) {db : Db}
    (hr : ∀ r ∈ db.refs, Named E.fold db.commits r.repoPath r.refGitId) {a : Act} {as : List Act}
    (ha : RefsOk E.fold (db.refs.map RefRow.repoPath) db.commits (a :: as)) :
    (∀ r ∈ (a.step X E db).2.refs, Named E.fold (a.step X E db).2.commits r.repoPath r.refGitId) ∧
    ∀ more, (a.step X E db).1 = some more → RefsOk E.fold ((a.step X E db).2.refs.map RefRow.repoPath) (a.step X E db).2.commits (more ++ as) := by
  have hpre := step_paths X E db a
  cases a with
  | nodes b =>
    simp only [Act.step]
    split
    · exact ⟨hr, fun more e => by cases e; exact ha⟩
    · exact ⟨hr, fun more e => (nomatch e)⟩
  | commits b =>
    simp only [Act.step, hacc, if_true]
    refine ⟨fun r h => (hr r h).mono (fun c hc => List.mem_append_left _ hc), fun more e => ?_⟩
    cases e
    exact ha
  | refs b =>
    obtain ⟨h1, h2⟩ := ha
    refine ⟨?_, fun more e => ?_⟩
    · intro r h
      have h : r ∈ if E.acceptRefs db.inserts b then db.refs ++ b else db.refs := h
      split at h
      · rcases List.mem_append.1 h with q | q
        · exact hr r q
        · exact h1 r q
      · exact hr r h
    · cases e
      exact RefsOk.mono (as := as) hpre h2 (fun _ h => h)
  | findRef cmd q =>
    obtain ⟨h1, h2⟩ := ha
    simp only [Act.step]
    split
    · rename_i i hi
      refine ⟨hr, fun more e => ?_⟩
      cases e
      obtain ⟨hm, hx⟩ := List.mem_filter.1 ((E.order_perm _).mem_iff.1 (List.mem_of_head? hi))
      have hlt := List.mem_range.1 hm
      rw [List.getElem?_eq_getElem hlt, Option.any_some, updateMatches, Bool.and_eq_true] at hx
      refine ⟨fun q' hq' => ?_, by simpa using hlt, h2⟩
      rw [List.getElem?_map, List.getElem?_eq_getElem hlt] at hq'
      cases hq'
      obtain ⟨c, hc, e1, e2⟩ := h1
      exact ⟨c, hc, by rw [e1, eq_of_beq hx.2], e2⟩
    · exact ⟨hr, fun more e => (nomatch e)⟩
  | setRef i id =>
    obtain ⟨h1, h2, h3⟩ := ha
    simp only [Act.step] at hpre ⊢
    split
    swap
    · exact ⟨hr, fun more e => (nomatch e)⟩
    rename_i hacc
    rw [if_pos hacc] at hpre
    refine ⟨?_, fun more e => ?_⟩
    · intro r h
      obtain ⟨j, hj⟩ := List.mem_iff_getElem?.1 h
      have hj : (db.refs.modify i (fun r => { r with refGitId := id }))[j]? = some r := hj
      rw [List.getElem?_modify] at hj
      obtain ⟨r0, h0, e⟩ := Option.map_eq_some_iff.1 hj
      rw [← e]
      split
      · rename_i hij
        refine h1 r0.repoPath ?_
        rw [List.getElem?_map, hij, h0]
        rfl
      · exact hr r0 (List.mem_of_getElem? h0)
    · cases e
      exact RefsOk.mono (as := as) hpre h3 (fun _ h => h)
  | headRefs q =>
    simp only [Act.step]
    split
    · exact ⟨hr, fun more e => by cases e; exact ha⟩
    · split
      · exact ⟨hr, fun more e => by cases e; exact ha⟩
      · exact ⟨hr, fun more e => by cases e; exact ha⟩
  | headCommit r q =>
    simp only [Act.step]
    split
    · exact ⟨hr, fun more e => (nomatch e)⟩
    · exact ⟨hr, fun more e => by cases e; exact ha⟩
  | headRoot row r q second =>
    simp only [Act.step]
    split
    · exact ⟨hr, fun more e => (nomatch e)⟩
    · split
      · rename_i root _
        refine ⟨hr, fun more e => ?_⟩
        cases e
        unfold childActs
        split
        · rename_i child _
          refine ⟨?_, RefsOk.mono (as := as) (List.prefix_refl _) ha (fun c hc => List.mem_append_left _ hc)⟩
          intro x hx
          rw [List.mem_singleton.1 hx]
          exact ⟨child.row q, List.mem_append_right _ (.head _), rfl, rfl⟩
        · exact ha
      · split
        · exact ⟨hr, fun more e => by cases e; exact ha⟩
        · exact ⟨hr, fun more e => by cases e; exact ha⟩
  | fail => exact ⟨hr, fun more e => (nomatch e)⟩

theorem refsOk_nodes {fold : Bytes → Bytes} {paths : List Bytes} {cs : List CommitRow} {as : List Act} (h : RefsOk fold paths cs as) :
    ∀ (bs : List (List NodeRow)), RefsOk fold paths cs (bs.map Act.nodes ++ as)
  | [] => h
  | _ :: bs => refsOk_nodes h bs

theorem refsOk_commits {fold : Bytes → Bytes} {paths : List Bytes} {as : List Act} : ∀ (bs : List (List CommitRow)) (cs : List CommitRow),
    RefsOk fold paths (cs ++ bs.flatten) as → RefsOk fold paths cs (bs.map Act.commits ++ as)
  | [], cs, h => by simpa using h
  | b :: bs, cs, h => by
    rw [List.flatten_cons, ← List.append_assoc] at h
    exact refsOk_commits bs (cs ++ b) h

/-- The push names a commit of its own pack. -/
def OwnCommit (p : Pack) (cmd : RefCommand) : Prop := ∃ o, p.result.hashObject o.id = some o ∧ o.t = .commit ∧ cmd.newId = Hash.toPlainStr o.id

theorem refsOk_push {X : Ext} {fold : Bytes → Bytes} {St : ObjectSource} {fuel0 : Nat} {file : Bytes} {p : Pack} (hdec : decodePack X St fuel0 file = .ok p)
    (E : SqlExt) (fuel : Nat) (q : Bytes) (cmd : RefCommand) (hw : OwnCommit p cmd) (paths : List Bytes) (cs : List CommitRow) :
    RefsOk fold paths cs (pushActs E.pool fuel p q cmd) := by
  unfold pushActs
  cases hp : E.pool p.result with
  | ok D =>
    simp only
    cases hb : buildNodeTree fuel D with
    | ok rows =>
      simp only
      obtain ⟨_, _, k3, k4⟩ := pack_rows hdec (by have := E.pool_outcome p.result; rwa [hp] at this) hb
      rw [List.append_assoc]
      refine refsOk_nodes (refsOk_commits _ _ ?_) _
      rw [chunks_flatten 100 (by simp) _ _ (by simp)]
      have hnamed : Named fold (cs ++ D.commits.map (fun c => c.row q)) q cmd.newId := by
        obtain ⟨o, h1, h2, h3⟩ := hw
        obtain ⟨co, hco, rfl⟩ := k4 o h1 h2
        exact ⟨co.row q, List.mem_append_right _ (List.mem_map_of_mem hco), rfl, h3.symm⟩
      unfold refActs
      cases cmd.commandType with
      | create => exact ⟨fun r hr => by rw [List.mem_singleton.1 hr]; exact hnamed, trivial⟩
      | delete => trivial
      | update => exact ⟨hnamed, trivial⟩
    | _ => trivial
  | _ => trivial

theorem refInv_step {X : Ext} {fold : Bytes → Bytes} {R : Bytes → Prop} {Q : SqlExt → Prop} (hQ : ∀ E, Q E → E.fold = fold ∧ ∀ n b, E.acceptCommits n b = true)
    {s t : Sys} (h : RefInv fold s) (hs : SysStep X Q R OwnCommit s t) : RefInv fold t := by
  cases hs with
  | push St fuel0 file p E fuel q cmd hdec hq hw =>
    refine ⟨h.refs, fun as ha => ?_⟩
    rcases List.mem_append.1 ha with ha | ha
    · exact h.tasks as ha
    · cases List.mem_singleton.1 ha
      exact refsOk_push hdec E fuel q cmd hw _ _
  | head q hq =>
    refine ⟨h.refs, fun as ha => ?_⟩
    rcases List.mem_append.1 ha with ha | ha
    · exact h.tasks as ha
    · cases List.mem_singleton.1 ha
      trivial
  | act i a as E hi hE =>
    obtain ⟨hf, hacc⟩ := hQ E hE
    subst hf
    obtain ⟨h1, h2⟩ := refStep (X := X) hacc h.refs (h.tasks _ (List.mem_of_getElem? hi))
    refine ⟨h1, fun as' ha => ?_⟩
    rcases mem_set_task ha with ha | ha
    · exact (h.tasks as' ha).mono (step_paths X E s.db a) (step_extends X E s.db a).commits
    · obtain ⟨more, e1, e2⟩ := Option.map_eq_some_iff.1 ha.symm
      rw [← e2]
      exact h2 more e1

theorem refInv_run {X : Ext} {fold : Bytes → Bytes} {R : Bytes → Prop} {Q : SqlExt → Prop} (hQ : ∀ E, Q E → E.fold = fold ∧ ∀ n b, E.acceptCommits n b = true)
    {s t : Sys} (h : RefInv fold s) (hs : SysRun X Q R OwnCommit s t) : RefInv fold t := by
  induction hs with
  | refl => exact h
  | step t u _ hs ih => exact refInv_step hQ ih hs

theorem refInv_empty (fold : Bytes → Bytes) : RefInv fold Sys.empty := ⟨(by intro _ h; cases h), (by intro _ h; cases h)⟩

end Gust

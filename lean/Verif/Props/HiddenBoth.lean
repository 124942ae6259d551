import Verif.Props.GrowthExamples
import Verif.Props.Branching
import Verif.Props.RefsBothExamples

/-! # C126 and C145 over SSH -/

namespace Gust

/-! ## Lemmas -/

/-- What the SSH server sends when it answers a client that asks for the refs. -/
theorem ssh_answer {P : ServerExt} {u : Bytes} (hs : (0x20 : UInt8) ∉ u) (hb : isBoundary u 0 = true) {t : ServiceType} {m : Moment} {s : Both} {i ch ch' : Nat} {p : Option SshProto}
    (hl : s.link i = .ready p) {out : Bytes} (ha : (sshStep P.X m s.ssh i (.exec ch (Spec.sshAsk t u))).1 = [(ch', out)]) :
    ∃ head db', getHeadObjectId P.X m.sql s.web.db u = (.ok head, db') ∧ (bothStep P m s (.ssh i (.exec ch (Spec.sshAsk t u)))).web.db = db' ∧ ch' = ch ∧
      out = gitInfoRefs .ssh t head (getRefObjectId m.sql db' u) := by
  have hc : sshCommand (Spec.sshAsk t u) = .ok (u, t) := C56_ssh_partial t u hs hb
  have e : (sshLinkStep P.X m s.web.db (s.link i) (.exec ch (Spec.sshAsk t u))).1 = [(ch', out)] := ha
  have e2 : (bothStep P m s (.ssh i (.exec ch (Spec.sshAsk t u)))).web.db = (sshLinkStep P.X m s.web.db (s.link i) (.exec ch (Spec.sshAsk t u))).2.2 := rfl
  rw [e2]
  rcases hg : getHeadObjectId P.X m.sql s.web.db u with ⟨hd, db'⟩
  cases hd with
  | ok headId =>
    simp only [hl, sshLinkStep, sshExec, hc, advertise, hg, Res.bind_ok] at e ⊢
    split at e
    · simp only [Res.sent, id, gitInfoRefs_ne_nil, if_false, List.cons.injEq, Prod.mk.injEq, and_true] at e
      exact ⟨_, _, rfl, rfl, e.1.symm, e.2.symm⟩
    · simp [Res.sent] at e
  | err x => simp [hl, sshLinkStep, sshExec, hc, advertise, hg, Res.sent] at e
  | panic => simp [hl, sshLinkStep, sshExec, hc, advertise, hg, Res.sent] at e
  | spin => simp [hl, sshLinkStep, sshExec, hc, advertise, hg, Res.sent] at e

/-- A path that is too long for the table of refs: a HEAD is told only with one more commit stored, and no ref. -/
theorem deep_grows {X : Ext} {E : SqlExt} (hE : Spec.SchemaOnly E) {u : Bytes} (hlong : overlong 64 u = true) (hl : chars u ≤ 128) {db db' : Db}
    (hs : ∀ r ∈ db.refs, overlong 64 r.repoPath = false) (hc : ∀ c ∈ db.commits, c.data.length ≤ 65531) {id : Bytes} (hgen : getHeadObjectId X E db u = (.ok id, db')) (hz : id ≠ zeroId) :
    ∃ row : CommitRow, row.gitId = id ∧ row.repoPath = u ∧ db'.commits = db.commits ++ [row] ∧ db'.refs = db.refs ∧ db'.nodes = db.nodes := by
  unfold getHeadObjectId at hgen
  split at hgen
  · rename_i r hf
    have h1 := List.find?_some hf
    have h2 := (mem_searchRefs.1 (List.mem_of_find?_eq_some hf)).1
    simp only [beq_iff_eq] at h1
    rw [h1, hs r h2] at hlong
    cases hlong
  · have hnil : ∀ r : RefRow, r.repoPath = u → ∀ n, E.acceptRefs n [r] = false := by
      intro r e n
      refine hE.refs n _ ⟨r, by simp, ?_⟩
      simp [RefRow.refused, e, hlong]
    split at hgen
    · rcases generateChild_ok hgen with ⟨⟨g⟩⟩ | ⟨_, e, e'⟩
      · have hrefs : db'.refs = db.refs := by
          rw [g.db_eq]
          exact if_neg (by rw [hnil _ (by rfl)]; exact Bool.false_ne_true)
        obtain ⟨c, k1, k2, k3, k4, k5, k6, k7, k8, k9⟩ := C61_generated_fields _ _ _ _ g.built
        refine ⟨g.child.row u, g.id_eq.symm, rfl, ?_, hrefs, by rw [g.db_eq]⟩
        refine (congrArg Db.commits g.db_eq).trans (if_pos ?_)
        refine hE.commits_ok _ _ (by simp) ?_
        intro r hr
        rw [List.mem_singleton.1 hr]
        have hlen : g.child.base.data.length ≤ 65535 := by
          have h1 := commit_length k1 g.child.commit.treeId
          have h2 := hc _ g.commit_mem
          have h3 : g.child.commit = { c with treeId := g.child.commit.treeId, parents := [] } := by
            generalize g.child.commit = cc at *
            cases cc
            simp only at k2 k3 k4 k5
            subst k2 k3 k4 k5
            rfl
          rw [k8, h3]
          omega
        simp only [CommitRow.fits, CommitObj.row, Bool.and_eq_true]
        refine ⟨⟨⟨decide_eq_true ?_, decide_eq_true ?_⟩, decide_eq_true hlen⟩, decide_eq_true hl⟩
        all_goals exact hexId_chars (Hash.toPlainStr_length _)
      · exact absurd e hz
    · simp only [Prod.mk.injEq, Res.ok.injEq] at hgen
      exact absurd hgen.1.symm hz

/-! ## The theorems -/

/-- **C126 is false** over SSH too: whatever has happened before on both servers and whatever the database does, no client that asks the SSH server for the refs of a repository is shown two branches
with the same value. (The refs of the repository can be told in one line each.) -/
theorem C126_ssh_false (P : ServerExt) (u : Bytes) (hs : (0x20 : UInt8) ∉ u) (hb : isBoundary u 0 = true) (t : ServiceType) (m : Moment) (s : Both) (i ch : Nat) (p : Option SshProto)
    (hl : s.link i = .ready p) (out : Bytes) (refs : List (Bytes × Bytes)) (head : Bytes)
    (ha : (sshStep P.X m s.ssh i (.exec ch (Spec.sshAsk t u))).1 = [(ch, out)])
    (ht : ∀ r ∈ Spec.refsAt m.sql.fold (bothStep P m s (.ssh i (.exec ch (Spec.sshAsk t u)))).web.db.refs u, Spec.RefText r)
    (hh : Spec.clientSsh out = some ((head, ascii "HEAD") :: refs)) (id a b : Bytes) (h1 : (id, a) ∈ refs) (h2 : (id, b) ∈ refs) : a = b := by
  obtain ⟨headId, db', k1, k2, _, rfl⟩ := ssh_answer hs hb hl ha
  rw [k2] at ht
  rw [client_ssh k1 ht] at hh
  split at hh
  · split at hh <;> cases hh
  · cases hh
    have hn : ((getRefObjectId m.sql db' u).map Prod.fst).Nodup := foldl_entry_nodup _ _ (by simp)
    simpa using List.inj_on_of_nodup_map hn h1 h2 rfl

/-- **C145 is false** over SSH too, for a path of more than 64 characters, with the tables of the dump: whenever a client asks for the refs of such a path, over SSH, and is told a HEAD, one more
commit is stored, and nothing that would make the next request find it. (As for `C145_deep_false`.) -/
theorem C145_ssh_false (P : ServerExt) (u : Bytes) (hs : (0x20 : UInt8) ∉ u) (hb : isBoundary u 0 = true) (hlong : overlong 64 u = true) (hlen : chars u ≤ 128) (t : ServiceType) (m : Moment)
    (hE : Spec.SchemaOnly m.sql) (s : Both) (hrows : ∀ r ∈ s.web.db.refs, overlong 64 r.repoPath = false) (hc : ∀ c ∈ s.web.db.commits, c.data.length ≤ 65531)
    (i ch : Nat) (p : Option SshProto) (hl : s.link i = .ready p) (ht : ∀ r ∈ Spec.refsAt m.sql.fold s.web.db.refs u, Spec.RefText r) (out head : Bytes) (refs : List (Bytes × Bytes))
    (ha : (sshStep P.X m s.ssh i (.exec ch (Spec.sshAsk t u))).1 = [(ch, out)]) (hh : Spec.clientSsh out = some ((head, ascii "HEAD") :: refs)) (s' : Both)
    (hs' : s' = bothStep P m s (.ssh i (.exec ch (Spec.sshAsk t u)))) :
    ∃ row : CommitRow, row.gitId = head ∧ row.repoPath = u ∧ s'.web.db.commits = s.web.db.commits ++ [row] ∧ s'.web.db.refs = s.web.db.refs ∧ s'.web.db.nodes = s.web.db.nodes := by
  obtain ⟨headId, db', k1, k2, _, rfl⟩ := ssh_answer hs hb hl ha
  rw [hs', k2]
  have hr : db'.refs = s.web.db.refs := by
    have := deep_refs (X := P.X) hE.toSchema hlong s.web.db
    rw [k1] at this
    exact this
  rw [client_ssh k1 (by rw [hr]; exact ht)] at hh
  split at hh
  · split at hh <;> cases hh
  · rename_i hz
    cases hh
    exact deep_grows hE hlong hlen hrows hc k1 hz

/-! ## Examples -/

/-- After the first two pushes of the story (`C126_run_false`), a client that asks the SSH server for the refs is not shown both branches, and it is shown one. -/
example (s : Both) (h : s.web.db.refs = [masterRow, { repoPath := ascii "/app", refName := startCmd.name ++ [0], refGitId := appCmd.new }]) (hl : s.link 4 = .ready none) :
    ∃ (out : Bytes) (refs : List (Bytes × Bytes)), (sshStep demoServer.X demoMoment s.ssh 4 (.exec 0 (Spec.sshAsk .uploadPack (ascii "/app")))).1 = [(0, out)] ∧
      Spec.clientSsh out = some ((appCmd.new, ascii "HEAD") :: refs) ∧ refs ≠ [] ∧ ¬ ((appCmd.new, appCmd.name ++ [0]) ∈ refs ∧ (appCmd.new, startCmd.name ++ [0]) ∈ refs) := by
  obtain ⟨r, r1, r2, r3, h4⟩ := getHead_master (X := demoServer.X) (E := demoMoment.sql) (u := ascii "/app") (by decide) (app_hasMaster h)
  have hrows : ∀ x ∈ s.web.db.refs, Spec.RefText x ∧ utf8Valid x.refName = true ∧ x.refGitId = appCmd.new := by
    rw [h]
    intro x hx
    simp only [List.mem_cons, List.not_mem_nil, or_false] at hx
    rcases hx with rfl | rfl
    · exact ⟨⟨by decide +kernel, by decide +kernel, by decide +kernel, by decide +kernel⟩, by decide +kernel, by decide +kernel⟩
    · exact ⟨⟨by decide +kernel, by decide +kernel, by decide +kernel, by decide +kernel⟩, by decide +kernel, by decide +kernel⟩
  rw [(hrows r r1).2.2] at h4
  have ht : ∀ x ∈ Spec.refsAt demoMoment.sql.fold s.web.db.refs (ascii "/app"), Spec.RefText x := fun x hx => (hrows x (refsAt_mem.1 hx).1).1
  have hcmd : sshCommand (Spec.sshAsk .uploadPack (ascii "/app")) = .ok (ascii "/app", .uploadPack) := C56_ssh_partial _ _ (by decide) (by decide)
  have hv : utf8Valid (gitInfoRefs .ssh .uploadPack appCmd.new (getRefObjectId demoMoment.sql s.web.db (ascii "/app"))) = true := by
    refine gitInfoRefs_text (by decide +kernel) ?_
    intro q hq
    obtain ⟨x, hx, e1, e2⟩ := getRefObjectId_from q hq
    rw [← e1, ← e2]
    exact ⟨(ht x hx).2.1, (hrows x (refsAt_mem.1 hx).1).2.1⟩
  have ha : (sshStep demoServer.X demoMoment s.ssh 4 (.exec 0 (Spec.sshAsk .uploadPack (ascii "/app")))).1 =
      [(0, gitInfoRefs .ssh .uploadPack appCmd.new (getRefObjectId demoMoment.sql s.web.db (ascii "/app")))] := by
    show (sshLinkStep demoServer.X demoMoment s.web.db (s.link 4) (.exec 0 (Spec.sshAsk .uploadPack (ascii "/app")))).1 = _
    simp only [hl, sshLinkStep, sshExec, hcmd, advertise, h4, Res.bind_ok, hv, if_true, Res.sent, id, gitInfoRefs_ne_nil, if_false]
  have hcl := client_ssh (t := .uploadPack) h4 ht
  rw [if_neg (by decide +kernel)] at hcl
  obtain ⟨_, _, k1, k2, _, _⟩ := ssh_answer (P := demoServer) (u := ascii "/app") (by decide) (by decide) hl ha
  have k3 : (bothStep demoServer demoMoment s (.ssh 4 (.exec 0 (Spec.sshAsk .uploadPack (ascii "/app"))))).web.db = s.web.db := by
    rw [k2]
    exact (congrArg Prod.snd (k1.symm.trans h4))
  refine ⟨_, _, ha, hcl, ?_, ?_⟩
  · intro e
    have := getRefObjectId_nil.1 e
    rw [h] at this
    revert this
    decide +kernel
  · rintro ⟨h1, h2⟩
    have := C126_ssh_false demoServer (ascii "/app") (by decide) (by decide) .uploadPack demoMoment s 4 0 none hl _ _ _ ha (by rw [k3]; exact ht) hcl _ _ _ h1 h2
    revert this
    decide +kernel

/-- C145: after the example repository was pushed to `/app`, a client asks the SSH server for the refs of a path of more than 64 characters below it, with the tables of the dump: there is one more
commit, and no ref. -/
example : ∃ (pack rep out head : Bytes) (refs : List (Bytes × Bytes)) (s s' : Both),
    serve demoServer demoMoment .empty (appPush pack) = (.reply (.ok (.bytes rep)), s.web) ∧ s.link 4 = .ready none ∧
    s' = bothStep demoServer dumpMoment s (.ssh 4 (.exec 0 (Spec.sshAsk .uploadPack deepPath))) ∧
    (sshStep demoServer.X dumpMoment s.ssh 4 (.exec 0 (Spec.sshAsk .uploadPack deepPath))).1 = [(0, out)] ∧ Spec.clientSsh out = some ((head, ascii "HEAD") :: refs) ∧
    s'.web.db.commits.length = s.web.db.commits.length + 1 ∧ s'.web.db.refs = s.web.db.refs := by
  obtain ⟨pack, p, rep, st', refs, ins, h1, h2, h3, hpush, e0, hruns, objs, ⟨r, hr, er, ep⟩, reach, hrefs, hold, hg⟩ :=
    app_below deepPath (by decide +kernel) (by decide +kernel) (by decide +kernel) (by decide +kernel)
  obtain ⟨s, hs⟩ : ∃ s : Both, s = { web := (serve demoServer demoMoment .empty (appPush pack)).2, link := fun _ => .ready none } := ⟨_, rfl⟩
  have edb : s.web.db = st'.db := by rw [hs]; exact e0
  have hl : s.link 4 = .ready none := by rw [hs]
  obtain ⟨m, hm⟩ : ∃ m, m = dumpMoment := ⟨_, rfl⟩
  have hsql : m.sql = dumpSql := by rw [hm]; rfl
  have hat : Spec.refsAt m.sql.fold s.web.db.refs deepPath = [] := by
    rw [edb, hrefs, hsql]
    decide +kernel
  have hh : (getHeadObjectId polyExt m.sql s.web.db deepPath).1 = .ok (Hash.toPlainStr (idOf polyExt (.commit, srcCommit.encode))) := by
    rw [hsql, edb, head_accept polyExt (E := demoSql) (E' := dumpSql) rfl rfl rfl, hg]
  have hgh : getHeadObjectId polyExt m.sql s.web.db deepPath = (.ok (Hash.toPlainStr (idOf polyExt (.commit, srcCommit.encode))), (getHeadObjectId polyExt m.sql s.web.db deepPath).2) :=
    Prod.ext hh rfl
  have hE : Spec.SchemaOnly m.sql := by rw [hsql]; exact dumpSql_schema
  have hlong : overlong 64 deepPath = true := by decide +kernel
  have hat2 : Spec.refsAt m.sql.fold (getHeadObjectId polyExt m.sql s.web.db deepPath).2.refs deepPath = [] := by rw [deep_refs hE.toSchema hlong, hat]
  have hcl := client_ssh (t := .uploadPack) hgh (by rw [hat2]; intro r hr; cases hr)
  rw [if_neg (by decide +kernel)] at hcl
  have hcmd : sshCommand (Spec.sshAsk .uploadPack deepPath) = .ok (deepPath, .uploadPack) := C56_ssh_partial _ _ (by decide +kernel) (by decide +kernel)
  have hv : utf8Valid (gitInfoRefs .ssh .uploadPack (Hash.toPlainStr (idOf polyExt (.commit, srcCommit.encode)))
      (getRefObjectId m.sql (getHeadObjectId polyExt m.sql s.web.db deepPath).2 deepPath)) = true := by
    rw [getRefObjectId_nil.2 hat2]
    decide +kernel
  have ha : (sshStep demoServer.X m s.ssh 4 (.exec 0 (Spec.sshAsk .uploadPack deepPath))).1 = [(0, gitInfoRefs .ssh .uploadPack
      (Hash.toPlainStr (idOf polyExt (.commit, srcCommit.encode))) (getRefObjectId m.sql (getHeadObjectId polyExt m.sql s.web.db deepPath).2 deepPath))] := by
    show (sshLinkStep polyExt m s.web.db (s.link 4) (.exec 0 (Spec.sshAsk .uploadPack deepPath))).1 = _
    simp only [hl, sshLinkStep, sshExec, hcmd, advertise]
    rw [hgh]
    simp only [Res.bind_ok, hv, if_true, Res.sent, id, gitInfoRefs_ne_nil, if_false]
  obtain ⟨row, k1, k2, k3, k4, k5⟩ := C145_ssh_false demoServer deepPath (by decide +kernel) (by decide +kernel) hlong (by decide +kernel) .uploadPack m hE s
    (by rw [edb, hrefs]; decide +kernel) (by
      intro c hc
      rw [edb] at hc
      have hm := objs _ (.inr ⟨c, hc, rfl⟩)
      have : ∀ o ∈ appObjects, o.data.length ≤ 65531 := by decide +kernel
      exact this _ hm) 4 0 none hl (by rw [hat]; intro r hr; cases hr) _ _ _ ha hcl _ rfl
  refine ⟨pack, rep, _, _, _, s, _, Prod.ext hpush (by rw [hs]), hl, by rw [← hm], by rw [← hm]; exact ha, hcl, ?_, k4⟩
  rw [k3]
  simp

end Gust

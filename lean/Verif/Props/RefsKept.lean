import Verif.Props.Ssh
import Verif.Props.ServerExamples
import Verif.Lemmas.ConcurrentRefs

/-! # C88, C89: what removes a ref -/

namespace Gust

/-- The refs of all repositories: path and name, in the order in which they were created. -/
def Spec.refNames (db : Db) : List (Bytes × Bytes) := db.refs.map (fun r => (r.repoPath, r.refName))

/-! ## Lemmas -/

theorem refNames_modify (l : List RefRow) (i : Nat) (id : Bytes) :
    (l.modify i (fun r => { r with refGitId := id })).map (fun r => (r.repoPath, r.refName)) = l.map (fun r => (r.repoPath, r.refName)) := by
  apply List.ext_getElem?
  intro j
  rw [List.getElem?_map, List.getElem?_map, List.getElem?_modify]
  cases l[j]? with
  | none => rfl
  | some r =>
    simp only [Option.map_some]
    split <;> rfl

theorem insertRefs_names (E : SqlExt) : ∀ (bs : List (List RefRow)) (db : Db), Spec.refNames db <+: Spec.refNames (insertRefs E bs db)
  | [], _ => List.prefix_refl _
  | b :: bs, db => by
    refine List.IsPrefix.trans ?_ (insertRefs_names E bs _)
    unfold Spec.refNames
    simp only
    split
    · rw [List.map_append]; exact List.prefix_append _ _
    · exact List.prefix_refl _

theorem handleRefs_names (E : SqlExt) (cmd : RefCommand) (path : Bytes) (db : Db) : Spec.refNames db <+: Spec.refNames (handleRefs E cmd path db).2 := by
  unfold handleRefs
  split
  · exact insertRefs_names E _ db
  · exact List.prefix_refl _
  · unfold updateRefs
    split
    · rename_i i _
      split
      · simp only [Spec.refNames, refNames_modify]
        exact List.prefix_refl _
      · exact List.prefix_refl _
    · exact List.prefix_refl _

theorem savePackfile_names (E : SqlExt) (fuel : Nat) (p : Pack) (path : Bytes) (db : Db) :
    Spec.refNames (savePackfile E fuel p path db).2 = Spec.refNames db := by
  unfold Spec.refNames
  rw [savePackfile_refs]

theorem gitReceiveDb_names (X : Ext) (E : SqlExt) (fuel : Nat) (st : PushState Db) (body : Bytes) :
    Spec.refNames st.db <+: Spec.refNames (gitReceiveDb (mysqlPush X E fuel) st body) := by
  have same := List.prefix_refl (Spec.refNames st.db)
  unfold gitReceiveDb
  split
  · unfold receiveDataDb
    split
    · exact same
    · simp only [mysqlPush]
      split
      · rename_i p _
        have h := savePackfile_names E fuel p st.path st.db
        split
        · rename_i db1 e
          rw [e] at h
          rw [← h]
          exact handleRefs_names E _ _ _
        · rename_i e
          rw [e] at h
          rw [← h]
      · exact same
  · exact same

theorem getHead_names (X : Ext) (E : SqlExt) (path : Bytes) (db : Db) : Spec.refNames db <+: Spec.refNames (getHeadObjectId X E db path).2 := by
  have same := List.prefix_refl (Spec.refNames db)
  unfold getHeadObjectId
  split
  · exact same
  · split
    · unfold generateChild
      split
      · exact same
      · split
        · split
          · rename_i child _
            have e : Spec.refNames (saveCommits E [child] path db) = Spec.refNames db := by
              unfold Spec.refNames saveCommits; rw [insertCommits_refs]
            rw [← e]
            exact insertRefs_names E _ _
          · exact same
          · exact same
        · exact same
        · exact same
        · exact same
    · exact same

theorem httpReceiveDb_names (X : Ext) (E : SqlExt) (fuel : Nat) (repo body : Bytes) (db : Db) :
    Spec.refNames db <+: Spec.refNames (httpReceiveDb (mysqlPush X E fuel) { caps := [], commands := [], path := repo, db := db } body) := by
  rcases httpReceiveDb_cases X E fuel repo body db with e | ⟨file, p, _, e | ⟨cmd, e⟩⟩
  · rw [e]
  · rw [e, savePackfile_names]
  · have h := handleRefs_names E cmd repo (savePackfile E fuel p repo db).2
    rw [savePackfile_names] at h
    rw [e]
    exact h

theorem serve_names (P : ServerExt) (m : Moment) (s : ServerState) (r : HttpReq) :
    Spec.refNames s.db <+: Spec.refNames (serve P m s r).2.db := by
  rw [serve_db]
  split
  · exact getHead_names _ _ _ _
  · exact httpReceiveDb_names _ _ _ _ _ _
  · exact List.prefix_refl _

theorem sshStep_names (X : Ext) (m : Moment) (s : SshState) (i : Nat) (e : SshEvent) :
    Spec.refNames s.db <+: Spec.refNames (sshStep X m s i e).2.db := by
  have same := List.prefix_refl (Spec.refNames s.db)
  rw [sshStep_db]
  unfold sshLinkStep
  split
  · exact same
  · exact same
  · exact same
  · unfold sshExec
    split
    · have h := fun p => getHead_names X m.sql p s.db
      simp only [advertise]
      rename_i path service _
      split <;> rename_i e <;> have h := h path <;> rw [e] at h <;> exact h
    · exact same
    · exact same
  · unfold sshData
    split
    · exact same
    · split
      · exact same
      · exact gitReceiveDb_names X m.sql m.fuel ⟨_, _, _, s.db⟩ _
  · exact same
  · exact same

theorem act_names (X : Ext) (E : SqlExt) (db : Db) (a : Act) : Spec.refNames db <+: Spec.refNames (a.step X E db).2 := by
  have same := List.prefix_refl (Spec.refNames db)
  cases a with
  | nodes b =>
    simp only [Act.step]
    split <;> exact same
  | commits b => exact same
  | refs b =>
    show Spec.refNames db <+: (if E.acceptRefs db.inserts b then db.refs ++ b else db.refs).map _
    split
    · rw [List.map_append]
      exact List.prefix_append _ _
    · exact same
  | findRef cmd path =>
    simp only [Act.step]
    split <;> exact same
  | setRef i id =>
    simp only [Act.step]
    split
    · show Spec.refNames db <+: (db.refs.modify i (fun r => { r with refGitId := id })).map _
      rw [refNames_modify]
      exact same
    · exact same
  | headRefs path =>
    simp only [Act.step]
    split
    · exact same
    · split <;> exact same
  | headCommit r path =>
    simp only [Act.step]
    split <;> exact same
  | headRoot row r path second =>
    simp only [Act.step]
    split
    · exact same
    · split
      · exact same
      · split <;> exact same
  | fail => exact same

/-! ## C88: refs stay -/

/-- **C88**. Over HTTP: whatever requests the server gets, in any state, every ref that was there is there afterwards, at its place and under its path
and name; refs are only added. This covers requests whose handler crashes and inserts that fail. -/
theorem C88_http (P : ServerExt) (h : List (Moment × HttpReq)) : ∀ s, Spec.refNames s.db <+: Spec.refNames (runServer P s h).db := by
  induction h with
  | nil => intro s; exact List.prefix_refl _
  | cons p h ih => intro s; exact (serve_names P p.1 s p.2).trans (ih _)

/-- **C88**. Over SSH, with any number of connections. -/
theorem C88_ssh (X : Ext) (h : SshHist) : ∀ s, Spec.refNames s.db <+: Spec.refNames (sshRun X s h).db := by
  induction h with
  | nil => intro s; exact List.prefix_refl _
  | cons p h ih => intro s; exact (sshStep_names X p.1 s p.2.1 p.2.2).trans (ih _)

/-- **C88**. When pushes and discoveries overlap, statement by statement, in any order, also when some never come to their end. -/
theorem C88_overlapping {X : Ext} {Q : SqlExt → Prop} {R : Bytes → Prop} {W : Pack → RefCommand → Prop} {s t : Sys} (h : SysRun X Q R W s t) :
    Spec.refNames s.db <+: Spec.refNames t.db := by
  induction h with
  | refl => exact List.prefix_refl _
  | step t u _ hs ih =>
    refine ih.trans ?_
    cases hs with
    | push => exact List.prefix_refl _
    | head => exact List.prefix_refl _
    | act i a as E _ _ => exact act_names X E _ a

/-! ## C89: deletion -/

/-- A command that deletes a ref. -/
def Spec.PushCmd.IsDelete (c : Spec.PushCmd) : Prop := c.new = List.replicate 40 48 ∧ c.old ≠ List.replicate 40 48

theorem delete_kind {c : Spec.PushCmd} (hd : c.IsDelete) (name : Bytes) : (RefCommand.new c.old c.new name).commandType = .delete := by
  have e : zeroId = List.replicate 40 48 := by decide
  simp only [RefCommand.new]
  rw [if_neg (by rw [e]; exact fun h => hd.2 h.symm), if_pos (by rw [e, hd.1])]

/-- What a push that deletes a ref does to the refs: nothing. -/
theorem delete_refs_same {P : ServerExt} {u g : Bytes} (hu : Spec.CleanUrl u) (hg : g = [] ∨ g = ascii ".git") (m : Moment) (s : ServerState)
    {c : Spec.PushCmd} (hc : c.Ok) (hd : c.IsDelete) {caps : Bytes} (hl : caps.length ≤ 4000) (ha : ∀ x ∈ caps, x.toNat < 128) (pack : Bytes) :
    (serve P m s (Spec.pushReq (u ++ g) (Spec.pushBody c [] caps pack))).2.db.refs = s.db.refs := by
  have hr : route .post (u ++ g ++ ascii "/git-receive-pack") none = .receivePack u := route_push hu hg
  rw [serve_db]
  simp only [Spec.pushReq, hr]
  rw [httpReceiveDb, receive_section _ u _ hc hl ha pack]
  simp only [gitReceiveDb]
  split
  · rw [receiveDataDb]
    simp only [List.getLast?_singleton, mysqlPush]
    split
    · rename_i p _
      have h := savePackfile_refs m.sql m.fuel p u s.db
      split
      · rename_i db1 e
        rw [e] at h
        have k : (handleRefs m.sql { RefCommand.new c.old c.new (c.name ++ [0]) with ok := true } u db1).2 = db1 := by
          unfold handleRefs
          rw [show ({ RefCommand.new c.old c.new (c.name ++ [0]) with ok := true } : RefCommand).commandType = .delete from delete_kind hd _]
        rw [k]
        exact h
      · rename_i e
        rw [e] at h
        exact h
    · rfl
  · rfl

/-- **C89** (partial). A push that deletes a ref leaves all other refs of all repositories as they are. -/
theorem C89_others_partial {P : ServerExt} {u g : Bytes} (hu : Spec.CleanUrl u) (hg : g = [] ∨ g = ascii ".git") (m : Moment) (s : ServerState)
    {c : Spec.PushCmd} (hc : c.Ok) (hd : c.IsDelete) {caps : Bytes} (hl : caps.length ≤ 4000) (ha : ∀ x ∈ caps, x.toNat < 128) (pack : Bytes)
    (r : RefRow) (_ : ¬(r.repoPath = u ∧ r.refName = c.name ++ [0])) :
    r ∈ (serve P m s (Spec.pushReq (u ++ g) (Spec.pushBody c [] caps pack))).2.db.refs ↔ r ∈ s.db.refs := by
  rw [delete_refs_same hu hg m s hc hd hl ha pack]

/-- **C89 is false**: a deletion, as git sends it, without a pack, to any repository in any state, is answered as a success with an empty body (no report, even if
one was asked for), and everything stays, also the ref that was to be deleted. -/
theorem C89_delete_false {P : ServerExt} {u g : Bytes} (hu : Spec.CleanUrl u) (hg : g = [] ∨ g = ascii ".git") (m : Moment) (s : ServerState)
    {c : Spec.PushCmd} (hc : c.Ok) {caps : Bytes} (hl : caps.length ≤ 4000) (ha : ∀ x ∈ caps, x.toNat < 128) :
    serve P m s (Spec.pushReq (u ++ g) (Spec.pushBody c [] caps [])) = (.reply (.ok (.bytes [])), s) := by
  have hr : route .post (u ++ g ++ ascii "/git-receive-pack") none = .receivePack u := route_push hu hg
  obtain ⟨st', h1, h2⟩ := C24_delete_lost (mysqlPush P.X m.sql m.fuel) { caps := [], commands := [], path := u, db := s.db } c hc caps hl ha
  have h3 : httpReceiveDb (mysqlPush P.X m.sql m.fuel) { caps := [], commands := [], path := u, db := s.db } (Spec.pushBody c [] caps []) = s.db := by
    rw [httpReceiveDb, receive_section _ u _ hc hl ha []]
    rfl
  unfold serve
  simp only [Spec.pushReq, hr, h1, h3]
  rfl

/-- **C89 is false** also for a client that sends a pack along: when the pack is accepted, the connection is dropped without a reply. -/
theorem C89_delete_pack_false {P : ServerExt} {u g : Bytes} (hu : Spec.CleanUrl u) (hg : g = [] ∨ g = ascii ".git") (m : Moment) (s : ServerState)
    {c : Spec.PushCmd} (hc : c.Ok) (hd : c.IsDelete) {caps : Bytes} (hl : caps.length ≤ 4000) (ha : ∀ x ∈ caps, x.toNat < 128) {pack : Bytes}
    (hp : (ascii "PACK").isPrefixOf pack = true) {p : Pack} (hdec : decodePack P.X (getHashObject P.X m.sql s.db) m.fuel pack = .ok p) {db1 : Db}
    (hsave : savePackfile m.sql m.fuel p u s.db = (.ok (), db1)) :
    serve P m s (Spec.pushReq (u ++ g) (Spec.pushBody c [] caps pack)) = (.reply .panic, { s with db := db1 }) := by
  have hr : route .post (u ++ g ++ ascii "/git-receive-pack") none = .receivePack u := route_push hu hg
  have k : handleRefs m.sql { RefCommand.new c.old c.new (c.name ++ [0]) with ok := true } u db1 = (.panic, db1) := by
    unfold handleRefs
    rw [show ({ RefCommand.new c.old c.new (c.name ++ [0]) with ok := true } : RefCommand).commandType = .delete from delete_kind hd _]
  unfold serve
  simp only [Spec.pushReq, hr]
  rw [httpReceiveDb, httpReceivePack, receive_section _ u _ hc hl ha pack]
  simp only [Res.unwrap_ok, Res.bind_ok]
  rw [gitReceivePack, gitReceiveDb, hp, if_pos rfl, if_pos rfl, receiveData, receiveDataDb]
  simp only [List.getLast?_singleton, mysqlPush, hdec, hsave, k]
  rfl

/-! ## Examples -/

/-- A server with two branches of one repository and one of another. -/
def threeRefs : ServerState :=
  { ServerState.empty with
    db := { nodes := [], commits := [], inserts := 3, refs := [{ repoPath := ascii "/app", refName := ascii "refs/heads/master" ++ [0], refGitId := exId },
      { repoPath := ascii "/app", refName := ascii "refs/heads/old" ++ [0], refGitId := exId },
      { repoPath := ascii "/lib", refName := ascii "refs/heads/old" ++ [0], refGitId := exId }] } }

/-- `git push --delete origin old`. -/
def dropOld : Spec.PushCmd := { old := exId, new := List.replicate 40 48, name := ascii "refs/heads/old" }

theorem dropOld_ok : dropOld.Ok := ⟨by decide, by decide, by decide, by decide, by decide, by decide, by decide⟩

-- `old` stays, in spite of the reply
example : (serve demoServer demoMoment threeRefs (Spec.pushReq (ascii "/app.git") (Spec.pushBody dropOld [] (ascii "report-status") []))).1 = .reply (.ok (.bytes [])) ∧
    (ascii "/app", ascii "refs/heads/old" ++ [0]) ∈
      Spec.refNames (serve demoServer demoMoment threeRefs (Spec.pushReq (ascii "/app.git") (Spec.pushBody dropOld [] (ascii "report-status") []))).2.db := by
  have h := C89_delete_false (P := demoServer) (g := ascii ".git") app_clean_url (.inr rfl) demoMoment threeRefs dropOld_ok (caps := ascii "report-status") (by decide) (by decide)
  rw [show ascii "/app" ++ ascii ".git" = ascii "/app.git" by decide] at h
  rw [h]
  exact ⟨rfl, by decide +kernel⟩

-- `dropOld` is a deletion, and `master` and `/lib` are among the other refs
example : dropOld.IsDelete ∧ ∀ r ∈ threeRefs.db.refs, (r.repoPath = ascii "/app" ∧ r.refName = dropOld.name ++ [0]) ∨ r ∈
    (serve demoServer demoMoment threeRefs (Spec.pushReq (ascii "/app.git") (Spec.pushBody dropOld [] [] (ascii "PACK")))).2.db.refs := by
  have hd : dropOld.IsDelete := ⟨rfl, by decide⟩
  refine ⟨hd, fun r hr => ?_⟩
  by_cases hn : r.repoPath = ascii "/app" ∧ r.refName = dropOld.name ++ [0]
  · exact .inl hn
  · have h := C89_others_partial (P := demoServer) (g := ascii ".git") app_clean_url (.inr rfl) demoMoment threeRefs dropOld_ok hd (caps := []) (by decide) (by decide)
      (ascii "PACK") r hn
    rw [show ascii "/app" ++ ascii ".git" = ascii "/app.git" by decide] at h
    exact .inr (h.2 hr)

-- with the pack of the example repository the connection is dropped
example : ∃ pack, (serve demoServer demoMoment .empty (Spec.pushReq (ascii "/app.git") (Spec.pushBody dropOld [] [] pack))).1 = .reply .panic := by
  obtain ⟨pack, p, _, _, h1, h2, h3, _⟩ := app_push demoSql (fun _ _ => rfl) 0 (ascii "/app") (ascii "report-status") (by decide) (by decide) Db.empty
  obtain ⟨hist, e, _⟩ := decodePack_hist h2
  obtain ⟨db1, h4⟩ := app_stored (by rw [e]; exact PackCache.keyed_run hist) h3 demoSql (fun _ _ => rfl) 0 (ascii "/app") Db.empty
  have h := C89_delete_pack_false (P := demoServer) (g := ascii ".git") app_clean_url (.inr rfl) demoMoment .empty dropOld_ok ⟨rfl, by decide⟩ (caps := []) (by decide) (by decide)
    h1 h2 h4
  rw [show ascii "/app" ++ ascii ".git" = ascii "/app.git" by decide] at h
  exact ⟨pack, by rw [h]⟩

-- three requests, one of them a push that crashes: the refs are still there
example (pack : Bytes) : Spec.refNames threeRefs.db <+: Spec.refNames (runServer demoServer threeRefs
    [(demoMoment, discoverReq (ascii "/app/src")), (demoMoment, Spec.pushReq (ascii "/app") (Spec.pushBody dropOld [] [] pack)),
      (demoMoment, Spec.pushReq (ascii "/lib") (Spec.pushBody dropOld [] [] []))]).db ∧ (Spec.refNames threeRefs.db).length = 3 :=
  ⟨C88_http demoServer _ _, rfl⟩

end Gust

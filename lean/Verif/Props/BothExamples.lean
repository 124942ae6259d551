import Verif.Props.Both
import Verif.Props.PublishExamples
import Verif.Props.SshExamples

/-! # C115 on concrete runs, and where it fails -/

namespace Gust

open Spec (nodeObj StoreReach commitsAt InRepo)

/-- What a client is sent that has sent the command section over SSH and now sends the pack. -/
theorem ssh_pushed {P : ServerExt} {u : Bytes} {c : Spec.PushCmd} (hc : c.Ok) {caps : Bytes} (hl : caps.length ≤ 4000) (hx : ∀ x ∈ caps, x.toNat < 128)
    {pack rep : Bytes} {m : Moment} {s : Both} {i : Nat} (ch : Nat) {st' : PushState Db}
    (hlink : s.link i = .ready (some { service := .receivePack, path := u, caps := parseCapabilities caps, commands := [RefCommand.new c.old c.new (c.name ++ [0])] }))
    (h : httpReceivePack (mysqlPush P.X m.sql m.fuel) { caps := [], commands := [], path := u, db := s.web.db } (Spec.pushBody c [] caps pack) = .ok (rep, st'))
    (hne : rep ≠ []) : (sshStep P.X m s.ssh i (.data ch pack)).1 = [(ch, rep)] := by
  show (sshLinkStep P.X m s.web.db (s.link i) (.data ch pack)).1 = _
  have key := receive_section (mysqlPush P.X m.sql m.fuel) u s.web.db hc hl hx pack
  unfold httpReceivePack at h
  rw [key, Res.unwrap_ok, Res.bind_ok] at h
  rw [hlink]
  simp only [sshLinkStep, sshData, sshReceivePack]
  rw [show (gitReceivePack (mysqlPush P.X m.sql m.fuel)
        { caps := parseCapabilities caps, commands := [RefCommand.new c.old c.new (c.name ++ [0])], path := u, db := s.web.db } pack).unwrap = .ok (rep, st') from h]
  simp only [Res.sent, if_neg hne]

/-- Connection 1 is open for fetching from `/app`, connection 0 for pushing to it. -/
def bothBefore : BothHist :=
  [(demoMoment, .ssh 1 logIn), (demoMoment, .ssh 1 (askFor .uploadPack 0 (ascii "/app"))), (demoMoment, .ssh 0 logIn), (demoMoment, .ssh 0 (askFor .receivePack 0 (ascii "/app"))),
   (demoMoment, .ssh 0 (.data 0 (Spec.pushBody appCmd [] (ascii "report-status") [])))]

theorem bothBefore_db : (runBoth demoServer .empty bothBefore).web.db = Db.empty := by decide +kernel

theorem bothBefore_push : (runBoth demoServer .empty bothBefore).link 0 = .ready (some { service := .receivePack, path := ascii "/app", caps := parseCapabilities (ascii "report-status"),
                                                                                          commands := [RefCommand.new appCmd.old appCmd.new (appCmd.name ++ [0])] }) := by decide +kernel

theorem bothBefore_fetch : (runBoth demoServer .empty bothBefore).link 1 = .ready (some { service := .uploadPack, path := ascii "/app", caps := [], commands := [] }) := by decide +kernel

/-- The push of the example repository after that, over HTTP or over SSH. -/
theorem both_pushed : ∃ (pack rep : Bytes) (p : Pack), (ascii "PACK").isPrefixOf pack = true ∧ 
    decodePack polyExt (getHashObject polyExt demoSql Db.empty) 2 pack = .ok p ∧ (∀ h m, p.result.hashObject h = some m ↔ m ∈ appObjects ∧ m.id = h) ∧
    Spec.reportLines false rep = some [ascii "unpack ok\n", Spec.statusLine (ascii "refs/heads/master" ++ [0]) none] ∧
    Spec.PushedAny demoServer (ascii "/app") appCmd (ascii "report-status") pack rep demoMoment bothBefore (bothBefore ++ [(demoMoment, .ssh 0 (.data 0 pack))]) ∧
    Spec.PushedAny demoServer (ascii "/app") appCmd (ascii "report-status") pack rep demoMoment bothBefore
      (bothBefore ++ [(demoMoment, .http (Spec.pushReq (ascii "/app" ++ ascii ".git") (Spec.pushBody appCmd [] (ascii "report-status") pack)))]) := by
  obtain ⟨pack, p, out, st', h1, h2, h3, h4, h5⟩ := app_push demoSql (fun _ _ => rfl) 0 (ascii "/app") (ascii "report-status") (by decide) (by decide) Db.empty
  rw [show decide (Capability.sideBand ∈ parseCapabilities (ascii "report-status") ∨ Capability.sideBand64k ∈ parseCapabilities (ascii "report-status")) = false by
    decide +kernel] at h5
  have hne : out ≠ [] := by
    rintro rfl
    simp [Spec.reportLines, Spec.readPkts, Spec.readPktsFuel] at h5
  refine ⟨pack, out, p, h1, h2, h3, h5, ?_, ?_⟩
  · refine .ssh [(demoMoment, .ssh 1 logIn), (demoMoment, .ssh 1 (askFor .uploadPack 0 (ascii "/app"))), (demoMoment, .ssh 0 logIn)] [] [] bothBefore demoMoment demoMoment 0 0 0 0
      (by decide) (by decide) (fun _ h => nomatch h) (fun _ h => nomatch h) rfl ?_
    refine ssh_pushed (u := ascii "/app") (c := appCmd) (caps := ascii "report-status") (m := demoMoment) (st' := st') appCmd_ok (by decide) (by decide) 0 bothBefore_push ?_ hne
    rw [bothBefore_db]
    exact h4
  · refine .http bothBefore (ascii ".git") app_clean_url (.inr rfl) ?_
    have hroute : route .post (ascii "/app" ++ ascii ".git" ++ ascii "/git-receive-pack") none = .receivePack (ascii "/app") := route_push app_clean_url (.inr rfl)
    simp only [serve, Spec.pushReq, hroute, bothBefore_db]
    have r3 : httpReceivePack (mysqlPush demoServer.X demoMoment.sql demoMoment.fuel) { caps := [], commands := [], path := ascii "/app", db := Db.empty }
        (Spec.pushBody appCmd [] (ascii "report-status") pack) = .ok (out, st') := h4
    simp only [r3]
    rfl

/-- What is stored then. -/
theorem both_objs {pack rep : Bytes} {p : Pack} {h' : BothHist} (h1 : (ascii "PACK").isPrefixOf pack = true)
    (h2 : decodePack polyExt (getHashObject polyExt demoSql Db.empty) 2 pack = .ok p) (h3 : ∀ h m, p.result.hashObject h = some m ↔ m ∈ appObjects ∧ m.id = h)
    (hp : Spec.PushedAny demoServer (ascii "/app") appCmd (ascii "report-status") pack rep demoMoment bothBefore h') :
    ∀ o, StoredObj (runBoth demoServer .empty h').web.db o → metaOf polyExt o ∈ appObjects := by
  obtain ⟨st', e1, e2, _⟩ := pushedAny_http appCmd_ok (by decide) (by decide) hp
  rw [bothBefore_db] at e1
  rw [e2]
  obtain ⟨p', db1, q1, q2, q3, q4, _⟩ := push_run (path := ascii "/app") .empty appCmd_ok (by decide) (by decide) h1 e1
  have : p' = p := Res.ok.inj (q1.symm.trans h2)
  subst this
  intro o ho
  apply app_stored_objs h2 h3 demoMoment.sql demoMoment.fuel (ascii "/app") o
  have q2 : (savePackfile demoMoment.sql demoMoment.fuel p' (ascii "/app") Db.empty).2 = db1 := by rw [q2]
  rw [q2]
  rcases ho with ⟨n, hn, e⟩ | ⟨n, hn, e⟩
  · exact .inl ⟨n, by rw [← q3]; exact hn, e⟩
  · exact .inr ⟨n, by rw [← q4]; exact hn, e⟩

/-- Every repository named is `/app`. -/
theorem bothBefore_names : ∀ x ∈ bothBefore, x.1.sql.fold = demoFold ∧ ∀ a, x.2.repo = some a → a = ascii "/app" := by
  intro x hx
  simp only [bothBefore, List.mem_cons, List.not_mem_nil, or_false] at hx
  rcases hx with rfl | rfl | rfl | rfl | rfl
  · exact ⟨rfl, fun _ e => nomatch e⟩
  · refine ⟨rfl, fun a e => ?_⟩
    rw [show Visit.repo (.ssh 1 (askFor .uploadPack 0 (ascii "/app"))) = some (ascii "/app") by decide +kernel] at e
    exact (Option.some.inj e).symm
  · exact ⟨rfl, fun _ e => nomatch e⟩
  · refine ⟨rfl, fun a e => ?_⟩
    rw [show Visit.repo (.ssh 0 (askFor .receivePack 0 (ascii "/app"))) = some (ascii "/app") by decide +kernel] at e
    exact (Option.some.inj e).symm
  · exact ⟨rfl, fun _ e => nomatch e⟩

/-- After the push, however it was made, the clone over HTTP and the one on connection 1 have the same answer; whoever checks it out finds the file `src/a`. -/
theorem both_cloned {pack rep : Bytes} {p : Pack} {v : Visit} (h1 : (ascii "PACK").isPrefixOf pack = true)
    (h2 : decodePack polyExt (getHashObject polyExt demoSql Db.empty) 2 pack = .ok p) (h3 : ∀ h m, p.result.hashObject h = some m ↔ m ∈ appObjects ∧ m.id = h)
    (hp : Spec.PushedAny demoServer (ascii "/app") appCmd (ascii "report-status") pack rep demoMoment bothBefore (bothBefore ++ [(demoMoment, v)]))
    (hv : ∀ a, v.repo = some a → a = ascii "/app") (hv1 : ∀ e, v ≠ .ssh 1 e) : ∃ (m : Moment) (out file : Bytes) (q : Pack), (∃ fuel, m = { demoMoment with fuel := fuel }) ∧
    (serve demoServer m (runBoth demoServer .empty (bothBefore ++ [(demoMoment, v)])).web (Spec.fetchReq (ascii "/app") (doneBody cloneLines (ascii "\n") []))).1 = .reply (.ok (.bytes out)) ∧
    (sshStep polyExt m (runBoth demoServer .empty (bothBefore ++ [(demoMoment, v)])).ssh 1 (.data 0 (doneBody cloneLines (ascii "\n") []))).1 = [(0, out)] ∧
    Spec.readClone out = some file ∧ decodePack polyExt (fun _ => none) 1 file = .ok q ∧
    Spec.CheckedOut q.result.hashObject (idOf polyExt (.commit, appCommit.encode)) [ascii "src", ascii "a"] (ascii "100644") (ascii "one") := by
  have objs := both_objs h1 h2 h3 hp
  have names : ∀ x ∈ bothBefore ++ [(demoMoment, v)], x.1.sql.fold = demoFold ∧ ∀ a, x.2.repo = some a → a = ascii "/app" := by
    intro x hx
    rcases List.mem_append.1 hx with hx | hx
    · exact bothBefore_names x hx
    · cases List.mem_singleton.1 hx
      exact ⟨rfl, hv⟩
  have hab : Spec.NoneAboveAny demoFold (ascii "/app") (bothBefore ++ [(demoMoment, v)]) := by
    intro a ha b hb x y hx hy _ _
    rw [(names a ha).2 x hx, (names b hb).2 y hy]
  have hfl : Spec.SameFoldAny demoFold (bothBefore ++ [(demoMoment, v)]) := fun x hx => (names x hx).1
  have hcommit : p.result.hashObject (idOf polyExt (.commit, appCommit.encode)) = some (metaOf polyExt (.commit, appCommit.encode)) :=
    (h3 _ _).2 ⟨by simp [appObjects, appThin], rfl⟩
  have find : ∀ m ∈ appObjects, p.result.hashObject m.id = some m := fun m hm => (h3 _ _).2 ⟨hm, rfl⟩
  have hdec : decodePack demoServer.X (getHashObject demoServer.X demoMoment.sql (runBoth demoServer .empty bothBefore).web.db) demoMoment.fuel pack = .ok p := by
    rw [bothBefore_db]; exact h2
  have hopen : Spec.Opened demoServer (ascii "/app") 1 (bothBefore ++ [(demoMoment, v)]) := by
    refine ⟨[(demoMoment, .ssh 1 logIn)], [(demoMoment, .ssh 0 logIn), (demoMoment, .ssh 0 (askFor .receivePack 0 (ascii "/app"))),
      (demoMoment, .ssh 0 (.data 0 (Spec.pushBody appCmd [] (ascii "report-status") []))), (demoMoment, v)], demoMoment, 0, ?_, by decide, by decide, rfl,
      some { service := .uploadPack, path := ascii "/app", caps := [], commands := [] }, ?_⟩
    · intro x hx e
      simp only [List.mem_cons, List.not_mem_nil, or_false] at hx
      rcases hx with rfl | rfl | rfl | rfl
      · simp
      · simp
      · simp
      · exact hv1 e
    · rw [runBoth_append, runBoth_elsewhere demoServer [(demoMoment, v)] _ (by intro x hx; cases List.mem_singleton.1 hx; exact hv1), bothBefore_fetch]
  obtain ⟨m, hm⟩ : ∃ m : Moment, m = { demoMoment with fuel := (runBoth demoServer .empty (bothBefore ++ [(demoMoment, v)])).web.db.nodes.length } := ⟨_, rfl⟩
  have hord : ∀ l x, x ∈ m.ord l ↔ x ∈ l := by rw [hm]; exact fun _ _ => .rfl
  have hcut : Spec.CutOk m.cut := by rw [hm]; exact demoCut_ok
  have hms : m.sql.fold = demoServer.D.fold := by rw [hm]; rfl
  obtain ⟨out, o1, o2⟩ := C115_answered_partial demoServer demoFold_hash (ascii "/app") appCmd appCmd_ok (ascii "report-status") (by decide) (by decide) pack h1 rep demoMoment m bothBefore
    (bothBefore ++ [(demoMoment, v)]) [] hp (fun _ _ => rfl) p hdec ⟨metaOf polyExt (.commit, appCommit.encode), hcommit, rfl⟩ (by rw [List.append_nil]; exact hfl) hms (by rw [List.append_nil]; exact hab)
    (by rw [List.append_nil]; exact app_unique objs) (by rw [List.append_nil]; exact app_fits objs) (by rw [List.append_nil, hm]) hord hcut cloneLines (ascii "\n") [] cloneLines_ok
  rw [List.append_nil] at o1 o2
  have o1 := o1 [] app_clean_url (.inl rfl)
  have o2 := o2 1 0 hopen
  obtain ⟨p', file, d1, k1, k2⟩ := C115_checkout_partial demoServer demoFold_hash (ascii "/app") appCmd appCmd_ok (ascii "report-status") (by decide) (by decide) pack h1 rep demoMoment m bothBefore
    (bothBefore ++ [(demoMoment, v)]) [] hp (fun _ _ => rfl) (by rw [List.append_nil]; exact hfl) hms (by rw [List.append_nil]; exact hab)
    (by rw [List.append_nil]; exact app_unique objs) (by rw [List.append_nil]; exact app_fits objs) hord hcut cloneLines (ascii "\n") [] cloneLines_ok out
    (by rw [List.append_nil]; exact .ssh 1 0 hopen o2)
  rw [hdec] at d1
  cases d1
  obtain ⟨q, q1, q2⟩ := k2 (fun _ => none) 0
  refine ⟨m, out, file, q, ⟨_, hm⟩, o1, o2, k1, q1, (q2 (metaOf polyExt (.commit, appCommit.encode)) hcommit rfl _ _ _).1 ?_⟩
  refine ⟨_, appCommit, rfl, hcommit, rfl, appCommit_decode, ?_⟩
  refine .dir (metaOf polyExt (.tree, encodeTree appItems)) appItems (dirItem "src" (idOf polyExt (.tree, encodeTree srcA))) _ _ _
    (find _ (by simp [appObjects, appThin])) rfl appItems_decode (by simp [appItems]) rfl ?_
  exact .file (metaOf polyExt (.tree, encodeTree srcA)) appBlob srcA (fileItem "a" (polyId .blob (ascii "one"))) (find _ (by simp [appObjects, appThin])) rfl srcA_decode
    (by simp [srcA]) (by decide) rfl (find _ (by simp [appObjects])) rfl

/-- C115: a push over SSH to `//app.git`; then clones over HTTP and over SSH are answered, and the file `src/a` is there. -/
example : ∃ (pack rep : Bytes) (m : Moment) (out file : Bytes) (q : Pack),
    Spec.PushedAny demoServer (ascii "/app") appCmd (ascii "report-status") pack rep demoMoment bothBefore (bothBefore ++ [(demoMoment, .ssh 0 (.data 0 pack))]) ∧
    (serve demoServer m (runBoth demoServer .empty (bothBefore ++ [(demoMoment, .ssh 0 (.data 0 pack))])).web
      (Spec.fetchReq (ascii "/app") (doneBody cloneLines (ascii "\n") []))).1 = .reply (.ok (.bytes out)) ∧
    (sshStep polyExt m (runBoth demoServer .empty (bothBefore ++ [(demoMoment, .ssh 0 (.data 0 pack))])).ssh 1 (.data 0 (doneBody cloneLines (ascii "\n") []))).1 = [(0, out)] ∧
    Spec.readClone out = some file ∧ decodePack polyExt (fun _ => none) 1 file = .ok q ∧
    Spec.CheckedOut q.result.hashObject (idOf polyExt (.commit, appCommit.encode)) [ascii "src", ascii "a"] (ascii "100644") (ascii "one") := by
  obtain ⟨pack, rep, p, h1, h2, h3, _, h5, _⟩ := both_pushed
  obtain ⟨m, out, file, q, _, k⟩ := both_cloned h1 h2 h3 h5 (fun _ e => nomatch e) (by simp)
  exact ⟨pack, rep, m, out, file, q, h5, k⟩

/-- C115: the same for a push over HTTP. -/
example : ∃ (pack rep : Bytes) (v : Visit) (m : Moment) (out file : Bytes) (q : Pack),
    v = .http (Spec.pushReq (ascii "/app" ++ ascii ".git") (Spec.pushBody appCmd [] (ascii "report-status") pack)) ∧
    Spec.PushedAny demoServer (ascii "/app") appCmd (ascii "report-status") pack rep demoMoment bothBefore (bothBefore ++ [(demoMoment, v)]) ∧
    (sshStep polyExt m (runBoth demoServer .empty (bothBefore ++ [(demoMoment, v)])).ssh 1 (.data 0 (doneBody cloneLines (ascii "\n") []))).1 = [(0, out)] ∧
    Spec.readClone out = some file ∧ decodePack polyExt (fun _ => none) 1 file = .ok q ∧
    Spec.CheckedOut q.result.hashObject (idOf polyExt (.commit, appCommit.encode)) [ascii "src", ascii "a"] (ascii "100644") (ascii "one") := by
  obtain ⟨pack, rep, p, h1, h2, h3, _, _, h5⟩ := both_pushed
  obtain ⟨v, hv⟩ : ∃ v, v = Visit.http (Spec.pushReq (ascii "/app" ++ ascii ".git") (Spec.pushBody appCmd [] (ascii "report-status") pack)) := ⟨_, rfl⟩
  rw [← hv] at h5
  have hroute : route .post (ascii "/app" ++ ascii ".git" ++ ascii "/git-receive-pack") none = .receivePack (ascii "/app") := route_push app_clean_url (.inr rfl)
  obtain ⟨m, out, file, q, _, _, k⟩ := both_cloned h1 h2 h3 h5 (by
    intro a e
    simp only [hv, Visit.repo, HttpReq.repo, Spec.pushReq, hroute] at e
    exact (Option.some.inj e).symm) (by simp [hv])
  exact ⟨pack, rep, v, m, out, file, q, hv, h5, k⟩

/-- On an SSH session for a repository without commits, a clone request is not answered, and the connection is closed. -/
theorem empty_clone_ssh {P : ServerExt} {u : Bytes} {i : Nat} {h : BothHist} (ho : Spec.Opened P u i h) {m : Moment} (hord : ∀ l x, x ∈ m.ord l ↔ x ∈ l) (hcut : Spec.CutOk m.cut)
    (hne : commitsAt m.sql.fold (runBoth P .empty h).web.db.commits u = []) {ls : List Spec.ReqLine} {t : Bytes} (hr : Spec.CloneReq ls t) (rest : Bytes) (ch : Nat) :
    (sshStep P.X m (runBoth P .empty h).ssh i (.data ch (doneBody ls t rest))).1 = [] := by
  rw [opened_sent ho (fun l x => (hord l x).1)]
  generalize hh : httpUploadPack (mysqlFetch P.X m.sql m.fuel (runBoth P .empty h).web.db u) m.ord m.cut (doneBody ls t rest) = r
  cases r with
  | ok out =>
    obtain ⟨file, e, _⟩ := httpUploadPack_clone hord hcut hr hh
    have e : getFullPack P.X m.sql m.fuel (runBoth P .empty h).web.db u = .ok file := e
    rw [C49_empty_clone_false P.X m.sql m.fuel u _ hne] at e
    cases e
  | _ => rfl

/-- Connection 1 has asked for `/app.git`, with the same path as in the URL of the HTTP server. -/
def bothAsked : BothHist := [(demoMoment, .ssh 1 logIn), (demoMoment, .ssh 1 (askFor .uploadPack 0 (ascii "app")))]

/-- **C115 is false** for clients that use the path of the repository as the HTTP server has it: after a push over HTTP to `/app.git` that was reported as done, the same
path `/app.git` over SSH is another repository, without any commits; clone requests for it are never answered. (The leading slash is dropped over SSH; the pushed repository is
`//app.git` there.) -/
theorem C115_same_url_false : ∃ (pack rep : Bytes) (h' : BothHist), h' = bothAsked ++ [(demoMoment, .http (Spec.pushReq (ascii "/app.git") (Spec.pushBody appCmd [] (ascii "report-status") pack)))] ∧
    (serve demoServer demoMoment (runBoth demoServer .empty bothAsked).web (Spec.pushReq (ascii "/app.git") (Spec.pushBody appCmd [] (ascii "report-status") pack))).1 = .reply (.ok (.bytes rep)) ∧
    Spec.reportLines false rep = some [ascii "unpack ok\n", Spec.statusLine (ascii "refs/heads/master" ++ [0]) none] ∧
    Spec.sshAsk .uploadPack (ascii "app") = Spec.sshLine .uploadPack (ascii "/app.git") ∧ Spec.Opened demoServer (ascii "app") 1 h' ∧
    ∀ (m : Moment) (ls : List Spec.ReqLine) (t rest : Bytes) (ch : Nat), m.sql.fold = demoFold → (∀ l x, x ∈ m.ord l ↔ x ∈ l) → Spec.CutOk m.cut → Spec.CloneReq ls t →
      (sshStep polyExt m (runBoth demoServer .empty h').ssh 1 (.data ch (doneBody ls t rest))).1 = [] := by
  have hdb : (runBoth demoServer .empty bothAsked).web.db = Db.empty := by decide +kernel
  have hlink : (runBoth demoServer .empty bothAsked).link 1 = .ready (some { service := .uploadPack, path := ascii "app", caps := [], commands := [] }) := by decide +kernel
  obtain ⟨pack, p, out, st', h1, h2, h3, h4, h5⟩ := app_push demoSql (fun _ _ => rfl) 0 (ascii "/app") (ascii "report-status") (by decide) (by decide) Db.empty
  rw [show decide (Capability.sideBand ∈ parseCapabilities (ascii "report-status") ∨ Capability.sideBand64k ∈ parseCapabilities (ascii "report-status")) = false by
    decide +kernel] at h5
  have ha : (serve demoServer demoMoment (runBoth demoServer .empty bothAsked).web (Spec.pushReq (ascii "/app" ++ ascii ".git") (Spec.pushBody appCmd [] (ascii "report-status") pack))).1 =
      .reply (.ok (.bytes out)) := by
    have hroute : route .post (ascii "/app" ++ ascii ".git" ++ ascii "/git-receive-pack") none = .receivePack (ascii "/app") := route_push app_clean_url (.inr rfl)
    simp only [serve, Spec.pushReq, hroute, hdb]
    have r3 : httpReceivePack (mysqlPush demoServer.X demoMoment.sql demoMoment.fuel) { caps := [], commands := [], path := ascii "/app", db := Db.empty }
        (Spec.pushBody appCmd [] (ascii "report-status") pack) = .ok (out, st') := h4
    simp only [r3]
    rfl
  have hpa := Spec.PushedAny.http bothAsked (ascii ".git") app_clean_url (.inr rfl) ha
  obtain ⟨h', hh⟩ : ∃ h', h' = bothAsked ++ [(demoMoment, Visit.http (Spec.pushReq (ascii "/app" ++ ascii ".git") (Spec.pushBody appCmd [] (ascii "report-status") pack)))] := ⟨_, rfl⟩
  rw [← hh] at hpa
  have hopen : Spec.Opened demoServer (ascii "app") 1 h' := by
    refine ⟨[(demoMoment, .ssh 1 logIn)], [(demoMoment, .http (Spec.pushReq (ascii "/app" ++ ascii ".git") (Spec.pushBody appCmd [] (ascii "report-status") pack)))], demoMoment, 0, ?_, by decide,
      by decide, hh, some { service := .uploadPack, path := ascii "app", caps := [], commands := [] }, ?_⟩
    · intro x hx e
      cases List.mem_singleton.1 hx
      simp
    · rw [hh, runBoth_append, runBoth_elsewhere demoServer _ _ (by intro x hx; cases List.mem_singleton.1 hx; simp), hlink]
  refine ⟨pack, out, h', hh, ha, h5, by decide, hopen, fun m ls t rest ch hm hord hcut hr => ?_⟩
  refine empty_clone_ssh hopen hord hcut ?_ hr rest ch
  obtain ⟨st'', e1, e2, _⟩ := pushedAny_http appCmd_ok (by decide) (by decide) hpa
  rw [hdb] at e1
  obtain ⟨p', db1, q1, q2, q3, q4, _⟩ := push_run (path := ascii "/app") .empty appCmd_ok (by decide) (by decide) h1 e1
  have : p' = p := Res.ok.inj (q1.symm.trans h2)
  subst this
  have hpaths := app_commits_path (repo := ascii "/app") h2
  have q2 : (savePackfile demoSql 2 p' (ascii "/app") Db.empty).2 = db1 := by
    show (savePackfile demoMoment.sql demoMoment.fuel p' (ascii "/app") Db.empty).2 = db1
    rw [q2]
  rw [show (0 + 2) = 2 from rfl, q2] at hpaths
  rw [List.eq_nil_iff_forall_not_mem]
  intro r hr'
  obtain ⟨r1, r2⟩ := commitsAt_mem.1 hr'
  rw [e2, q4] at r1
  rw [hpaths r r1, hm] at r2
  revert r2
  decide

end Gust

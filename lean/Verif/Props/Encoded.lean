import Verif.Props.SubCloneExamples
import Verif.Props.Asked
import Verif.Props.NoMaster
import Verif.Spec.Json

/-! # C147: directories whose names a URL has to encode -/

namespace Gust

/-- The characters that stand for themselves in a segment of the path of a URL, RFC 3986 (`pchar` without `pct-encoded`). -/
def Spec.urlByte (c : UInt8) : Bool :=
  (0x41 ≤ c && c ≤ 0x5a) || (0x61 ≤ c && c ≤ 0x7a) || (0x30 ≤ c && c ≤ 0x39) ||
    [0x2d, 0x2e, 0x5f, 0x7e, 0x21, 0x24, 0x26, 0x27, 0x28, 0x29, 0x2a, 0x2b, 0x2c, 0x3b, 0x3d, 0x3a, 0x40].contains c

/-- `Spec.UrlName w d`: the segment `w` of a URL stands for the name `d`. -/
inductive Spec.UrlName : Bytes → Bytes → Prop
  | nil : Spec.UrlName [] []
  | plain (c : UInt8) (w d : Bytes) : Spec.urlByte c = true → Spec.UrlName w d → Spec.UrlName (c :: w) (c :: d)
  | code (a b : UInt8) (x y : Nat) (w d : Bytes) : Spec.HexDigit a x → Spec.HexDigit b y → Spec.UrlName w d →
      Spec.UrlName (0x25 :: a :: b :: w) (UInt8.ofNat (x * 16 + y) :: d)

theorem urlName_length {w d : Bytes} (h : Spec.UrlName w d) : d.length ≤ w.length ∧ ((∃ c ∈ d, Spec.urlByte c = false) → d.length < w.length) := by
  induction h with
  | nil => exact ⟨Nat.le_refl _, fun ⟨c, h, _⟩ => by cases h⟩
  | plain c w d hc _ ih =>
    refine ⟨Nat.succ_le_succ ih.1, fun ⟨x, hx, h⟩ => ?_⟩
    rcases List.mem_cons.1 hx with rfl | hx
    · rw [hc] at h; cases h
    · exact Nat.succ_lt_succ (ih.2 ⟨x, hx, h⟩)
  | code a b x y w d _ _ _ ih =>
    simp only [List.length_cons]
    exact ⟨by omega, fun _ => by omega⟩

/-- A name with a space, say, or a letter that is not ASCII never stands for itself in a URL. -/
theorem C147_written_differs {w d : Bytes} (h : Spec.UrlName w d) (hd : ∃ c ∈ d, Spec.urlByte c = false) : w ≠ d := by
  rintro rfl
  exact Nat.lt_irrefl _ ((urlName_length h).2 hd)

example : Spec.UrlName (ascii "my%20dir") (ascii "my dir") ∧ ascii "my%20dir" ≠ ascii "my dir" := by
  have h : Spec.UrlName (ascii "my%20dir") (ascii "my dir") := by
    refine .plain _ _ _ (by decide) (.plain _ _ _ (by decide) (.code 0x32 0x30 2 0 _ _ ⟨by decide, by decide⟩ ⟨by decide, by decide⟩ ?_))
    exact .plain _ _ _ (by decide) (.plain _ _ _ (by decide) (.plain _ _ _ (by decide) .nil))
  exact ⟨h, C147_written_differs h ⟨0x20, by decide, by decide⟩⟩

/-- **C147 (partial)** A segment without `%` stands for itself, so that the name which the server looks for is the name of the directory meant, and `C110_subdirectory_partial`
says what a clone of it gives. (Missing from the full claim: segments with `%`, for which it is false.) -/
theorem C147_plain_partial {w d : Bytes} (h : Spec.UrlName w d) (hp : (0x25 : UInt8) ∉ w) : w = d := by
  induction h with
  | nil => rfl
  | plain c w d _ _ ih => rw [ih (fun h => hp (List.mem_cons_of_mem _ h))]
  | code => exact absurd List.mem_cons_self hp

example : ∀ w, Spec.UrlName w (ascii "src") → (0x25 : UInt8) ∉ w → fileName (ascii "/app/" ++ w) = some (ascii "src") := by
  intro w h hp
  rw [C147_plain_partial h hp]
  decide

/-- No file or directory in a pushed pack has a name that the database takes for `w` or for the empty name. -/
def Spec.NothingCalled (P : ServerExt) (h : List (Moment × HttpReq)) (w : Bytes) : Prop :=
  ∀ a p, Spec.PushedPack P a h p → ∀ x o items, p.result.hashObject x = some o → o.t = .tree → decodeTree o.data = .ok items →
    ∀ i ∈ items, P.D.fold i.filename ≠ P.D.fold w ∧ P.D.fold i.filename ≠ P.D.fold []

theorem searchRoot_named {E : SqlExt} {db : Db} {path w : Bytes} (hw : fileName path = some w) {root : NodeRow} (h : searchRootNode E db path = .ok (some root)) :
    root ∈ db.nodes ∧ (E.fold root.name = E.fold w ∨ E.fold root.name = E.fold []) := by
  unfold searchRootNode at h
  rw [hw] at h
  simp only [Res.unwrapOpt, Res.bind_ok, Res.pure_eq, Res.ok.injEq] at h
  split at h
  · cases h
    rename_i hh
    have hm := List.mem_filter.1 (order_head hh)
    exact ⟨hm.1, .inl (eq_of_beq hm.2)⟩
  · have hm := List.mem_filter.1 (order_head h)
    exact ⟨hm.1, .inr (eq_of_beq hm.2)⟩

/-- **C147 is false** over HTTP for every directory whose name a URL has to encode (a space, a letter that is not ASCII): the path of the URL ends in the encoded name
`w`, which is never the name itself (`C147_written_differs`), and the server looks for a directory called `w`. If nothing that was pushed is called so, then whatever a
client reads as HEAD of the path is a commit with the whole root directory of some pushed commit, of any repository, never the directory meant; or it reads that the repository is empty.
(Nothing is stored for the path yet; the branches master can be told in one line each.) -/
theorem C147_encoded_false (P : ServerExt) (u g : Bytes) (hu : Spec.CleanUrl u) (hg : g = [] ∨ g = ascii ".git") (w : Bytes) (hw : fileName u = some w)
    (h : List (Moment × HttpReq)) (m : Moment) (hm : m.sql.fold = P.D.fold) (hcall : Spec.NothingCalled P h w)
    (hnone : ∀ r ∈ (runServer P .empty h).db.refs, P.D.fold r.repoPath ≠ P.D.fold u)
    (htext : ∀ r ∈ (runServer P .empty h).db.refs, Spec.isMaster P.D.fold r → Spec.RefText r) (t : ServiceType) (out : Bytes)
    (hout : (serve P m (runServer P .empty h) (Spec.refsReq (u ++ g) t)).1 = .reply (.ok (.bytes out))) (l : List (Bytes × Bytes)) (hl : Spec.clientHttp t out = some l) :
    l = [] ∨ ∃ (rest : List (Bytes × Bytes)) (a : Bytes) (p : Pack) (o : MetaData) (c child : Commit),
      l = (Hash.toPlainStr (idOf P.X (.commit, child.encode)), ascii "HEAD") :: rest ∧ Spec.PushedPack P a h p ∧ p.result.hashObject o.id = some o ∧
      o.t = .commit ∧ Commit.decode o.data = .ok c ∧ child.treeId = c.treeId := by
  rw [asked hu hg t] at hout
  have hrows := rows_named P h.length h rfl
  unfold advertise at hout
  generalize (runServer P .empty h).db = db at *
  cases hgh : getHeadObjectId P.X m.sql db u with
  | mk res db' =>
    rw [hgh] at hout
    cases res with
    | ok head =>
      have e : out = gitInfoRefs .http t head (getRefObjectId m.sql db' u) := by
        have h1 := hout
        simp only [Res.outcome, Outcome.reply.injEq, Reply.ok.injEq, Payload.bytes.injEq] at h1
        exact h1.symm
      rcases getHead_ok hgh with ⟨r, hr, e1, _⟩ | ⟨_, ⟨r, hr, _, hgen⟩ | ⟨_, e0, ed⟩⟩
      · exact absurd (by rw [e1]) (hnone r (mem_searchRefs.1 hr).1)
      · obtain ⟨hr1, _, hr3⟩ := mem_searchRefs.1 hr
        rcases generateChild_ok hgen with ⟨⟨q⟩⟩ | ⟨_, e0, ed⟩
        · have ht : ∀ x ∈ Spec.refsAt m.sql.fold db'.refs u, Spec.RefText x := by
            intro x hx
            obtain ⟨hx1, hx2⟩ := refsAt_mem.1 hx
            have hx3 : x ∈ db.refs ∨ x = { repoPath := u, refName := r.refName, refGitId := head } := by
              rw [congrArg Db.refs q.db_eq] at hx1
              simp only at hx1
              split at hx1
              · rcases List.mem_append.1 hx1 with h1 | h1
                · exact .inl h1
                · exact .inr (List.mem_singleton.1 h1)
              · exact .inl hx1
            rcases hx3 with hx3 | rfl
            · exact absurd (by rw [← hm]; exact hx2) (hnone x hx3)
            · have h0 := htext r hr1 (by unfold Spec.isMaster; rw [← hm]; exact hr3)
              obtain ⟨h1, h2⟩ := getHead_hex hgh (fun y hy ey => absurd (by rw [ey]) (hnone y hy))
              exact ⟨h1, h2, h0.2.2⟩
          have hc := client_http (t := t) hgh ht
          rw [← e, hl] at hc
          split at hc
          · split at hc
            · left; exact Option.some.inj hc
            · cases hc
          · right
            obtain ⟨n1, n2⟩ := searchRoot_named hw q.root_found
            obtain ⟨a, p, hp, hn⟩ := hrows q.root n1
            obtain ⟨c0, f1, _, _, _, _, f6, f7, f8, f9⟩ := C61_generated_fields P.X q.commit q.root q.child q.built
            rcases hn with ⟨_, o, c, o1, o2, o3, o4⟩ | ⟨o, items, i, o1, o2, o3, o4, o5, _⟩
            · refine ⟨getRefObjectId m.sql db' u, a, p, o, c, q.child.commit, ?_, hp, o1, o2, o3, ?_⟩
              · have hid : head = Hash.toPlainStr (idOf P.X (.commit, q.child.commit.encode)) := by
                  refine q.id_eq.trans ?_
                  rw [f9, f8]
                  rfl
                rw [Option.some.inj hc]
                exact congrArg (fun x => (x, ascii "HEAD") :: getRefObjectId m.sql db' u) hid
              · rw [o4, Hash.fromBytes_toPlainStr] at f6
                exact (Option.some.inj f6).symm
            · obtain ⟨b1, b2⟩ := hcall a p hp _ o items o1 o2 o3 i o4
              rw [o5, hm] at n2
              rcases n2 with n2 | n2
              · exact absurd n2 b1
              · exact absurd n2 b2
        · have hc := client_http (t := t) hgh (fun x hx => absurd (by rw [← hm]; exact (refsAt_mem.1 hx).2) (hnone x (by rw [← ed]; exact (refsAt_mem.1 hx).1)))
          rw [← e, hl, if_pos e0] at hc
          split at hc
          · left; exact Option.some.inj hc
          · cases hc
      · have hc := client_http (t := t) hgh (fun x hx => absurd (by rw [← hm]; exact (refsAt_mem.1 hx).2) (hnone x (by rw [← ed]; exact (refsAt_mem.1 hx).1)))
        rw [← e, hl, if_pos e0] at hc
        split at hc
        · left; exact Option.some.inj hc
        · cases hc
    | err e => simp only [Res.outcome] at hout; cases hout
    | panic => simp only [Res.outcome] at hout; cases hout
    | spin => simp only [Res.outcome] at hout; cases hout

/-- The names and ids of the rows, and the ref, that the push of the example repository leaves. -/
theorem app_rows {pack : Bytes} {p : Pack} {rep : Bytes} {st' : PushState Db} (h1 : (ascii "PACK").isPrefixOf pack = true)
    (h2 : decodePack polyExt (getHashObject polyExt demoSql Db.empty) 2 pack = .ok p) (h3 : ∀ h m, p.result.hashObject h = some m ↔ m ∈ appObjects ∧ m.id = h)
    (h4 : httpReceivePack (mysqlPush polyExt demoSql 2) { caps := [], commands := [], path := ascii "/app", db := Db.empty }
      (Spec.pushBody appCmd [] (ascii "report-status") pack) = .ok (rep, st')) :
    st'.db.refs = [{ repoPath := ascii "/app", refName := ascii "refs/heads/master" ++ [0], refGitId := appCmd.new }] ∧
    (∃ r ∈ st'.db.commits, r.gitId = appCmd.new) ∧
    (∀ x, Spec.PackReach p.result.hashObject x → ∃ n ∈ st'.db.nodes, n.gitId = Hash.toPlainStr x) ∧
    ∀ r ∈ st'.db.nodes, (r.name = [] ∧ r.gitId = Hash.toPlainStr (idOf polyExt (.tree, encodeTree appItems))) ∨
      (r.name = ascii "b" ∧ r.gitId = Hash.toPlainStr appTwo) ∨ (r.name = ascii "src" ∧ r.gitId = Hash.toPlainStr (idOf polyExt (.tree, encodeTree srcA))) ∨
      (r.name = ascii "a" ∧ r.gitId = Hash.toPlainStr (polyId .blob (ascii "one"))) := by
  obtain ⟨p', db1, g1, g2, g3, g4, _, _⟩ := push_run (path := ascii "/app") .empty appCmd_ok (by decide) (by decide) h1 h4
  rw [h2] at g1
  cases g1
  obtain ⟨p', k1, k2, _, _, _, k3⟩ := C26_durable_partial polyExt demoSql 2 (ascii "/app") Db.empty appCmd appCmd_ok (ascii "report-status") (by decide) (by decide) pack h1
    (fun _ _ => rfl) (fun _ _ => rfl) rep st' h4
  rw [h2] at k1
  cases k1
  obtain ⟨hstored, named⟩ := app_named h2 h3 g2
  rw [← g3] at hstored named
  refine ⟨?_, ?_, hstored, named⟩
  · rcases k3 with ⟨_, q⟩ | ⟨q, _⟩
    · exact q
    · exact absurd (rfl : appCmd.old = zeroId) q
  · obtain ⟨r, hr, e1, e2, e3⟩ := k2 (metaOf polyExt (.commit, appCommit.encode)) ((h3 _ _).2 ⟨by simp [appObjects, appThin], rfl⟩) rfl
    exact ⟨r, hr, e1⟩

/-- HEAD of a path below `/app` once the row for it is known. -/
theorem app_head {sub : Bytes} (hne : sub ≠ ascii "/app") (hst : pathStartsWith sub (ascii "/app") = true)
    (hlike : demoSql.like sub (ascii "/app") = true) {db : Db} (hrefs : db.refs = [{ repoPath := ascii "/app", refName := ascii "refs/heads/master" ++ [0], refGitId := appCmd.new }])
    (hcom : ∃ r ∈ db.commits, r.gitId = appCmd.new) (objs : ∀ o, StoredObj db o → metaOf polyExt o ∈ appObjects) {x : Hash} {root : NodeRow}
    (hroot : searchRootNode demoSql db sub = .ok (some root)) (hrootId : root.gitId = Hash.toPlainStr x) :
    ∃ db', getHeadObjectId polyExt demoSql db sub = (.ok (Hash.toPlainStr (idOf polyExt (.commit, { appCommit with treeId := x, parents := [] }.encode))), db') ∧
      db'.refs = [{ repoPath := ascii "/app", refName := ascii "refs/heads/master" ++ [0], refGitId := appCmd.new },
        { repoPath := sub, refName := ascii "refs/heads/master" ++ [0],
          refGitId := Hash.toPlainStr (idOf polyExt (.commit, { appCommit with treeId := x, parents := [] }.encode)) }] := by
  obtain ⟨cr, hcr, hcrf⟩ : ∃ cr, (demoSql.order (db.commits.filter (fun c => demoSql.fold c.gitId == demoSql.fold appCmd.new))).head? = some cr ∧ cr.data = appCommit.encode := by
    obtain ⟨r, hr, e1⟩ := hcom
    obtain ⟨a, ha, e⟩ := order_head_some demoSql (l := db.commits.filter (fun c => demoSql.fold c.gitId == demoSql.fold appCmd.new))
      (List.ne_nil_of_mem (List.mem_filter.2 ⟨hr, by rw [e1]; exact beq_self_eq_true _⟩))
    refine ⟨a, e, ?_⟩
    have hm := objs _ (.inr ⟨a, (List.mem_filter.1 ha).1, rfl⟩)
    simp only [appObjects, appThin, appBlob, List.mem_append, List.mem_cons, List.not_mem_nil, or_false] at hm
    rcases hm with (h | h | h | h) | h
    · exact congrArg MetaData.data h
    all_goals exact absurd (congrArg MetaData.t h) (by simp [metaOf])
  obtain ⟨ch, hch⟩ : ∃ ch : Commit, ch = { appCommit with treeId := x, parents := [] } := ⟨_, rfl⟩
  rw [← hch]
  have hchild : buildFromModel polyExt cr root = .ok { base := metaOf polyExt (.commit, ch.encode), commit := ch } := by
    unfold buildFromModel
    rw [hcrf, appCommit_decode, show Hash.fromStr root.gitId = .ok x by rw [hrootId, Hash.fromStr, Hash.fromBytes_toPlainStr]; rfl]
    simp only [Res.unwrap_ok, Res.bind_ok]
    rw [← hch, new_metaOf polyExt (.commit, ch.encode) rfl]
    rfl
  have hg : getHeadObjectId polyExt demoSql db sub = (.ok (Hash.toPlainStr (idOf polyExt (.commit, ch.encode))),
      insertRefs demoSql (chunks 100 1 [{ repoPath := sub, refName := ascii "refs/heads/master" ++ [0], refGitId := Hash.toPlainStr (idOf polyExt (.commit, ch.encode)) }])
        (saveCommits demoSql [{ base := metaOf polyExt (.commit, ch.encode), commit := ch }] sub db)) := by
    unfold getHeadObjectId searchRefs
    rw [hrefs, show (demoSql.order ([({ repoPath := ascii "/app", refName := ascii "refs/heads/master" ++ [0], refGitId := appCmd.new } : RefRow)].filter
        (fun r => demoSql.like sub r.repoPath && demoSql.fold r.refName == demoSql.fold (ascii "refs/heads/master")))) =
        [{ repoPath := ascii "/app", refName := ascii "refs/heads/master" ++ [0], refGitId := appCmd.new }] from by
          rw [List.filter_cons_of_pos (by simp only [hlike, Bool.true_and]; decide +kernel)]; rfl]
    rw [List.find?_cons_of_neg (by simpa using hne), List.find?_nil, List.find?_cons_of_pos (by exact hst)]
    simp only
    unfold generateChild
    rw [hcr]
    simp only
    rw [hroot]
    simp only
    rw [hchild]
    rfl
  rw [saveChild_eq] at hg
  refine ⟨_, hg, ?_⟩
  simp only [hrefs]
  exact if_pos rfl

/-- **C147 is false**, a concrete run: the example repository is pushed to `/app`. The URLs `/app/src` and `/app/s%72c` are the same by RFC 3986, but a client that asks for the
first reads a HEAD with the directory `src`, and one that asks for the second reads the HEAD of `/app`: it clones the whole repository in place of the directory. -/
theorem C147_same_false : ∃ (pack rep out1 out2 : Bytes) (r1 r2 : List (Bytes × Bytes)), Spec.UrlName (ascii "src") (ascii "src") ∧ Spec.UrlName (ascii "s%72c") (ascii "src") ∧
    (serve demoServer demoMoment .empty (appPush pack)).1 = .reply (.ok (.bytes rep)) ∧
    (serve demoServer demoMoment (runServer demoServer .empty [(demoMoment, appPush pack)]) (Spec.refsReq (ascii "/app/src") .uploadPack)).1 = .reply (.ok (.bytes out1)) ∧
    (serve demoServer demoMoment (runServer demoServer .empty [(demoMoment, appPush pack)]) (Spec.refsReq (ascii "/app/s%72c") .uploadPack)).1 = .reply (.ok (.bytes out2)) ∧
    Spec.clientHttp .uploadPack out1 = some ((Hash.toPlainStr (idOf polyExt (.commit, srcCommit.encode)), ascii "HEAD") :: r1) ∧
    Spec.clientHttp .uploadPack out2 = some ((Hash.toPlainStr (idOf polyExt (.commit, appCommit.encode)), ascii "HEAD") :: r2) ∧
    srcCommit.treeId = idOf polyExt (.tree, encodeTree srcA) ∧ appCommit.treeId = idOf polyExt (.tree, encodeTree appItems) ∧ srcCommit.treeId ≠ appCommit.treeId := by
  obtain ⟨pack, p, rep, st', h1, h2, h3, h4, _, objs, _, _⟩ := app_after (ascii "/zzz") (ascii "/app")
  obtain ⟨hrefs, hcom, hstored, named⟩ := app_rows h1 h2 h3 h4
  have there : ∀ m ∈ appThin, p.result.hashObject m.id = some m := fun m hm => (h3 _ _).2 ⟨appThin_sub m hm, rfl⟩
  have hroute : route (appPush pack).method (appPush pack).path (appPush pack).service = .receivePack (ascii "/app") := route_push app_clean_url (.inr rfl)
  have e0 : (runServer demoServer .empty [(demoMoment, appPush pack)]).db = st'.db := by
    rw [show [(demoMoment, appPush pack)] = [] ++ [(demoMoment, appPush pack)] from rfl, runServer_concat, serve_db, hroute]
    exact httpReceiveDb_ok _ _ _ _ _ h4
  have hpush : (serve demoServer demoMoment .empty (appPush pack)).1 = .reply (.ok (.bytes rep)) := by
    have h4' : httpReceivePack (mysqlPush demoServer.X demoMoment.sql demoMoment.fuel) { caps := [], commands := [], path := ascii "/app", db := ServerState.empty.db }
      (appPush pack).body = .ok (rep, st') := h4
    unfold serve
    rw [hroute]
    simp only [h4']
    rfl
  -- what a client reads
  have reads : ∀ (sub : Bytes) (x : Hash) (root : NodeRow), Spec.CleanUrl sub → sub ≠ ascii "/app" → pathStartsWith sub (ascii "/app") = true → demoSql.like sub (ascii "/app") = true →
      demoFold (ascii "/app") ≠ demoFold sub → searchRootNode demoSql st'.db sub = .ok (some root) → root.gitId = Hash.toPlainStr x →
      Hash.toPlainStr (idOf polyExt (.commit, { appCommit with treeId := x, parents := [] }.encode)) ≠ zeroId →
      ∃ out r, (serve demoServer demoMoment (runServer demoServer .empty [(demoMoment, appPush pack)]) (Spec.refsReq sub .uploadPack)).1 = .reply (.ok (.bytes out)) ∧
        Spec.clientHttp .uploadPack out = some ((Hash.toPlainStr (idOf polyExt (.commit, { appCommit with treeId := x, parents := [] }.encode)), ascii "HEAD") :: r) := by
    intro sub x root hc hne hst hlike hf hroot hid hz
    obtain ⟨db', hg, hr⟩ := app_head hne hst hlike hrefs hcom objs hroot hid
    obtain ⟨ch, hch⟩ : ∃ ch : Commit, ch = { appCommit with treeId := x, parents := [] } := ⟨_, rfl⟩
    rw [← hch] at hz hr hg ⊢
    have ht := client_http (t := .uploadPack) hg (by
      intro y hy
      obtain ⟨y1, y2⟩ := refsAt_mem.1 hy
      rw [hr] at y1
      rcases List.mem_cons.1 y1 with rfl | y1
      · exact absurd y2 hf
      · rw [List.mem_singleton.1 y1]
        exact ⟨Hash.toPlainStr_length _, toPlainStr_hex _, (by decide : (ascii "refs/heads/master" ++ [0]).length ≤ 65000), (by decide : (0x0a : UInt8) ∉ ascii "refs/heads/master" ++ [0])⟩)
    rw [if_neg hz] at ht
    refine ⟨_, _, ?_, ht⟩
    have ha := asked (P := demoServer) (m := demoMoment) (s := runServer demoServer .empty [(demoMoment, appPush pack)]) hc (.inl rfl) .uploadPack
    rw [List.append_nil, e0] at ha
    rw [ha]
    unfold advertise
    rw [show getHeadObjectId demoServer.X demoMoment.sql st'.db sub = _ from hg]
    rfl
  have pick : ∀ w : Bytes, (∃ n ∈ st'.db.nodes, n.name = w) → ∃ root ∈ st'.db.nodes, demoFold root.name = demoFold w ∧
      (demoSql.order (st'.db.nodes.filter (fun n => demoSql.fold n.name == demoSql.fold w))).head? = some root := by
    rintro w ⟨n, hn, e⟩
    obtain ⟨a, ha, ea⟩ := order_head_some demoSql (l := st'.db.nodes.filter (fun n => demoSql.fold n.name == demoSql.fold w))
      (List.ne_nil_of_mem (List.mem_filter.2 ⟨hn, by rw [e]; exact beq_self_eq_true _⟩))
    exact ⟨a, (List.mem_filter.1 ha).1, eq_of_beq (List.mem_filter.1 ha).2, ea⟩
  -- the directory
  obtain ⟨a, ha, fa, ea⟩ := pick (ascii "src") (by
    obtain ⟨n, hn, e⟩ := hstored _ (app_src there)
    refine ⟨n, hn, ?_⟩
    rcases named n hn with ⟨_, e'⟩ | ⟨_, e'⟩ | ⟨h, _⟩ | ⟨_, e'⟩
    · rw [e] at e'; exact absurd (Hash.toPlainStr_injective e') (by decide +kernel)
    · rw [e] at e'; exact absurd (Hash.toPlainStr_injective e') (by decide +kernel)
    · exact h
    · rw [e] at e'; exact absurd (Hash.toPlainStr_injective e') (by decide +kernel))
  have ida : a.gitId = Hash.toPlainStr (idOf polyExt (.tree, encodeTree srcA)) := by
    rcases named a ha with ⟨h, _⟩ | ⟨h, _⟩ | ⟨_, e⟩ | ⟨h, _⟩
    · rw [h] at fa; exact absurd fa (by decide)
    · rw [h] at fa; exact absurd fa (by decide)
    · exact e
    · rw [h] at fa; exact absurd fa (by decide)
  have roota : searchRootNode demoSql st'.db (ascii "/app/src") = .ok (some a) := by
    unfold searchRootNode
    rw [show fileName (ascii "/app/src") = some (ascii "src") by decide]
    simp only [Res.unwrapOpt, Res.bind_ok, Res.pure_eq, ea]
  obtain ⟨out1, r1, a1, a2⟩ := reads (ascii "/app/src") _ a ⟨by decide, by decide, by decide, by decide⟩ (by decide) (by decide) (by decide) (by decide) roota ida (by decide +kernel)
  -- the root
  obtain ⟨b, hb, fb, eb⟩ := pick [] (by
    obtain ⟨n, hn, e⟩ := hstored _ (app_root there)
    refine ⟨n, hn, ?_⟩
    rcases named n hn with ⟨h, _⟩ | ⟨_, e'⟩ | ⟨_, e'⟩ | ⟨_, e'⟩
    · exact h
    all_goals rw [e] at e'; exact absurd (Hash.toPlainStr_injective e') (by decide +kernel))
  have idb : b.gitId = Hash.toPlainStr (idOf polyExt (.tree, encodeTree appItems)) := by
    rcases named b hb with ⟨_, e⟩ | ⟨h, _⟩ | ⟨h, _⟩ | ⟨h, _⟩
    · exact e
    all_goals rw [h] at fb; exact absurd fb (by decide)
  have hnil : st'.db.nodes.filter (fun n => demoSql.fold n.name == demoSql.fold (ascii "s%72c")) = [] := by
    refine List.filter_eq_nil_iff.2 (fun n hn e => ?_)
    have e := eq_of_beq e
    rcases named n hn with ⟨h, _⟩ | ⟨h, _⟩ | ⟨h, _⟩ | ⟨h, _⟩
    all_goals rw [h] at e; exact absurd e (by decide)
  have rootb : searchRootNode demoSql st'.db (ascii "/app/s%72c") = .ok (some b) := by
    unfold searchRootNode
    rw [show fileName (ascii "/app/s%72c") = some (ascii "s%72c") by decide]
    simp only [Res.unwrapOpt, Res.bind_ok, Res.pure_eq, hnil, order_none.2, eb]
  obtain ⟨out2, r2, b1, b2⟩ := reads (ascii "/app/s%72c") _ b ⟨by decide, by decide, by decide, by decide⟩ (by decide) (by decide) (by decide) (by decide) rootb idb (by decide +kernel)
  have w : Spec.UrlName (ascii "src") (ascii "src") := .plain _ _ _ (by decide) (.plain _ _ _ (by decide) (.plain _ _ _ (by decide) .nil))
  have w' : Spec.UrlName (ascii "s%72c") (ascii "src") :=
    .plain _ _ _ (by decide) (.code 0x37 0x32 7 2 _ _ ⟨by decide, by decide⟩ ⟨by decide, by decide⟩ (.plain _ _ _ (by decide) .nil))
  exact ⟨pack, rep, out1, out2, r1, r2, w, w', hpush, a1, b1, a2, b2, rfl, rfl, by decide +kernel⟩

/-- `C147_encoded_false` speaks of this run. -/
example : ∃ pack rep, (serve demoServer demoMoment .empty (appPush pack)).1 = .reply (.ok (.bytes rep)) ∧
    ∀ (t : ServiceType) (out : Bytes) (l : List (Bytes × Bytes)),
      (serve demoServer demoMoment (runServer demoServer .empty [(demoMoment, appPush pack)]) (Spec.refsReq (ascii "/app/s%72c" ++ []) t)).1 = .reply (.ok (.bytes out)) →
      Spec.clientHttp t out = some l → l = [] ∨ ∃ (rest : List (Bytes × Bytes)) (a : Bytes) (p : Pack) (o : MetaData) (c child : Commit),
        l = (Hash.toPlainStr (idOf polyExt (.commit, child.encode)), ascii "HEAD") :: rest ∧ Spec.PushedPack demoServer a [(demoMoment, appPush pack)] p ∧
        p.result.hashObject o.id = some o ∧ o.t = .commit ∧ Commit.decode o.data = .ok c ∧ child.treeId = c.treeId := by
  obtain ⟨pack, p, rep, st', h1, h2, h3, h4, _, objs, _, _⟩ := app_after (ascii "/zzz") (ascii "/app")
  obtain ⟨hrefs, _, _, _⟩ := app_rows h1 h2 h3 h4
  have hroute : route (appPush pack).method (appPush pack).path (appPush pack).service = .receivePack (ascii "/app") := route_push app_clean_url (.inr rfl)
  have e0 : (runServer demoServer .empty [(demoMoment, appPush pack)]).db = st'.db := by
    rw [show [(demoMoment, appPush pack)] = [] ++ [(demoMoment, appPush pack)] from rfl, runServer_concat, serve_db, hroute]
    exact httpReceiveDb_ok _ _ _ _ _ h4
  refine ⟨pack, rep, ?_, fun t out l ho hl => C147_encoded_false demoServer (ascii "/app/s%72c") [] ⟨by decide, by decide, by decide, by decide⟩ (.inl rfl) (ascii "s%72c") (by decide)
    [(demoMoment, appPush pack)] demoMoment rfl ?_ ?_ ?_ t out ho l hl⟩
  · have h4' : httpReceivePack (mysqlPush demoServer.X demoMoment.sql demoMoment.fuel) { caps := [], commands := [], path := ascii "/app", db := ServerState.empty.db }
      (appPush pack).body = .ok (rep, st') := h4
    unfold serve
    rw [hroute]
    simp only [h4']
    rfl
  · rintro a p' ⟨g1, m', r', g2, repo, file, e, _, _, rfl, hdec⟩ x o items ho ht hdt i hi
    cases g1 with
    | cons x g1 => simp at e
    | nil =>
      cases e
      rw [show Spec.packPart (appPush pack).body = pack from packPart_push appCmd_ok (by decide) pack] at hdec
      have hdec' : decodePack polyExt (getHashObject polyExt demoSql Db.empty) 2 pack = .ok p' := hdec
      rw [h2] at hdec'
      cases hdec'
      have hm := ((h3 _ _).1 ho).1
      simp only [appObjects, appThin, appBlob, List.mem_append, List.mem_cons, List.not_mem_nil, or_false] at hm
      rcases hm with (rfl | rfl | rfl | rfl) | rfl
      · cases ht
      · rw [show decodeTree (metaOf polyExt (.tree, encodeTree appItems)).data = .ok appItems from appItems_decode] at hdt
        cases hdt
        revert i
        decide +kernel
      · rw [show decodeTree (metaOf polyExt (.tree, encodeTree srcA)).data = .ok srcA from srcA_decode] at hdt
        cases hdt
        revert i
        decide +kernel
      · cases ht
      · cases ht
  · intro r hr
    rw [e0, hrefs] at hr
    rw [List.mem_singleton.1 hr]
    exact (by decide : demoFold (ascii "/app") ≠ demoFold (ascii "/app/s%72c"))
  · intro r hr _
    rw [e0, hrefs] at hr
    rw [List.mem_singleton.1 hr]
    exact ⟨Hash.toPlainStr_length _, toPlainStr_hex _, by decide, by decide⟩

end Gust

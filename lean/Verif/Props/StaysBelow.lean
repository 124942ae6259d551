import Verif.Props.AskedBoth
import Verif.Props.StaysExamples

/-! # C155 for repositories below others -/

namespace Gust

open Spec (nodeObj)

theorem loadCommits_mem {X : Ext} : ∀ {rows : List CommitRow} {cs : List CommitObj}, loadCommits X rows = .ok cs → ∀ r ∈ rows, ∀ c, Commit.decode r.data = .ok c → ∃ x ∈ cs, x.commit = c
  | [], _, _, r, hr, _, _ => by cases hr
  | a :: rows, cs, h, r, hr, c, hc => by
    simp only [loadCommits, Res.bind_eq_ok, Res.pure_eq, Res.ok.injEq] at h
    obtain ⟨m, hm, c', hc', cs', hcs, rfl⟩ := h
    rcases List.mem_cons.1 hr with rfl | hr
    · refine ⟨_, .head _, ?_⟩
      rw [(new_ok hm).2.2.1, hc] at hc'
      simpa using hc'.symm
    · obtain ⟨x, hx, e⟩ := loadCommits_mem hcs r hr c hc
      exact ⟨x, .tail _ hx, e⟩

theorem fullLoop_fails {X : Ext} {E : SqlExt} {db : Db} {fuel : Nat} {trees : Hash → Option NodeRow} : ∀ {cs : List CommitObj} {hm hm' : HashMeta},
    fullLoop X E db fuel trees cs hm = .ok hm' → ∀ c ∈ cs, ∃ n items, trees c.commit.treeId = some n ∧ decodeTree n.data = .ok items
  | [], _, _, _, c, hc => by cases hc
  | a :: cs, hm, hm', h, c, hc => by
    unfold fullLoop at h
    simp only at h
    split at h
    · rename_i root hroot
      simp only [Res.bind_eq_ok] at h
      obtain ⟨hm1, h1, h2⟩ := h
      rcases List.mem_cons.1 hc with rfl | hc
      · cases fuel with
        | zero => cases h1
        | succ fuel =>
          simp only [getChildTrees, Res.bind_eq_ok] at h1
          obtain ⟨_, _, items, hi, _⟩ := h1
          exact ⟨root, items, hroot, Res.unwrap_eq_ok.1 hi⟩
      · exact fullLoop_fails h2 c hc
    · cases h

/-- A clone needs every commit of the repository to have a tree that can be read. -/
theorem full_fails {X : Ext} {E : SqlExt} {fuel : Nat} {db : Db} {path file : Bytes} (hid : ∀ n ∈ db.nodes, ∃ h : Hash, n.gitId = Hash.toPlainStr h)
    {r : CommitRow} {c : Commit} (hr : r ∈ db.commits) (hp : E.fold r.repoPath = E.fold path) (hd : Commit.decode r.data = .ok c)
    (hn : ∀ n ∈ db.nodes, n.gitId = Hash.toPlainStr c.treeId → ∀ items, decodeTree n.data ≠ .ok items) : getFullPack X E fuel db path ≠ .ok file := by
  intro h
  simp only [getFullPack, fullObjects, Res.bind_eq_ok] at h
  obtain ⟨hm, ⟨cs, h1, trees, h2, h3⟩, _⟩ := h
  have hrow : r ∈ commitsByPath E db path := by
    rw [commitsByPath, (E.order_perm _).mem_iff, List.mem_filter]
    exact ⟨hr, by rw [hp]; exact beq_self_eq_true _⟩
  obtain ⟨x, hx, rfl⟩ := loadCommits_mem h1 r hrow c hd
  obtain ⟨n, items, k1, k2⟩ := fullLoop_fails h3 x hx
  unfold nodesByIds at h2
  simp only at h2
  split at h2
  · cases h2
    have hm := List.mem_reverse.1 (List.mem_of_find?_eq_some k1)
    have hmem := (List.mem_filter.1 ((E.order_perm _).mem_iff.1 hm)).1
    have he := List.find?_some k1
    obtain ⟨g, hg⟩ := hid n hmem
    rw [hg, Hash.fromBytes_toPlainStr, beq_iff_eq, Option.some.injEq] at he
    exact hn n hmem (by rw [hg, he]) items k2
  · cases h2

theorem searchRootNode_name {E : SqlExt} {db : Db} {path w : Bytes} {root : NodeRow} (hw : Spec.lastName path = some w) (hex : ∃ n ∈ db.nodes, E.fold n.name = E.fold w)
    (h : searchRootNode E db path = .ok (some root)) : root ∈ db.nodes ∧ E.fold root.name = E.fold w := by
  obtain ⟨n, hn, e⟩ := hex
  obtain ⟨a, ha, h1⟩ := order_head_some E (l := db.nodes.filter (fun n => E.fold n.name == E.fold w)) (by
    intro e0
    have : n ∈ db.nodes.filter (fun n => E.fold n.name == E.fold w) := by rw [List.mem_filter, beq_iff_eq]; exact ⟨hn, e⟩
    rw [e0] at this
    cases this)
  unfold searchRootNode at h
  rw [fileName_lastName, hw] at h
  simp only [Res.unwrapOpt, Res.bind_ok, h1, Res.pure_eq, Res.ok.injEq, Option.some.injEq] at h
  subst h
  have := List.mem_filter.1 ha
  exact ⟨this.1, eq_of_beq this.2⟩

/-- **C155 is false** below other repositories, always in this way: a repository has no branch master (but maybe others, and it can be cloned); it lies below a repository with a master, and everything that
is stored under the name that its path ends in is a file there (whose content does not look like a directory). Somebody asks for its refs. Then it can never be cloned again, over HTTP or SSH, whatever
anybody does (`hu`: no two nodes that are ever stored have the same id and different content). -/
theorem C155_below_false (P : ServerExt) {u g w : Bytes} (hurl : Spec.CleanUrl u) (hg : g = [] ∨ g = ascii ".git") (t : ServiceType) (hw : Spec.lastName u = some w)
    (h : BothHist) (m : Moment) (hm : m.sql.fold = P.D.fold) (hacc : ∀ n rows, m.sql.acceptCommits n rows = true)
    (hown : ∀ r ∈ (runBoth P .empty h).web.db.refs, Spec.isMaster P.D.fold r → r.repoPath ≠ u)
    (hb : ∃ r ∈ (runBoth P .empty h).web.db.refs, Spec.isMaster P.D.fold r ∧ (∃ tail, u = r.repoPath ++ 0x2f :: tail) ∧ (0x5c : UInt8) ∉ r.repoPath)
    (hc : ∀ r ∈ (runBoth P .empty h).web.db.refs, Spec.isMaster P.D.fold r → Spec.DirAbove r.repoPath u →
      ∃ c ∈ (runBoth P .empty h).web.db.commits, P.D.fold c.gitId = P.D.fold r.refGitId)
    (hex : ∃ n ∈ (runBoth P .empty h).web.db.nodes, P.D.fold n.name = P.D.fold w)
    (hfile : ∀ n ∈ (runBoth P .empty h).web.db.nodes, P.D.fold n.name = P.D.fold w → n.nodeType = ascii "blob" ∧ ∀ items, decodeTree n.data ≠ .ok items)
    (h2 : BothHist) (hu : ∀ a ∈ (runBoth P .empty (h ++ (m, .http (Spec.refsReq (u ++ g) t)) :: h2)).web.db.nodes,
      ∀ b ∈ (runBoth P .empty (h ++ (m, .http (Spec.refsReq (u ++ g) t)) :: h2)).web.db.nodes, a.gitId = b.gitId → a.data = b.data)
    (m2 : Moment) (hm2 : m2.sql.fold = P.D.fold) (hord : ∀ l x, x ∈ m2.ord l ↔ x ∈ l) (hcut : Spec.CutOk m2.cut)
    (ls : List Spec.ReqLine) (t2 rest out : Bytes) (hr : Spec.CloneReq ls t2) :
    ¬ Spec.FetchedAny P u (doneBody ls t2 rest) out m2 (h ++ (m, .http (Spec.refsReq (u ++ g) t)) :: h2) := by
  intro hfe
  rw [← hm] at hown hb hc hex hfile
  have hrd : Readable (runBoth P .empty h).web.db := runBoth_readable P h .empty ⟨(by intro n h; cases h), (by intro n h; cases h)⟩
  obtain ⟨id, hid⟩ := getHead_answers (X := P.X) (E := m.sql) (u := u) hrd (fun r h1 h3 _ h4 => ⟨by rw [hw]; simp, hc r h1 h3 h4⟩)
  rcases hh : getHeadObjectId P.X m.sql (runBoth P .empty h).web.db u with ⟨a, db'⟩
  rw [hh] at hid
  simp only at hid
  subst hid
  have hstep : (bothStep P m (runBoth P .empty h) (.http (Spec.refsReq (u ++ g) t))).web.db = db' := by
    show (serve P m (runBoth P .empty h).web (Spec.refsReq (u ++ g) t)).2.db = db'
    have hroute : route (Spec.refsReq (u ++ g) t).method (Spec.refsReq (u ++ g) t).path (Spec.refsReq (u ++ g) t).service = .infoRefs u t := route_discover hurl hg t
    rw [serve_db, hroute]
    simp only
    rw [hh]
  -- the commit that is made
  obtain ⟨ref, root, child, c, x, g1, g2, g3, g4, g5⟩ : ∃ (_ : RefRow) (root : NodeRow) (child : CommitObj) (c : Commit) (x : Hash), root ∈ (runBoth P .empty h).web.db.nodes ∧
      m.sql.fold root.name = m.sql.fold w ∧ root.gitId = Hash.toPlainStr x ∧ (Commit.decode child.base.data = .ok c ∧ c.treeId = x) ∧ child.row u ∈ db'.commits := by
    rcases getHead_ok hh with ⟨r, h1, h3, _⟩ | ⟨_, ⟨r, h1, h3, hgen⟩ | ⟨h1, _⟩⟩
    · exact absurd h3 (hown r (mem_searchRefs.1 h1).1 (mem_searchRefs.1 h1).2.2)
    · rcases generateChild_ok hgen with ⟨⟨q⟩⟩ | ⟨e, _⟩
      · obtain ⟨k1, k2⟩ := searchRootNode_name hw hex q.root_found
        obtain ⟨cm, hcm⟩ := hrd.commits _ q.commit_mem
        obtain ⟨x, hx⟩ := hrd.nodes _ k1
        obtain ⟨ch, b1, b2, _⟩ := C61_every P.X q.commit q.root cm x hcm hx
        rw [q.built] at b1
        cases b1
        refine ⟨r, q.root, q.child, _, x, k1, k2, hx, ⟨b2, rfl⟩, ?_⟩
        have e := congrArg Db.commits q.db_eq
        rw [e]
        simp [hacc]
      · obtain ⟨n, hn, e1⟩ := hex
        obtain ⟨a, _, h5⟩ := order_head_some m.sql (l := (runBoth P .empty h).web.db.nodes.filter (fun n => m.sql.fold n.name == m.sql.fold w)) (by
          intro e0
          have : n ∈ (runBoth P .empty h).web.db.nodes.filter (fun n => m.sql.fold n.name == m.sql.fold w) := by rw [List.mem_filter, beq_iff_eq]; exact ⟨hn, e1⟩
          rw [e0] at this
          cases this)
        unfold searchRootNode at e
        rw [fileName_lastName, hw] at e
        simp only [Res.unwrapOpt, Res.bind_ok, h5, Res.pure_eq, Res.ok.injEq, reduceCtorEq] at e
    · obtain ⟨r, k1, k2, ⟨tail, k3⟩, k4⟩ := hb
      have hl : m.sql.like u r.repoPath = true := by rw [k3]; exact m.sql.like_prefix _ _ k4
      have := h1 r (mem_searchRefs.2 ⟨k1, hl, k2⟩)
      rw [k3, startsWith_below] at this
      cases this
  -- later
  have e : runBoth P .empty (h ++ (m, .http (Spec.refsReq (u ++ g) t)) :: h2) = runBoth P (bothStep P m (runBoth P .empty h) (.http (Spec.refsReq (u ++ g) t))) h2 := by
    rw [runBoth_append, runBoth_cons]
  have ext := runBoth_extends P h2 (bothStep P m (runBoth P .empty h) (.http (Spec.refsReq (u ++ g) t)))
  have ext0 : Extends (runBoth P .empty h).web.db (runBoth P .empty (h ++ (m, .http (Spec.refsReq (u ++ g) t)) :: h2)).web.db := by
    rw [runBoth_append]
    exact runBoth_extends P _ _
  rw [← e, hstep] at ext
  have hrd2 : Readable (runBoth P .empty (h ++ (m, .http (Spec.refsReq (u ++ g) t)) :: h2)).web.db :=
    runBoth_readable P _ .empty ⟨(by intro n h; cases h), (by intro n h; cases h)⟩
  obtain ⟨file, hfull, _⟩ := httpUploadPack_clone hord hcut hr (fetchedAny_http (fun l x => (hord l x).1) hfe)
  refine full_fails (r := child.row u) hrd2.nodes (ext.2 _ g5) rfl g4.1 ?_ hfull
  intro n hn hnid items hd
  have hdata : n.data = root.data := hu n hn root (ext0.1 _ g1) (by rw [hnid, g4.2, g3])
  rw [hdata] at hd
  exact (hfile root g1 g2).2 items hd

/-! ## A concrete run -/

/-- A branch main. -/
def sideCmd : Spec.PushCmd := { appCmd with name := ascii "refs/heads/main" }

theorem sideCmd_ok : sideCmd.Ok := by
  refine ⟨by decide, by decide, by decide +kernel, by decide +kernel, by decide, by decide, by decide⟩

theorem appb_url : Spec.CleanUrl (ascii "/app/b") := ⟨by decide, by decide, by decide, by decide⟩

/-- The project is pushed to `/app/b`, as a branch main; then the same project, which has a file `b`, is pushed to `/app`, as master. -/
def mainHist (pack : Bytes) : BothHist := [(backMoment, .http (Spec.pushReq (ascii "/app/b" ++ []) (Spec.pushBody sideCmd [] (ascii "report-status") pack)))]
def fileHist (pack : Bytes) : BothHist := mainHist pack ++ [(backMoment, .http (bothCommits pack))]

/-- What one of these pushes stores: commits, and of the name `b` only files. -/
theorem lib_pushed {c : Spec.PushCmd} (hc : c.Ok) {u pack rep : Bytes} {h h' : BothHist} (hpack : Spec.PackOf polyExt demoFold (runBoth demoServer .empty h).web.db pack libEntries)
    (objs : ∀ o, StoredObj (runBoth demoServer .empty h).web.db o → metaOf polyExt o ∈ libObjects)
    (named : ∀ n ∈ (runBoth demoServer .empty h).web.db.nodes, demoFold n.name = demoFold (ascii "b") → n.gitId = Hash.toPlainStr appTwo)
    (hp : Spec.PushedAny demoServer u c (ascii "report-status") pack rep backMoment h h') :
    (∃ r ∈ (runBoth demoServer .empty h').web.db.commits, r.repoPath = u ∧ r.gitId = appCmd.new) ∧
    (∃ n ∈ (runBoth demoServer .empty h').web.db.nodes, n.name = ascii "b") ∧
    ∀ n ∈ (runBoth demoServer .empty h').web.db.nodes, demoFold n.name = demoFold (ascii "b") → n.gitId = Hash.toPlainStr appTwo := by
  obtain ⟨p, d1, d2⟩ := packOf_read demoFold_hash (both_nodes demoServer h) (few_unique libObjects_ids objs) (E := demoSql) rfl hpack (fuel := 7) (by decide)
  obtain ⟨st', e1, e2, _⟩ := pushedAny_http hc (by decide) (by decide) hp
  rw [e2]
  obtain ⟨p', k1, k2, _⟩ := C26_durable_partial polyExt backMoment.sql backMoment.fuel u _ c hc (ascii "report-status") (by decide) (by decide) pack (decodePack_magic d1)
    (fun _ _ => rfl) (fun _ _ => rfl) rep st' e1
  have : p' = p := Res.ok.inj (k1.symm.trans d1)
  subst this
  rw [push_answer _ u _ c hc (ascii "report-status") (by decide) (by decide) pack (decodePack_magic d1)] at e1
  obtain ⟨p'', db1, h1, h2, h3, _⟩ := receiveData_ok rfl (Res.unwrap_eq_ok.1 e1)
  have : p'' = p' := Res.ok.inj (h1.symm.trans d1)
  subst this
  simp only at h2 h3
  obtain ⟨g1, _⟩ := handleRefs_only backMoment.sql { RefCommand.new c.old c.new (c.name ++ [0]) with ok := true } u db1
  rw [h3] at g1
  have find : ∀ m ∈ libObjects, p''.result.hashObject m.id = some m := fun m hm => by rw [d2]; exact (lib_found _ _).2 ⟨hm, rfl⟩
  have mem : ∀ o : MetaData, p''.result.hashObject o.id = some o → o ∈ libObjects := fun o ho => by rw [d2] at ho; exact ((lib_found _ _).1 ho).1
  obtain ⟨rows, n1, n2, n3⟩ := push_names d1 h2
  have hrows : ∀ r ∈ rows, (demoFold r.name = demoFold (ascii "b") → r.gitId = Hash.toPlainStr appTwo) ∧ (r.gitId = Hash.toPlainStr appTwo → r.name = ascii "b") := by
    intro r hr
    rcases n3 r hr with ⟨e, o, c', ho, ht, hd, e2⟩ | ⟨o, items, i, ho, ht, hd, hi, e1, _, e2⟩
    · refine ⟨fun he => absurd he (by rw [e]; decide), fun he => ?_⟩
      have hm := mem o ho
      rw [e2] at he
      have he := Hash.toPlainStr_injective he
      simp only [libObjects, appObjects, appThin, appBlob, libBlob, List.mem_append, List.mem_cons, List.not_mem_nil, or_false] at hm
      rcases hm with ((rfl | rfl | rfl | rfl) | rfl) | rfl
      · rw [show (metaOf polyExt (.commit, appCommit.encode)).data = appCommit.encode from rfl, appCommit_decode] at hd
        cases hd
        exact absurd he (by decide +kernel)
      · cases ht
      · cases ht
      · cases ht
      · cases ht
      · rw [show (metaOf polyExt (.commit, srcCommit.encode)).data = srcCommit.encode from rfl, srcCommit_decode] at hd
        cases hd
        exact absurd he (by decide +kernel)
    · have hm := mem o ho
      simp only [libObjects, appObjects, appThin, appBlob, libBlob, List.mem_append, List.mem_cons, List.not_mem_nil, or_false] at hm
      rcases hm with ((rfl | rfl | rfl | rfl) | rfl) | rfl
      · cases ht
      · rw [show (metaOf polyExt (.tree, encodeTree appItems)).data = encodeTree appItems from rfl, appItems_decode] at hd
        cases hd
        simp only [appItems, List.mem_cons, List.not_mem_nil, or_false] at hi
        rcases hi with rfl | rfl
        · exact ⟨fun _ => e2, fun _ => e1⟩
        · refine ⟨fun he => absurd he (by rw [e1]; decide), fun he => ?_⟩
          rw [e2] at he
          exact absurd (Hash.toPlainStr_injective he) (by decide +kernel)
      · rw [show (metaOf polyExt (.tree, encodeTree srcA)).data = encodeTree srcA from rfl, srcA_decode] at hd
        cases hd
        simp only [srcA, List.mem_cons, List.not_mem_nil, or_false] at hi
        subst hi
        refine ⟨fun he => absurd he (by rw [e1]; decide), fun he => ?_⟩
        rw [e2] at he
        exact absurd (Hash.toPlainStr_injective he) (by decide +kernel)
      · cases ht
      · cases ht
      · cases ht
  have thin : ∀ m ∈ appThin, p''.result.hashObject m.id = some m := fun m hm => find m (by simp [libObjects, appThin_sub m hm])
  refine ⟨?_, ?_, ?_⟩
  · obtain ⟨r, hr, q1, q2, _⟩ := k2 (metaOf polyExt (.commit, appCommit.encode)) (find _ (by decide +kernel)) rfl
    exact ⟨r, hr, by assumption, by assumption⟩
  · obtain ⟨n, hn, e⟩ := n2 _ (.item (metaOf polyExt (.tree, encodeTree appItems)) appItems (fileItem "b" (idOf polyExt (.blob, ascii "two"))) (app_root thin)
      (thin _ (by simp [appThin])) rfl appItems_decode (.head _))
    exact ⟨n, by rw [g1, n1]; exact List.mem_append_right _ hn, (hrows n hn).2 e⟩
  · intro n hn
    rw [g1, n1] at hn
    rcases List.mem_append.1 hn with hn | hn
    · exact named n hn
    · exact (hrows n hn).1

theorem fresh_unique : UniqueIds polyExt Db.empty := by
  intro a b ha
  rcases ha with ⟨n, hn, _⟩ | ⟨n, hn, _⟩ <;> cases hn

/-- The servers after the two pushes. -/
theorem file_state : ∃ pack rep rep2, Spec.PushedAny demoServer (ascii "/app/b") sideCmd (ascii "report-status") pack rep backMoment [] (mainHist pack) ∧
    Spec.PushedAny demoServer (ascii "/app") appCmd (ascii "report-status") pack rep2 backMoment (mainHist pack) (fileHist pack) ∧
    (∀ o, StoredObj (runBoth demoServer .empty (mainHist pack)).web.db o → metaOf polyExt o ∈ libObjects) ∧
    (∃ r ∈ (runBoth demoServer .empty (mainHist pack)).web.db.commits, r.repoPath = ascii "/app/b" ∧ r.gitId = appCmd.new) ∧
    (∀ o, StoredObj (runBoth demoServer .empty (fileHist pack)).web.db o → metaOf polyExt o ∈ libObjects) ∧
    (∃ r ∈ (runBoth demoServer .empty (fileHist pack)).web.db.commits, r.gitId = appCmd.new) ∧
    (runBoth demoServer .empty (fileHist pack)).web.db.refs = [{ repoPath := ascii "/app/b", refName := sideCmd.name ++ [0], refGitId := appCmd.new }, bothRow] ∧
    (∃ n ∈ (runBoth demoServer .empty (fileHist pack)).web.db.nodes, n.name = ascii "b") ∧
    ∀ n ∈ (runBoth demoServer .empty (fileHist pack)).web.db.nodes, demoFold n.name = demoFold (ascii "b") → n.gitId = Hash.toPlainStr appTwo := by
  obtain ⟨pack, hpack⟩ := lib_packOf demoFold Db.empty
  have hlen : libEntries.length = 6 := objectsAt_length polyExt 12 libObjects
  have hpack0 : Spec.PackOf polyExt demoFold (runBoth demoServer .empty []).web.db pack libEntries := hpack
  have objs0 : ∀ o, StoredObj (runBoth demoServer .empty []).web.db o → metaOf polyExt o ∈ libObjects := by
    intro o ho
    rcases ho with ⟨n, hn, _⟩ | ⟨n, hn, _⟩ <;> cases hn
  obtain ⟨p, d1, _⟩ := packOf_read demoFold_hash (both_nodes demoServer []) fresh_unique (E := demoSql) rfl hpack (fuel := 7) (by decide)
  have hmag := decodePack_magic d1
  obtain ⟨rep, hpush, _⟩ := C111_both_partial demoServer demoFold_hash (ascii "/app/b") [] (mainHist pack) backMoment fresh_unique rfl back_accepts sideCmd sideCmd_ok (ascii "report-status") (by decide)
    (by decide) (.inl rfl) libEntries pack hpack lib_project (by rw [hlen]; decide) (.http [] [] appb_url (.inl rfl))
  obtain ⟨c1, _, n1⟩ := lib_pushed sideCmd_ok hpack0 objs0 (by intro n hn; cases hn) hpush
  have objs1 := lib_adds sideCmd_ok hpack0 objs0 hpush
  have ext : Extends Db.empty (runBoth demoServer .empty (mainHist pack)).web.db := ⟨fun _ h => (nomatch h), fun _ h => (nomatch h)⟩
  have hpack2 := packOf_mono ext hpack
  obtain ⟨rep2, hpush2, _⟩ := C111_both_partial demoServer demoFold_hash (ascii "/app") (mainHist pack) (fileHist pack) backMoment (few_unique libObjects_ids objs1) rfl back_accepts appCmd appCmd_ok
    (ascii "report-status") (by decide) (by decide) (.inl rfl) libEntries pack hpack2 lib_project (by rw [hlen]; decide) (.http (mainHist pack) [] app_clean_url (.inl rfl))
  obtain ⟨⟨c2, hc2, _, ec2⟩, x2, n2⟩ := lib_pushed appCmd_ok hpack2 objs1 n1 hpush2
  have r1 : (runBoth demoServer .empty (mainHist pack)).web.db.refs = [{ repoPath := ascii "/app/b", refName := sideCmd.name ++ [0], refGitId := appCmd.new }] := by
    rcases pushedAny_refs sideCmd_ok (by decide +kernel) (by decide) (by decide) hmag hpush rfl (fun _ _ => rfl) with ⟨_, e⟩ | ⟨e, _⟩
    · rw [e]
      rfl
    · exact absurd rfl e
  refine ⟨pack, rep, rep2, hpush, hpush2, objs1, c1, lib_again hpack2 objs1 hpush2, ⟨c2, hc2, ec2⟩, ?_, x2, n2⟩
  rcases pushedAny_refs appCmd_ok (by decide +kernel) (by decide) (by decide) hmag hpush2 rfl (fun _ _ => rfl) with ⟨_, e⟩ | ⟨e, _⟩
  · rw [e, r1]
    rfl
  · exact absurd rfl e

theorem ask_nodes (P : ServerExt) (m : Moment) (s : Both) {u g : Bytes} (hu : Spec.CleanUrl u) (hg : g = [] ∨ g = ascii ".git") (t : ServiceType) :
    (bothStep P m s (.http (Spec.refsReq (u ++ g) t))).web.db.nodes = s.web.db.nodes := by
  show (serve P m s.web (Spec.refsReq (u ++ g) t)).2.db.nodes = _
  have hroute : route (Spec.refsReq (u ++ g) t).method (Spec.refsReq (u ++ g) t).path (Spec.refsReq (u ++ g) t).service = .infoRefs u t := route_discover hu hg t
  rw [serve_db, hroute]
  exact (getHead_only _ _ _ _).1

theorem asked_nodes (P : ServerExt) (m : Moment) (h : BothHist) {u g : Bytes} (hu : Spec.CleanUrl u) (hg : g = [] ∨ g = ascii ".git") (t : ServiceType) :
    (runBoth P .empty (h ++ (m, .http (Spec.refsReq (u ++ g) t)) :: [])).web.db.nodes = (runBoth P .empty h).web.db.nodes := by
  rw [runBoth_concat]
  exact ask_nodes P m _ hu hg t

/-- Somebody asks for the refs of `/app/b`. -/
def lookB : HttpReq := Spec.refsReq (ascii "/app/b" ++ []) .uploadPack

/-- **C155 is false**, on a concrete run: a branch main is pushed to `/app/b`, and a clone is answered. Then a project with a file `b` is pushed to `/app`, and somebody asks for the refs of `/app/b`, as a
client does before every clone. Now no clone of `/app/b` is answered, over HTTP or SSH. -/
theorem C155_file_false : ∃ (pack rep rep2 : Bytes) (m : Moment) (out : Bytes),
    Spec.PushedAny demoServer (ascii "/app/b") sideCmd (ascii "report-status") pack rep backMoment [] (mainHist pack) ∧
    Spec.PushedAny demoServer (ascii "/app") appCmd (ascii "report-status") pack rep2 backMoment (mainHist pack) (fileHist pack) ∧
    Spec.FetchedAny demoServer (ascii "/app/b") (doneBody cloneLines (ascii "\n") []) out m (mainHist pack) ∧
    ∀ m2 out2, m2.sql.fold = demoFold → (∀ l x, x ∈ m2.ord l ↔ x ∈ l) → Spec.CutOk m2.cut →
      ¬ Spec.FetchedAny demoServer (ascii "/app/b") (doneBody cloneLines (ascii "\n") []) out2 m2 (fileHist pack ++ (demoMoment, .http lookB) :: []) := by
  obtain ⟨pack, rep, rep2, hpush, hpush2, objs1, ⟨c1, hc1, pc1, _⟩, objs2, hcom, hrefs, hex, hnamed⟩ := file_state
  obtain ⟨m, hm⟩ : ∃ m : Moment, m = { demoMoment with fuel := (runBoth demoServer .empty (mainHist pack)).web.db.nodes.length } := ⟨_, rfl⟩
  have hrepo : ∀ x ∈ mainHist pack, ∀ a, x.2.repo = some a → a = ascii "/app/b" := by
    intro x hx a ha
    rw [mainHist, List.mem_singleton] at hx
    subst hx
    have hroute : route (Spec.pushReq (ascii "/app/b" ++ []) (Spec.pushBody sideCmd [] (ascii "report-status") pack)).method
        (Spec.pushReq (ascii "/app/b" ++ []) (Spec.pushBody sideCmd [] (ascii "report-status") pack)).path
        (Spec.pushReq (ascii "/app/b" ++ []) (Spec.pushBody sideCmd [] (ascii "report-status") pack)).service = .receivePack (ascii "/app/b") := route_push appb_url (.inl rfl)
    simp only [Visit.repo, HttpReq.repo, hroute] at ha
    exact (Option.some.inj ha).symm
  obtain ⟨out, _, _, k1, _⟩ := clone_answers demoServer demoFold_hash (ascii "/app/b") (mainHist pack)
    (by intro x hx; rw [mainHist, List.mem_singleton] at hx; rw [hx]; rfl)
    (by intro x hx y hy a b ha hb _ _; rw [hrepo x hx a ha, hrepo y hy b hb]) (few_unique libObjects_ids objs1) (few_fits (by decide) lib_big objs1)
    (List.ne_nil_of_mem (commitsAt_mem.2 ⟨hc1, by rw [pc1]⟩)) m (by rw [hm]; rfl) (by rw [hm]) (by rw [hm]; exact fun _ _ => .rfl) (by rw [hm]; exact demoCut_ok) cloneLines (ascii "\n") [] cloneLines_ok
  refine ⟨pack, rep, rep2, m, out, hpush, hpush2, .http [] appb_url (.inl rfl) (k1 [] appb_url (.inl rfl)), fun m2 out2 hf2 hord hcut => ?_⟩
  have hno := both_nodes demoServer (fileHist pack)
  refine C155_below_false demoServer appb_url (.inl rfl) .uploadPack (w := ascii "b") (by decide +kernel) (fileHist pack) demoMoment rfl (fun _ _ => rfl) ?_ ?_ ?_ ?_ ?_ [] ?_ m2 hf2 hord hcut
    cloneLines (ascii "\n") [] out2 cloneLines_ok
  · rw [hrefs]
    intro r hr hmas
    simp only [List.mem_cons, List.not_mem_nil, or_false] at hr
    rcases hr with rfl | rfl
    · revert hmas
      unfold Spec.isMaster
      decide +kernel
    · decide
  · rw [hrefs]
    exact ⟨bothRow, by simp, by unfold Spec.isMaster; decide +kernel, ⟨ascii "b", by decide⟩, by decide⟩
  · rw [hrefs]
    obtain ⟨c, hc, ec⟩ := hcom
    intro r hr _ _
    refine ⟨c, hc, ?_⟩
    simp only [List.mem_cons, List.not_mem_nil, or_false] at hr
    rcases hr with rfl | rfl <;> rw [ec] <;> rfl
  · obtain ⟨n, hn, e⟩ := hex
    exact ⟨n, hn, by rw [e]⟩
  · intro n hn e
    have hid := hno.id n hn
    rw [hnamed n hn e] at hid
    have hm := objs2 _ (.inl ⟨n, hn, rfl⟩)
    have := List.inj_on_of_nodup_map libObjects_ids hm (show metaOf polyExt (.blob, ascii "two") ∈ libObjects by simp [libObjects, appObjects, appThin]) (Hash.toPlainStr_injective hid).symm
    rcases hno.type n hn with ht | ht
    · rw [nodeObj_tree ht] at this
      exact absurd (congrArg MetaData.t this) (by simp [metaOf])
    · rw [nodeObj_blob (by rw [ht]; decide)] at this
      have hd : n.data = ascii "two" := congrArg MetaData.data this
      refine ⟨ht, fun items hi => ?_⟩
      rw [hd] at hi
      have hp : (decodeTree (ascii "two")).unwrap = .panic := by decide +kernel
      rw [hi] at hp
      cases hp
  · rw [asked_nodes demoServer demoMoment (fileHist pack) appb_url (.inl rfl) .uploadPack]
    intro a ha b hb he
    rw [hno.id a ha, hno.id b hb] at he
    have := few_unique libObjects_ids objs2 (nodeObj a) (nodeObj b) (.inl ⟨a, ha, rfl⟩) (.inl ⟨b, hb, rfl⟩) (Hash.toPlainStr_injective he)
    exact congrArg Prod.snd this

end Gust

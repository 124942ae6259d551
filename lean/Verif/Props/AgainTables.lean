import Verif.Props.Again
import Verif.Props.TagsBoth
import Verif.Props.RefinedTables

/-! # C143 and C151 with the tables of the dump -/

namespace Gust

/-- **C151 (partial)** With the tables of the dump, a push can be made again: a client pushes a complete project that fits the columns, to create a branch, over HTTP or SSH, and sends the same push once more after
anything anybody has done on both servers. It is answered with `ok` again, and every clone of the repository, over HTTP or SSH, has the same objects before and after it. (Missing from the full claim: as for
`C151_again_partial`; what does not fit, see C117, C118, C119.) -/
theorem C151_tables_partial (P : ServerExt) (hfold : ∀ a b : Hash, P.D.fold (Hash.toPlainStr a) = P.D.fold (Hash.toPlainStr b) → a = b)
    (u : Bytes) (h h' h2 h'' : BothHist) (m m2 : Moment) (hE : Spec.SchemaOnly m.sql) (hE2 : Spec.SchemaOnly m2.sql)
    (c : Spec.PushCmd) (hc : c.Ok) (hcreate : c.old = zeroId) (caps caps2 : Bytes) (hcaps : caps.length ≤ 4000) (hascii : ∀ x ∈ caps, x.toNat < 128)
    (hcaps2 : caps2.length ≤ 4000) (hascii2 : ∀ x ∈ caps2, x.toNat < 128)
    (os : List (Nat × Spec.Obj)) (pack : Bytes) (hpack : Spec.PackOf P.X P.D.fold (runBoth P .empty h).web.db pack os) (hproj : Spec.Project P.X os)
    (hroom : Spec.Roomy (Spec.found P.X os)) (hsmall : ∀ p ∈ os, p.2.1 = .commit → p.2.2.length ≤ 65535) (hname : c.name.length ≤ 31) (hpath : chars u ≤ 64)
    (hfuel : os.length < m.fuel) (hfuel2 : os.length < m2.fuel) (hsent : Spec.SentAny P u c caps pack m h h') (hsent2 : Spec.SentAny P u c caps2 pack m2 (h' ++ h2) h'')
    (hfl : Spec.SameFoldAny P.D.fold h'') (hab : Spec.NoneAboveAny P.D.fold u h'') (hun : UniqueIds P.X (runBoth P .empty h'').web.db) :
    (∃ rep2, Spec.PushedAny P u c caps2 pack rep2 m2 (h' ++ h2) h'' ∧
      Spec.reportLines (decide (.sideBand ∈ parseCapabilities caps2 ∨ .sideBand64k ∈ parseCapabilities caps2)) rep2 =
        some [ascii "unpack ok\n", Spec.statusLine (c.name ++ [0]) none]) ∧
      ∀ (m3 m4 : Moment) (ls ls' : List Spec.ReqLine) (t rest t' rest' out out' : Bytes), m3.sql.fold = P.D.fold → m4.sql.fold = P.D.fold → FitsPack P.X (runBoth P .empty h'').web.db →
        (∀ l x, x ∈ m3.ord l ↔ x ∈ l) → Spec.CutOk m3.cut → (∀ l x, x ∈ m4.ord l ↔ x ∈ l) → Spec.CutOk m4.cut → Spec.CloneReq ls t → Spec.CloneReq ls' t' →
        Spec.FetchedAny P u (doneBody ls t rest) out m3 (h' ++ h2) → Spec.FetchedAny P u (doneBody ls' t' rest') out' m4 h'' →
        ∃ file file' ms ms', Spec.readClone out = some file ∧ Spec.readClone out' = some file' ∧ PackHas P.X file ms ∧ PackHas P.X file' ms' ∧ ms.Perm ms' := by
  obtain ⟨v, rfl⟩ := sentAny_ends hsent
  obtain ⟨v2, rfl⟩ := sentAny_ends hsent2
  have ext2 : Extends (runBoth P .empty (h ++ [(m, v)] ++ h2)).web.db (runBoth P .empty (h ++ [(m, v)] ++ h2 ++ [(m2, v2)])).web.db := by
    rw [runBoth_append P .empty (h ++ [(m, v)] ++ h2)]
    exact runBoth_extends P _ _
  have ext1 : Extends (runBoth P .empty h).web.db (runBoth P .empty (h ++ [(m, v)] ++ h2)).web.db := by
    rw [List.append_assoc, runBoth_append]
    exact runBoth_extends P _ _
  have hun2 := ext2.unique hun
  have same := (publishesFit_same hfold ⟨hc, hcaps, hascii, hE, hroom, hsmall, hname, hpath, hpack, hproj, hfuel, hsent⟩ (ext1.unique hun2) (hfl (m, v) (by simp)) (.inl hcreate)).2
  obtain ⟨acc, same2⟩ := publishesFit_same hfold ⟨hc, hcaps2, hascii2, hE2, hroom, hsmall, hname, hpath, packOf_mono ext1 hpack, hproj, hfuel2, hsent2⟩ hun2 (hfl (m2, v2) (by simp)) (.inl hcreate)
  have s0 : SameVisits h h := rfl
  have s1 : SameVisits (h ++ [(m, v)] ++ h2) (h ++ [(m.unlimited, v)] ++ h2) := (s0.append (show SameVisits [(m, v)] [(m.unlimited, v)] from rfl)).append rfl
  have e1 : runBoth P .empty (h ++ [(m.unlimited, v)] ++ h2) = runBoth P .empty (h ++ [(m, v)] ++ h2) := by rw [runBoth_append, same, ← runBoth_append]
  have s2 : SameVisits (h ++ [(m, v)] ++ h2 ++ [(m2, v2)]) (h ++ [(m.unlimited, v)] ++ h2 ++ [(m2.unlimited, v2)]) := s1.append rfl
  have e2 : runBoth P .empty (h ++ [(m.unlimited, v)] ++ h2 ++ [(m2.unlimited, v2)]) = runBoth P .empty (h ++ [(m, v)] ++ h2 ++ [(m2, v2)]) := by
    rw [← same2, runBoth_append, e1, ← runBoth_append]
  have key := (C151_again_partial P hfold u h (h ++ [(m.unlimited, v)]) h2 _ m.unlimited m2.unlimited (hfl (m, v) (by simp)) (unlimited_accepts _) (unlimited_accepts _) c hc hcreate caps caps2 hcaps hascii hcaps2
    hascii2 os pack hpack hproj hfuel hfuel2 (s0.sent rfl hsent _) (s1.sent e1 hsent2 _) (s2.sameFold hfl) (s2.noneAbove hab) (by rw [e2]; exact hun)).2
  refine ⟨acc, ?_⟩
  intro m3 m4 ls ls' t rest t' rest' out out' hm3 hm4 hfit o3 c3 o4 c4 hr hr' hf hf'
  refine key m3 m4 ls ls' t rest t' rest' out out' hm3 hm4 (by rw [e2]; exact hfit) o3 c3 o4 c4 hr hr' (s1.fetched e1 hf) (s2.fetched e2 hf')

/-- **C143 (partial)** With the tables of the dump, a lightweight tag, that is a ref whose name has at most 31 characters and that names a commit of the pushed project, works over HTTP and SSH, if the project fits the
columns: the push is answered, the ref is stored with the id of the commit and stays as long as nobody pushes to the same repository over either, and whoever clones, over HTTP or on an SSH connection that is open
for the repository, finds the commit with exactly its files. (Missing from the full claim: as for `C143_light_both_partial`; what does not fit, see C117, C118, C119.) -/
theorem C143_tables_partial (P : ServerExt) (hfold : ∀ a b : Hash, P.D.fold (Hash.toPlainStr a) = P.D.fold (Hash.toPlainStr b) → a = b)
    (u : Bytes) (h1 h' h2 : BothHist) (m1 m2 : Moment)
    (c : Spec.PushCmd) (hc : c.Ok) (hnew : c.old = zeroId) (hnz : c.new ≠ zeroId) (caps : Bytes) (hcaps : caps.length ≤ 4000) (hascii : ∀ x ∈ caps, x.toNat < 128)
    (os : List (Nat × Spec.Obj)) (pack : Bytes) (hpack : Spec.PackOf P.X P.D.fold (runBoth P .empty h1).web.db pack os) (hproj : Spec.Project P.X os)
    (o : Nat × Spec.Obj) (ho : o ∈ os) (ht : o.2.1 = .commit) (hid : c.new = Hash.toPlainStr (idOf P.X o.2)) (hsent : Spec.SentAny P u c caps pack m1 h1 h')
    (hE : Spec.SchemaOnly m1.sql) (hroom : Spec.Roomy (Spec.found P.X os)) (hsmall : ∀ p ∈ os, p.2.1 = .commit → p.2.2.length ≤ 65535) (hname : c.name.length ≤ 31) (hpath : chars u ≤ 64)
    (hfuel1 : os.length < m1.fuel)
    (hfl : Spec.SameFoldAny P.D.fold (h' ++ h2)) (hm2 : m2.sql.fold = P.D.fold) (hab : Spec.NoneAboveAny P.D.fold u (h' ++ h2))
    (hun : UniqueIds P.X (runBoth P .empty (h' ++ h2)).web.db) (hfit : FitsPack P.X (runBoth P .empty (h' ++ h2)).web.db)
    (hfuel2 : (runBoth P .empty (h' ++ h2)).web.db.nodes.length ≤ m2.fuel)
    (hord : ∀ l x, x ∈ m2.ord l ↔ x ∈ l) (hcut : Spec.CutOk m2.cut) (ls : List Spec.ReqLine) (t rest : Bytes) (hr : Spec.CloneReq ls t) :
    ∃ rep out, Spec.PushedAny P u c caps pack rep m1 h1 h' ∧
      Spec.reportLines (decide (.sideBand ∈ parseCapabilities caps ∨ .sideBand64k ∈ parseCapabilities caps)) rep =
        some [ascii "unpack ok\n", Spec.statusLine (c.name ++ [0]) none] ∧
      (Spec.NoPush P u (runBoth P .empty h') h2 →
        { repoPath := u, refName := c.name ++ [0], refGitId := Hash.toPlainStr (idOf P.X o.2) } ∈ (runBoth P .empty (h' ++ h2)).web.db.refs) ∧
      (∀ g, Spec.CleanUrl u → (g = [] ∨ g = ascii ".git") →
        (serve P m2 (runBoth P .empty (h' ++ h2)).web (Spec.fetchReq (u ++ g) (doneBody ls t rest))).1 = .reply (.ok (.bytes out))) ∧
      (∀ i ch, Spec.Opened P u i (h' ++ h2) → (sshStep P.X m2 (runBoth P .empty (h' ++ h2)).ssh i (.data ch (doneBody ls t rest))).1 = [(ch, out)]) ∧
      ((∃ g, Spec.CleanUrl u ∧ (g = [] ∨ g = ascii ".git")) ∨ (∃ i, Spec.Opened P u i (h' ++ h2)) → ∃ file, Spec.readClone out = some file ∧
        ∀ St fuel, ∃ q, decodePack P.X St (fuel + 1) file = .ok q ∧
          ∀ path mode data, Spec.CheckedOut (Spec.found P.X os) (idOf P.X o.2) path mode data ↔ Spec.CheckedOut q.result.hashObject (idOf P.X o.2) path mode data) := by
  obtain ⟨v, rfl⟩ := sentAny_ends hsent
  have ext : Extends (runBoth P .empty h1).web.db (runBoth P .empty (h1 ++ [(m1, v)] ++ h2)).web.db := by
    rw [List.append_assoc, runBoth_append]
    exact runBoth_extends P _ _
  obtain ⟨⟨rep, r1, r2⟩, same⟩ := publishesFit_same hfold ⟨hc, hcaps, hascii, hE, hroom, hsmall, hname, hpath, hpack, hproj, hfuel1, hsent⟩ (ext.unique hun) (hfl (m1, v) (by simp)) (.inl hnew)
  have s0 : SameVisits h1 h1 := rfl
  have s1 : SameVisits (h1 ++ [(m1, v)] ++ h2) (h1 ++ [(m1.unlimited, v)] ++ h2) := (s0.append (show SameVisits [(m1, v)] [(m1.unlimited, v)] from rfl)).append rfl
  have e1 : runBoth P .empty (h1 ++ [(m1.unlimited, v)] ++ h2) = runBoth P .empty (h1 ++ [(m1, v)] ++ h2) := by rw [runBoth_append, same, ← runBoth_append]
  have key := C143_light_both_partial P hfold u h1 (h1 ++ [(m1.unlimited, v)]) h2 m1.unlimited m2 c hc hnew hnz caps hcaps hascii os pack hpack hproj o ho ht hid (s0.sent rfl hsent _) (unlimited_accepts _)
    hfuel1 (s1.sameFold hfl) hm2 (s1.noneAbove hab) (by rw [e1]; exact hun) (by rw [e1]; exact hfit) (by rw [e1]; exact hfuel2) hord hcut ls t rest hr
  rw [e1, same] at key
  obtain ⟨_, out, _, _, k3, k4, k5, k6⟩ := key
  exact ⟨rep, out, r1, r2, k3, k4, fun i ch hop => k5 i ch (s1.opened e1 hop), fun hhow => k6 (hhow.imp id fun ⟨i, hi⟩ => ⟨i, s1.opened e1 hi⟩)⟩

/-! ## Instances -/

/-- Pushes of the five objects add none but these. -/
theorem app_adds {c : Spec.PushCmd} (hc : c.Ok) {u pack rep : Bytes} {h h' : BothHist} (hpack : Spec.PackOf polyExt demoFold (runBoth demoServer .empty h).web.db pack appEntries)
    (objs : ∀ o, StoredObj (runBoth demoServer .empty h).web.db o → metaOf polyExt o ∈ appObjects)
    (hp : Spec.PushedAny demoServer u c (ascii "report-status") pack rep dumpMoment h h') :
    ∀ o, StoredObj (runBoth demoServer .empty h').web.db o → metaOf polyExt o ∈ appObjects := by
  obtain ⟨p, d1, d2⟩ := packOf_read demoFold_hash (both_nodes demoServer h) (app_unique objs) (E := dumpSql) rfl hpack (fuel := 6) (by decide)
  obtain ⟨st', e1, e2, _⟩ := pushedAny_http hc (by decide) (by decide) hp
  rw [e2]
  rw [push_answer _ u _ c hc (ascii "report-status") (by decide) (by decide) pack (decodePack_magic d1)] at e1
  obtain ⟨p', db1, h1, h2, h3, _⟩ := receiveData_ok rfl (Res.unwrap_eq_ok.1 e1)
  have : p' = p := Res.ok.inj (h1.symm.trans d1)
  subst this
  simp only at h2 h3
  obtain ⟨g1, g2⟩ := handleRefs_only dumpMoment.sql { RefCommand.new c.old c.new (c.name ++ [0]) with ok := true } u db1
  rw [h3] at g1 g2
  intro o ho
  obtain ⟨rows, k1, k2, _, k4⟩ := push_effect h1 dumpMoment.sql dumpMoment.fuel u (runBoth demoServer .empty h).web.db
  have e : (savePackfile dumpMoment.sql dumpMoment.fuel p' u (runBoth demoServer .empty h).web.db).2 = db1 := congrArg Prod.snd h2
  rw [e] at k1 k4
  have hf : ∀ h m, p'.result.hashObject h = some m → m ∈ appObjects := fun h m hm => by
    rw [d2] at hm
    exact ((app_found _ _).1 hm).1
  rcases ho with ⟨n, hn, rfl⟩ | ⟨r, hr, rfl⟩
  · rw [g1, k1] at hn
    rcases List.mem_append.1 hn with hn | hn
    · exact objs _ (.inl ⟨n, hn, rfl⟩)
    · obtain ⟨m, hm, e, _⟩ := k2 n hn
      exact e ▸ hf _ _ hm
  · rw [g2] at hr
    rcases k4 r hr with h | ⟨_, _, m, _, hm, ht, hd, _⟩
    · exact objs _ (.inr ⟨r, h, rfl⟩)
    · have hmem := hf _ _ hm
      have := (metaOf_of_new (appObjects_new m hmem)).2
      rw [hd, ← ht, this]
      exact hmem

/-- C151 with the tables of the dump: the five objects are published over SSH, and the same push is made again over HTTP. It is answered with `ok`, and the clones before and after have the same objects. -/
example : ∃ (pack rep2 : Bytes) (m3 m4 : Moment) (out out' file file' : Bytes) (ms ms' : List MetaData) (h h' : BothHist),
    h = bothBefore ++ [(dumpMoment, .ssh 0 (.data 0 pack))] ++ [] ∧ h' = h ++ [(dumpMoment, .http (Spec.pushReq (ascii "/app" ++ []) (Spec.pushBody appCmd [] (ascii "report-status") pack)))] ∧
    (serve demoServer m3 (runBoth demoServer .empty h).web (Spec.fetchReq (ascii "/app" ++ []) (doneBody cloneLines (ascii "\n") []))).1 = .reply (.ok (.bytes out)) ∧
    Spec.PushedAny demoServer (ascii "/app") appCmd (ascii "report-status") pack rep2 dumpMoment h h' ∧
    (serve demoServer m4 (runBoth demoServer .empty h').web (Spec.fetchReq (ascii "/app" ++ []) (doneBody cloneLines (ascii "\n") []))).1 = .reply (.ok (.bytes out')) ∧
    Spec.readClone out = some file ∧ Spec.readClone out' = some file' ∧ PackHas polyExt file ms ∧ PackHas polyExt file' ms' ∧ ms.Perm ms' := by
  obtain ⟨pack, hpack⟩ := app_packOf demoServer.D.fold (runBoth demoServer .empty bothBefore).web.db
  have pub := dump_publishes hpack
  obtain ⟨⟨rep, r1, _⟩, _⟩ := publishesFit_same demoFold_hash pub bothBefore_unique rfl (.inl rfl)
  have objs := dump_objs hpack r1
  obtain ⟨h, eh⟩ : ∃ h, h = bothBefore ++ [(dumpMoment, Visit.ssh 0 (.data 0 pack))] ++ [] := ⟨_, rfl⟩
  obtain ⟨h', eh'⟩ : ∃ h', h' = h ++ [(dumpMoment, Visit.http (Spec.pushReq (ascii "/app" ++ []) (Spec.pushBody appCmd [] (ascii "report-status") pack)))] := ⟨_, rfl⟩
  have objs : ∀ o, StoredObj (runBoth demoServer .empty h).web.db o → metaOf polyExt o ∈ appObjects := by
    rw [eh, List.append_nil]
    exact objs
  have ext : Extends (runBoth demoServer .empty bothBefore).web.db (runBoth demoServer .empty h).web.db := by
    rw [eh, List.append_assoc, runBoth_append]
    exact runBoth_extends demoServer _ _
  have hsent2 : Spec.SentAny demoServer (ascii "/app") appCmd (ascii "report-status") pack dumpMoment h h' := by
    rw [eh']
    exact .http h [] app_clean_url (.inl rfl)
  have hpack2 := packOf_mono ext hpack
  obtain ⟨rep2, s1, _⟩ := C119_both_partial demoServer demoFold_hash (ascii "/app") h h' dumpMoment (app_unique objs) rfl dumpSql_schema appCmd appCmd_ok (ascii "report-status") (by decide) (by decide)
    (.inl rfl) appEntries pack hpack2 app_project app_roomy pub.fuel hsent2
  have objs2 := app_adds appCmd_ok hpack2 objs s1
  have names : ∀ x ∈ h', x.1.sql.fold = demoFold ∧ ∀ a, x.2.repo = some a → a = ascii "/app" := by
    intro x hx
    rw [eh', eh, List.append_nil] at hx
    rcases List.mem_append.1 hx with hx | hx
    · rcases List.mem_append.1 hx with hx | hx
      · exact bothBefore_names x hx
      · cases List.mem_singleton.1 hx
        exact ⟨rfl, fun _ e => nomatch e⟩
    · rw [List.mem_singleton.1 hx]
      refine ⟨rfl, fun a e => ?_⟩
      simp only [Visit.repo, HttpReq.repo, Spec.pushReq, route_push app_clean_url (.inl rfl)] at e
      exact (Option.some.inj e).symm
  have hf' : Spec.SameFoldAny demoServer.D.fold h' := fun x hx => (names x hx).1
  have hab' : Spec.NoneAboveAny demoServer.D.fold (ascii "/app") h' := fun a ha b hb x y hx hy _ _ => by rw [(names a ha).2 x hx, (names b hb).2 y hy]
  have sub : ∀ x ∈ h, x ∈ h' := fun x hx => by rw [eh']; exact List.mem_append_left _ hx
  have key := (C151_tables_partial demoServer demoFold_hash (ascii "/app") bothBefore (bothBefore ++ [(dumpMoment, Visit.ssh 0 (.data 0 pack))]) [] h' dumpMoment dumpMoment dumpSql_schema dumpSql_schema appCmd
    appCmd_ok rfl (ascii "report-status") (ascii "report-status") (by decide) (by decide) (by decide) (by decide) appEntries pack hpack app_project app_roomy pub.commits (by decide) (by decide) pub.fuel
    pub.fuel pub.sent (by rw [← eh]; exact hsent2) hf' hab' (app_unique objs2)).2
  rw [← eh] at key
  have before : Spec.PublishedFit demoServer (ascii "/app") bothBefore [] [] := .others [] bothBefore [] [] .nothing bothBefore_noPack
  have after : Spec.PublishedFit demoServer (ascii "/app") h [appEntries] [(appCmd.new, appCmd.name)] := by
    rw [eh, List.append_nil]
    exact .push bothBefore _ [] [] _ dumpMoment appCmd (ascii "report-status") pack appEntries before pub dump_moved
  have given : Spec.Given polyExt appEntries (metaOf polyExt (.commit, appCommit.encode)) := ⟨(app_found _ _).2 ⟨by simp [appObjects, appThin], rfl⟩, .inl rfl⟩
  have created : Spec.Moved demoFold appCmd [(appCmd.new, appCmd.name)] [(appCmd.new, appCmd.name), (appCmd.new, appCmd.name)] := ⟨by decide +kernel, .inl ⟨rfl, rfl⟩⟩
  have after2 := Spec.PublishedFit.push h h' _ _ _ dumpMoment appCmd (ascii "report-status") pack appEntries after
    ⟨appCmd_ok, by decide, by decide, dumpSql_schema, app_roomy, pub.commits, by decide, by decide, hpack2, app_project, pub.fuel, hsent2⟩ created
  obtain ⟨m3, hm3⟩ : ∃ m3 : Moment, m3 = { demoMoment with fuel := (runBoth demoServer .empty h).web.db.nodes.length } := ⟨_, rfl⟩
  obtain ⟨m4, hm4⟩ : ∃ m4 : Moment, m4 = { demoMoment with fuel := (runBoth demoServer .empty h').web.db.nodes.length } := ⟨_, rfl⟩
  obtain ⟨out, _, _, k1, _⟩ := C152_tables_exact_partial demoServer demoFold_hash (ascii "/app") h _ _ after (sameFoldAny_sub sub hf') (noneAboveAny_sub sub hab') (app_unique objs) (app_fits objs)
    ⟨appEntries, by simp, _, given⟩ m3 (by rw [hm3]; rfl) (by rw [hm3]) (by rw [hm3]; exact fun _ _ => .rfl) (by rw [hm3]; exact demoCut_ok) cloneLines (ascii "\n") [] cloneLines_ok
  obtain ⟨out', _, _, k1', _⟩ := C152_tables_exact_partial demoServer demoFold_hash (ascii "/app") h' _ _ after2 hf' hab' (app_unique objs2) (app_fits objs2)
    ⟨appEntries, by simp, _, given⟩ m4 (by rw [hm4]; rfl) (by rw [hm4]) (by rw [hm4]; exact fun _ _ => .rfl) (by rw [hm4]; exact demoCut_ok) cloneLines (ascii "\n") [] cloneLines_ok
  have q1 := k1 [] app_clean_url (.inl rfl)
  have q2 := k1' [] app_clean_url (.inl rfl)
  obtain ⟨file, file', ms, ms', r⟩ := key m3 m4 cloneLines cloneLines (ascii "\n") [] (ascii "\n") [] out out' (by rw [hm3]; rfl) (by rw [hm4]; rfl) (app_fits objs2) (by rw [hm3]; exact fun _ _ => .rfl)
    (by rw [hm3]; exact demoCut_ok) (by rw [hm4]; exact fun _ _ => .rfl) (by rw [hm4]; exact demoCut_ok) cloneLines_ok cloneLines_ok (.http [] app_clean_url (.inl rfl) q1) (.http [] app_clean_url (.inl rfl) q2)
  exact ⟨pack, rep2, m3, m4, out, out', file, file', ms, ms', h, h', eh, eh', q1, s1, q2, r⟩

/-- The command that creates the lightweight tag `refs/tags/v1` at the commit. -/
def lightTagCmd : Spec.PushCmd := { appCmd with name := ascii "refs/tags/v1" }

theorem lightTagCmd_ok : lightTagCmd.Ok := by
  refine ⟨by decide, by decide, by decide +kernel, by decide +kernel, by decide, by decide, by decide⟩

/-- C143 with the tables of the dump: the five objects are pushed over HTTP with `refs/tags/v1`. The push is answered, the tag is stored, a clone is answered and can be read. -/
example : ∃ (pack rep out file : Bytes) (m2 : Moment) (h : BothHist),
    h = [] ++ [(dumpMoment, .http (Spec.pushReq (ascii "/app" ++ []) (Spec.pushBody lightTagCmd [] (ascii "report-status") pack)))] ∧
    Spec.PushedAny demoServer (ascii "/app") lightTagCmd (ascii "report-status") pack rep dumpMoment [] h ∧
    { repoPath := ascii "/app", refName := ascii "refs/tags/v1" ++ [0], refGitId := Hash.toPlainStr (idOf polyExt (.commit, appCommit.encode)) } ∈ (runBoth demoServer .empty h).web.db.refs ∧
    (serve demoServer m2 (runBoth demoServer .empty h).web (Spec.fetchReq (ascii "/app" ++ []) (doneBody cloneLines (ascii "\n") []))).1 = .reply (.ok (.bytes out)) ∧ Spec.readClone out = some file := by
  obtain ⟨pack, hpack⟩ := app_packOf demoServer.D.fold (runBoth demoServer .empty []).web.db
  have none : ∀ o, StoredObj (runBoth demoServer .empty []).web.db o → metaOf polyExt o ∈ appObjects := by
    intro o ho
    rcases ho with ⟨n, hn, _⟩ | ⟨n, hn, _⟩ <;> cases hn
  obtain ⟨h, eh⟩ : ∃ h : BothHist, h = [] ++ [(dumpMoment, .http (Spec.pushReq (ascii "/app" ++ []) (Spec.pushBody lightTagCmd [] (ascii "report-status") pack)))] := ⟨_, rfl⟩
  have hsent : Spec.SentAny demoServer (ascii "/app") lightTagCmd (ascii "report-status") pack dumpMoment [] h := by
    rw [eh]
    exact .http [] [] app_clean_url (.inl rfl)
  have fuel : appEntries.length < dumpMoment.fuel := by rw [show appEntries.length = 5 from objectsAt_length polyExt 12 appObjects]; decide
  have small : ∀ p ∈ appEntries, p.2.1 = .commit → p.2.2.length ≤ 65535 := fun p hp _ => by
    have : ∀ p ∈ appEntries, p.2.2.length ≤ 65535 := by decide +kernel
    exact this p hp
  obtain ⟨rep, r1, _⟩ := C119_both_partial demoServer demoFold_hash (ascii "/app") [] h dumpMoment (app_unique none) rfl dumpSql_schema lightTagCmd lightTagCmd_ok (ascii "report-status") (by decide) (by decide)
    (.inl rfl) appEntries pack hpack app_project app_roomy fuel hsent
  have objs := app_adds lightTagCmd_ok hpack none r1
  rw [← List.append_nil h] at objs
  obtain ⟨m2, hm2⟩ : ∃ m2 : Moment, m2 = { demoMoment with fuel := (runBoth demoServer .empty (h ++ [])).web.db.nodes.length } := ⟨_, rfl⟩
  have names : ∀ x ∈ h ++ [], x.1.sql.fold = demoFold ∧ ∀ a, x.2.repo = some a → a = ascii "/app" := by
    intro x hx
    rw [List.append_nil, eh] at hx
    rw [List.mem_singleton.1 hx]
    refine ⟨rfl, fun a e => ?_⟩
    simp only [Visit.repo, HttpReq.repo, Spec.pushReq, route_push app_clean_url (.inl rfl)] at e
    exact (Option.some.inj e).symm
  obtain ⟨p, hp, ep, _⟩ := (found_iff appEntries_ids _ _).1 ((app_found (metaOf polyExt (.commit, appCommit.encode)).id (metaOf polyExt (.commit, appCommit.encode))).2 ⟨by simp [appObjects, appThin], rfl⟩)
  have ep : p.2 = (.commit, appCommit.encode) := Prod.ext (congrArg MetaData.t ep) (congrArg MetaData.data ep)
  obtain ⟨rep', out, k1, _, k3, k4, _, k6⟩ := C143_tables_partial demoServer demoFold_hash (ascii "/app") [] h [] dumpMoment m2 lightTagCmd lightTagCmd_ok rfl (by decide +kernel) (ascii "report-status") (by decide)
    (by decide) appEntries pack hpack app_project p hp (by rw [ep]) (by rw [ep]; rfl) hsent dumpSql_schema app_roomy small (by decide) (by decide) fuel (fun x hx => (names x hx).1) (by rw [hm2]; rfl)
    (fun a ha b hb x y hx hy _ _ => by rw [(names a ha).2 x hx, (names b hb).2 y hy]) (app_unique objs) (app_fits objs) (by rw [hm2]) (by rw [hm2]; exact fun _ _ => .rfl)
    (by rw [hm2]; exact demoCut_ok) cloneLines (ascii "\n") [] cloneLines_ok
  obtain ⟨file, f1, _⟩ := k6 (.inl ⟨[], app_clean_url, .inl rfl⟩)
  have k3 := k3 trivial
  have k4 := k4 [] app_clean_url (.inl rfl)
  rw [List.append_nil] at k3 k4
  rw [ep] at k3
  exact ⟨pack, rep', out, file, m2, h, eh, k1, k3, k4, f1⟩

/-- A command for a branch that is no longer where the client thinks. -/
def movedCmd : Spec.PushCmd := { appCmd with old := Hash.toPlainStr srcId }

theorem movedCmd_ok : movedCmd.Ok := by
  refine ⟨by decide +kernel, by decide +kernel, by decide +kernel, by decide +kernel, by decide, by decide, by decide⟩

/-- C154 with the tables of the dump: the five objects are pushed over HTTP to an empty repository, to move a branch. The push gets no answer, but a clone has the commit. -/
example : ∃ (pack out file : Bytes) (ms : List MetaData) (m2 : Moment) (h : BothHist),
    h = [] ++ [(dumpMoment, .http (Spec.pushReq (ascii "/app" ++ []) (Spec.pushBody movedCmd [] (ascii "report-status") pack)))] ∧
    Spec.LostAny demoServer (ascii "/app") movedCmd (ascii "report-status") pack dumpMoment [] h ∧ (runBoth demoServer .empty h).web.db.refs = [] ∧
    (serve demoServer m2 (runBoth demoServer .empty h).web (Spec.fetchReq (ascii "/app" ++ []) (doneBody cloneLines (ascii "\n") []))).1 = .reply (.ok (.bytes out)) ∧ Spec.readClone out = some file ∧
    PackHas polyExt file ms ∧ metaOf polyExt (.commit, appCommit.encode) ∈ ms := by
  obtain ⟨pack, hpack⟩ := app_packOf demoServer.D.fold (runBoth demoServer .empty []).web.db
  have hun : UniqueIds polyExt (runBoth demoServer .empty []).web.db := by
    intro a b ha
    rcases ha with ⟨n, hn, _⟩ | ⟨n, hn, _⟩ <;> cases hn
  obtain ⟨h, eh⟩ : ∃ h : BothHist, h = [] ++ [(dumpMoment, .http (Spec.pushReq (ascii "/app" ++ []) (Spec.pushBody movedCmd [] (ascii "report-status") pack)))] := ⟨_, rfl⟩
  have hsent : Spec.SentAny demoServer (ascii "/app") movedCmd (ascii "report-status") pack dumpMoment [] h := by
    rw [eh]
    exact .http [] [] app_clean_url (.inl rfl)
  have hpub : Spec.PublishesFit demoServer (ascii "/app") [] h dumpMoment movedCmd (ascii "report-status") pack appEntries :=
    ⟨movedCmd_ok, by decide, by decide, dumpSql_schema, app_roomy, fun p hp _ => by
      have : ∀ p ∈ appEntries, p.2.2.length ≤ 65535 := by decide +kernel
      exact this p hp, by decide, by decide, hpack, app_project, by rw [show appEntries.length = 5 from objectsAt_length polyExt 12 appObjects]; decide, hsent⟩
  have hst : Spec.Stale demoFold movedCmd [] := ⟨by decide +kernel, .inr fun _ h => nomatch h⟩
  obtain ⟨p, db1, d1, d2, d3, _⟩ := publishesFit_saved demoFold_hash hpub hun rfl
  have d5 : db1.refs = [] := by
    have := savePackfile_refs dumpMoment.sql dumpMoment.fuel p (ascii "/app") (runBoth demoServer .empty []).web.db
    rwa [d3] at this
  have d4 : (runBoth demoServer .empty h).web.db = db1 := by
    have s3 := stale_command (u := ascii "/app") (db := (runBoth demoServer .empty []).web.db) (db1 := db1) (E := dumpMoment.sql) hst rfl d5 rfl
    rw [sent_section movedCmd_ok (by decide) (by decide) hsent, gitReceiveDb, if_pos (decodePack_magic d1), receiveDataDb]
    simp only [List.getLast?_singleton, mysqlPush, show demoServer.X = polyExt from rfl] at d1 d3 s3 ⊢
    simp only [d1, d3, s3]
  have objs : ∀ o, StoredObj (runBoth demoServer .empty (h ++ [])).web.db o → metaOf polyExt o ∈ appObjects := by
    rw [List.append_nil, d4]
    intro o ho
    obtain ⟨rows, k1, k2, _, k4⟩ := push_effect d1 dumpMoment.sql dumpMoment.fuel (ascii "/app") (runBoth demoServer .empty []).web.db
    rw [congrArg Prod.snd d3] at k1 k4
    have hf : ∀ h m, p.result.hashObject h = some m → m ∈ appObjects := fun h m hm => by
      rw [d2] at hm
      exact ((app_found _ _).1 hm).1
    rcases ho with ⟨n, hn, rfl⟩ | ⟨r, hr, rfl⟩
    · rw [k1] at hn
      obtain ⟨m, hm, e, _⟩ := k2 n hn
      exact e ▸ hf _ _ hm
    · rcases k4 r hr with h | ⟨_, _, m, c, hm, ht, hd, _⟩
      · cases h
      · have hmem := hf _ _ hm
        have := (metaOf_of_new (appObjects_new m hmem)).2
        rw [hd, ← ht, this]
        exact hmem
  have names : ∀ x ∈ h ++ [], x.1.sql.fold = demoFold ∧ ∀ a, x.2.repo = some a → a = ascii "/app" := by
    intro x hx
    rw [List.append_nil, eh] at hx
    rw [List.mem_singleton.1 hx]
    refine ⟨rfl, fun a e => ?_⟩
    simp only [Visit.repo, HttpReq.repo, Spec.pushReq, route_push app_clean_url (.inl rfl)] at e
    exact (Option.some.inj e).symm
  have hfl : Spec.SameFoldAny demoServer.D.fold (h ++ []) := fun x hx => (names x hx).1
  have above : Spec.NoneAboveAny demoServer.D.fold (ascii "/app") (h ++ []) := fun a ha b hb x y hx hy _ _ => by rw [(names a ha).2 x hx, (names b hb).2 y hy]
  obtain ⟨k1, k2, k3⟩ := C154_tables_stale_false demoServer demoFold_hash (ascii "/app") [] h [] [] [] .nothing hfl above (app_unique objs) (app_fits objs) dumpMoment movedCmd (ascii "report-status") pack
    appEntries hpub hst trivial
  have given : Spec.Given polyExt appEntries (metaOf polyExt (.commit, appCommit.encode)) := ⟨(app_found _ _).2 ⟨by simp [appObjects, appThin], rfl⟩, .inl rfl⟩
  obtain ⟨m2, hm2⟩ : ∃ m2 : Moment, m2 = { demoMoment with fuel := (runBoth demoServer .empty (h ++ [])).web.db.nodes.length } := ⟨_, rfl⟩
  obtain ⟨out, _, _, q1, _⟩ := C152_tables_exact_partial demoServer demoFold_hash (ascii "/app") (h ++ []) _ _ k2 hfl above (app_unique objs) (app_fits objs) ⟨appEntries, .head _, _, given⟩ m2
    (by rw [hm2]; rfl) (by rw [hm2]) (by rw [hm2]; exact fun _ _ => .rfl) (by rw [hm2]; exact demoCut_ok) cloneLines (ascii "\n") [] cloneLines_ok
  have q2 := q1 [] app_clean_url (.inl rfl)
  obtain ⟨file, ms, r1, r2, r3⟩ := k3 m2 cloneLines (ascii "\n") [] out (by rw [hm2]; rfl) (by rw [hm2]; exact fun _ _ => .rfl) (by rw [hm2]; exact demoCut_ok) cloneLines_ok
    (.http [] app_clean_url (.inl rfl) q2)
  rw [List.append_nil] at q2
  exact ⟨pack, out, file, ms, m2, h, eh, k1, by rw [d4]; exact d5, q2, r1, r2, r3 _ given⟩

end Gust

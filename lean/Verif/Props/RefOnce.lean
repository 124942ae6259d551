import Verif.Props.RefsShown

/-! # C106: a branch has one value -/

namespace Gust

/-- In the pushes of this history, made on a server in state `s`, nobody creates a branch that is there already: every push has one command, which is not a
creation or names a branch the repository does not have at that time. Paths have no backslash. -/
def Spec.CreatesNew (P : ServerExt) : ServerState → List (Moment × HttpReq) → Prop
  | _, [] => True
  | s, (m, r) :: h => m.sql.fold = P.D.fold ∧
    (∀ u t, route r.method r.path r.service = .infoRefs u t → (0x5c : UInt8) ∉ u) ∧
    (∀ u, route r.method r.path r.service = .receivePack u → ∃ (c : Spec.PushCmd) (caps pack : Bytes), c.Ok ∧ caps.length ≤ 4000 ∧ (∀ x ∈ caps, x.toNat < 128) ∧
      r.body = Spec.pushBody c [] caps pack ∧ (c.old = zeroId → ∀ row ∈ s.db.refs, row.repoPath = u → P.D.fold row.refName ≠ P.D.fold (c.name ++ [0]))) ∧
    Spec.CreatesNew P (serve P m s r).2 h

/-- No branch is there twice. -/
def Spec.NamesOnce (fold : Bytes → Bytes) (refs : List RefRow) : Prop :=
  refs.Pairwise (fun r r' => ¬ (r.repoPath = r'.repoPath ∧ fold r.refName = fold r'.refName))

/-! ## Lemmas -/

/-- The names of a list of refs, with their paths. -/
def namesOf (refs : List RefRow) : List (Bytes × Bytes) := refs.map (fun r => (r.repoPath, r.refName))

theorem namesOnce_iff {fold : Bytes → Bytes} {refs : List RefRow} :
    Spec.NamesOnce fold refs ↔ (namesOf refs).Pairwise (fun p p' => ¬ (p.1 = p'.1 ∧ fold p.2 = fold p'.2)) := by
  unfold Spec.NamesOnce namesOf
  rw [List.pairwise_map]

theorem namesOnce_same {fold : Bytes → Bytes} {refs refs' : List RefRow} (h : Spec.NamesOnce fold refs) (e : namesOf refs' = namesOf refs) : Spec.NamesOnce fold refs' := by
  rw [namesOnce_iff] at h ⊢
  rw [e]
  exact h

theorem namesOnce_add {fold : Bytes → Bytes} {refs : List RefRow} (h : Spec.NamesOnce fold refs) {r : RefRow}
    (hr : ∀ x ∈ refs, x.repoPath = r.repoPath → fold x.refName ≠ fold r.refName) : Spec.NamesOnce fold (refs ++ [r]) := by
  refine List.pairwise_append.2 ⟨h, List.pairwise_singleton _ _, fun x hx y hy => ?_⟩
  rw [List.mem_singleton.1 hy]
  exact fun hh => hr x hx hh.1 hh.2

theorem handleRefs_once {E : SqlExt} {cmd : RefCommand} {path : Bytes} {db : Db} (h : Spec.NamesOnce E.fold db.refs)
    (hnew : cmd.commandType = .create → ∀ x ∈ db.refs, x.repoPath = path → E.fold x.refName ≠ E.fold cmd.refName) : Spec.NamesOnce E.fold (handleRefs E cmd path db).2.refs := by
  unfold handleRefs
  split
  · rename_i hc
    simp only [saveRefs, chunks_one, insertRefs]
    split
    · exact namesOnce_add h (hnew hc)
    · exact h
  · exact h
  · unfold updateRefs
    split
    · split
      · refine namesOnce_same h ?_
        unfold namesOf
        apply List.ext_getElem?
        intro j
        rw [List.getElem?_map, List.getElem?_map]
        simp only [List.getElem?_modify]
        cases db.refs[j]? with
        | none => rfl
        | some r =>
          simp only [Option.map_eq_map, Option.map_some]
          split <;> rfl
      · exact h
    · exact h

theorem getHead_once {X : Ext} {E : SqlExt} {path : Bytes} (hb : (0x5c : UInt8) ∉ path) {db : Db} (h : Spec.NamesOnce E.fold db.refs) :
    Spec.NamesOnce E.fold (getHeadObjectId X E db path).2.refs := by
  unfold getHeadObjectId
  split
  · exact h
  · rename_i hno
    split
    · rename_i ref href
      have hmaster := (mem_searchRefs.1 (List.mem_of_find?_eq_some href)).2.2
      unfold generateChild
      split
      · exact h
      · split
        · split
          · simp only [saveChild_eq]
            split
            · refine namesOnce_add h ?_
              intro x hx hp hn
              have hp : x.repoPath = path := hp
              have hl : E.like path x.repoPath = true := by rw [hp]; simpa using E.like_prefix path [] hb
              have := List.find?_eq_none.1 hno x (mem_searchRefs.2 ⟨hx, hl, hn.trans hmaster⟩)
              simp [hp] at this
            · exact h
          · exact h
          · exact h
        · exact h
        · exact h
        · exact h
    · exact h

theorem push_once {X : Ext} {E : SqlExt} {fuel : Nat} {u : Bytes} {db : Db} (h : Spec.NamesOnce E.fold db.refs) {c : Spec.PushCmd} (hc : c.Ok) {caps : Bytes}
    (hl : caps.length ≤ 4000) (ha : ∀ x ∈ caps, x.toNat < 128) (pack : Bytes)
    (hnew : c.old = zeroId → ∀ row ∈ db.refs, row.repoPath = u → E.fold row.refName ≠ E.fold (c.name ++ [0])) :
    Spec.NamesOnce E.fold (httpReceiveDb (mysqlPush X E fuel) { caps := [], commands := [], path := u, db := db } (Spec.pushBody c [] caps pack)).refs := by
  rw [httpReceiveDb, receive_section _ u _ hc hl ha pack]
  simp only
  unfold gitReceiveDb
  split
  · unfold receiveDataDb
    simp only [List.getLast?_singleton, mysqlPush]
    split
    · rename_i p _
      have e := savePackfile_refs E fuel p u db
      split
      · rename_i db1 e1
        rw [e1] at e
        simp only at e
        refine handleRefs_once (by rw [e]; exact h) ?_
        intro ht
        rw [e]
        apply hnew
        by_contra hne
        have ht : (RefCommand.new c.old c.new (c.name ++ [0])).commandType = .create := ht
        unfold RefCommand.new at ht
        simp only at ht
        rw [if_neg (fun e => hne e.symm)] at ht
        split at ht <;> cases ht
      · rename_i e1
        rw [e1] at e
        simp only at e
        rw [e]
        exact h
    · exact h
  · exact h

theorem serve_once {P : ServerExt} {m : Moment} {s : ServerState} {r : HttpReq} {h : List (Moment × HttpReq)} (hc : Spec.CreatesNew P s ((m, r) :: h))
    (h1 : Spec.NamesOnce P.D.fold s.db.refs) : Spec.NamesOnce P.D.fold (serve P m s r).2.db.refs := by
  obtain ⟨hf, k1, k2, _⟩ := hc
  rw [← hf] at h1 ⊢
  rw [serve_db]
  split
  · rename_i u t hr
    exact getHead_once (k1 u t hr) h1
  · rename_i u hr
    obtain ⟨c, caps, pack, g1, g2, g3, g4, g5⟩ := k2 u hr
    rw [g4]
    rw [← hf] at g5
    exact push_once h1 g1 g2 g3 pack g5
  · exact h1

theorem run_once {P : ServerExt} : ∀ {h : List (Moment × HttpReq)} {s : ServerState}, Spec.CreatesNew P s h → Spec.NamesOnce P.D.fold s.db.refs →
    Spec.NamesOnce P.D.fold (runServer P s h).db.refs
  | [], _, _, h1 => h1
  | (m, r) :: h, s, hc, h1 => run_once (h := h) (s := (serve P m s r).2) hc.2.2.2 (serve_once hc h1)

theorem foldl_entry_from (l : List RefRow) : ∀ (rows : List RefRow) (m : List (Bytes × Bytes)), (∀ r ∈ rows, r ∈ l) →
    (∀ p ∈ m, ∃ r ∈ l, r.refGitId = p.1 ∧ r.refName = p.2) →
    ∀ p ∈ rows.foldl (fun m r => entryInsert m r.refGitId r.refName) m, ∃ r ∈ l, r.refGitId = p.1 ∧ r.refName = p.2
  | [], _, _, h => h
  | r :: rows, m, hr, h => by
    rw [List.foldl_cons]
    refine foldl_entry_from l rows _ (fun x hx => hr x (.tail _ hx)) ?_
    intro p hp
    rcases (mem_entryInsert m _ _ p).1 hp with rfl | ⟨hp, _⟩
    · exact ⟨r, hr r (.head _), rfl, rfl⟩
    · exact h p hp

theorem once_eq {fold : Bytes → Bytes} {refs : List RefRow} (h : Spec.NamesOnce fold refs) {r r' : RefRow} (hr : r ∈ refs) (hr' : r' ∈ refs)
    (e1 : r.repoPath = r'.repoPath) (e2 : fold r.refName = fold r'.refName) : r = r' := by
  by_contra hne
  obtain ⟨i, hi, rfl⟩ := List.mem_iff_getElem.1 hr
  obtain ⟨j, hj, rfl⟩ := List.mem_iff_getElem.1 hr'
  have hp := List.pairwise_iff_getElem.1 h
  rcases Nat.lt_trichotomy i j with hlt | heq | hgt
  · exact hp i j hi hj hlt ⟨e1, e2⟩
  · subst heq; exact hne rfl
  · exact hp j i hj hi hgt ⟨e1.symm, e2.symm⟩

/-- What is told of the refs of a path has no name twice. -/
theorem getRefObjectId_once {E : SqlExt} {db : Db} {u : Bytes} (h : Spec.NamesOnce E.fold db.refs) (hu : ∀ r ∈ db.refs, E.fold r.repoPath = E.fold u → r.repoPath = u) :
    ((getRefObjectId E db u).map (fun p => E.fold p.2)).Nodup := by
  have hk := foldl_entry_nodup (E.order (db.refs.filter (fun r => E.fold r.repoPath == E.fold u))) [] List.nodup_nil
  have hfrom := foldl_entry_from db.refs (E.order (db.refs.filter (fun r => E.fold r.repoPath == E.fold u))) []
  have hpath := foldl_entry_from (db.refs.filter (fun r => E.fold r.repoPath == E.fold u)) (E.order (db.refs.filter (fun r => E.fold r.repoPath == E.fold u))) []
    (fun r hr => (E.order_perm _).mem_iff.1 hr) (fun _ h => nomatch h)
  change ((getRefObjectId E db u).map Prod.fst).Nodup at hk
  change ∀ p ∈ getRefObjectId E db u, _ at hpath
  unfold List.Nodup at hk ⊢
  rw [List.pairwise_map] at hk ⊢
  refine hk.imp_of_mem ?_
  intro p q hp hq hne e
  obtain ⟨r, hr, a1, a2⟩ := hpath p hp
  obtain ⟨r', hr', b1, b2⟩ := hpath q hq
  obtain ⟨c1, c2⟩ := List.mem_filter.1 hr
  obtain ⟨d1, d2⟩ := List.mem_filter.1 hr'
  have := once_eq h c1 d1 ((hu r c1 (eq_of_beq c2)).trans (hu r' d1 (eq_of_beq d2)).symm) (by rw [a2, b2]; exact e)
  exact hne (by rw [← a1, ← b1, this])

/-! ## C106 -/

/-- **C106 (partial)** After any requests to a server that is empty at first: if no client creates a branch that the repository has already, then no branch is stored
twice, and a client that asks for the refs of a repository and gets an answer is shown no name twice (names that differ in letter case only are one name to the database). The
answer is readable as in C52, and the repository's path is not stored in another spelling. -/
theorem C106_once_partial {P : ServerExt} {u g : Bytes} (hu : Spec.CleanUrl u) (hb : (0x5c : UInt8) ∉ u) (hg : g = [] ∨ g = ascii ".git") (t : ServiceType)
    (h : List (Moment × HttpReq)) (hc : Spec.CreatesNew P .empty h) (m : Moment) (hf : m.sql.fold = P.D.fold) (out : Bytes) (s' : ServerState)
    (hs : serve P m (runServer P .empty h) (Spec.refsReq (u ++ g) t) = (.reply (.ok (.bytes out)), s'))
    (hpath : ∀ r ∈ s'.db.refs, P.D.fold r.repoPath = P.D.fold u → r.repoPath = u) (ht : ∀ r ∈ s'.db.refs, r.repoPath = u → Spec.RefText r) :
    Spec.NamesOnce P.D.fold s'.db.refs ∧ ∃ head refs, Spec.Shows t out head refs ∧ (refs.map (fun p => P.D.fold p.2)).Nodup := by
  have h1 := run_once hc List.Pairwise.nil
  generalize runServer P .empty h = s at hs h1
  have hr : route .get (u ++ g ++ ascii "/info/refs") (some t.display) = .infoRefs u t := route_discover hu hg t
  have hdb : s'.db = (getHeadObjectId P.X m.sql s.db u).2 := by
    have := serve_db P m s (Spec.refsReq (u ++ g) t)
    simp only [Spec.refsReq, hr] at this
    rw [← this]
    have e := congrArg Prod.snd hs
    simp only [Spec.refsReq] at e
    rw [e]
  have h2 : Spec.NamesOnce P.D.fold s'.db.refs := by
    rw [hdb, ← hf]
    exact getHead_once hb (by rw [hf]; exact h1)
  refine ⟨h2, ?_⟩
  have hs1 : (serve P m s (Spec.refsReq (u ++ g) t)).1 = .reply (.ok (.bytes out)) := by rw [hs]
  unfold serve at hs1
  simp only [Spec.refsReq, hr, advertise] at hs1
  cases hg : getHeadObjectId P.X m.sql s.db u with
  | mk hd d =>
    rw [hg] at hs1 hdb
    simp only at hdb
    subst hdb
    cases hd with
    | ok headId =>
      simp only [Res.outcome, Outcome.reply.injEq, Res.ok.injEq] at hs1
      have hs1 : gitInfoRefs .http t headId (getRefObjectId m.sql s'.db u) = out := by
        simpa [Res.outcome] using hs1
      obtain ⟨a, b⟩ := getHead_hex hg (fun r hr e => by
        have h' := ht r ((getHead_refs hg).1 r hr) e
        exact ⟨h'.1, h'.2.1⟩)
      obtain ⟨pkts, k1, k2⟩ := C60_advertisement_http t headId (getRefObjectId m.sql s'.db u) a b (by
        intro p hp
        obtain ⟨r, hr', e1, e2⟩ := foldl_entry_from (s'.db.refs.filter (fun r => m.sql.fold r.repoPath == m.sql.fold u)) _ []
          (fun r hr => (m.sql.order_perm _).mem_iff.1 hr) (fun _ h => nomatch h) p hp
        obtain ⟨c1, c2⟩ := List.mem_filter.1 hr'
        have := ht r c1 (hpath r c1 (by rw [← hf]; exact eq_of_beq c2))
        rw [← e1, ← e2]
        exact this)
      rw [hs1] at k1
      refine ⟨headId, _, ⟨pkts, k1, k2⟩, ?_⟩
      rw [← hf] at hpath h2 ⊢
      exact getRefObjectId_once h2 hpath
    | err e => simp [Res.outcome] at hs1
    | panic => simp [Res.outcome] at hs1
    | spin => simp [Res.outcome] at hs1

/-! ## Examples and the negation -/

/-- Another id for the branch master. -/
def againCmd : Spec.PushCmd := { appCmd with new := List.replicate 40 0x62 }

theorem againCmd_ok : againCmd.Ok := ⟨by decide, by decide, by decide, by decide, by decide, by decide, by decide⟩

/-- Its row. -/
def againRow : RefRow := { repoPath := ascii "/app", refName := againCmd.name ++ [0], refGitId := againCmd.new }

theorem againRow_text : Spec.RefText againRow := ⟨by decide +kernel, by decide +kernel, by decide +kernel, by decide +kernel⟩

/-- **C106 is false**: two clients that know of no branch in `/app` each push their branch `refs/heads/master`, at different commits. Both pushes are answered with the same
report, and a client that asks then is shown the branch twice, with both ids. -/
theorem C106_create_again_false : ∃ (P : ServerExt) (m : Moment) (c c' : Spec.PushCmd) (pack pack' rep rep' out head : Bytes) (s s' : ServerState)
    (refs : List (Bytes × Bytes)), c.Ok ∧ c'.Ok ∧ c.old = zeroId ∧ c'.old = zeroId ∧ c.name = c'.name ∧ c.new ≠ c'.new ∧
    serve P m .empty (Spec.pushReq (ascii "/app") (Spec.pushBody c [] (ascii "report-status") pack)) = (.reply (.ok (.bytes rep)), s) ∧
    serve P m s (Spec.pushReq (ascii "/app") (Spec.pushBody c' [] (ascii "report-status") pack')) = (.reply (.ok (.bytes rep')), s') ∧
    (serve P m s' (Spec.refsReq (ascii "/app") .uploadPack)).1 = .reply (.ok (.bytes out)) ∧ Spec.Shows .uploadPack out head refs ∧
    refs.Perm [(c.new, c.name ++ [0]), (c'.new, c.name ++ [0])] := by
  obtain ⟨pack, rep, s, _, h2, h3⟩ := demo_app
  obtain ⟨pack', rep', s', _, g2, g3⟩ := demo_create app_url (g := []) (.inl rfl) s againCmd againCmd_ok rfl
  rw [h3] at g3
  have g3 : s'.db.refs = [masterRow, againRow] := g3
  have eat : Spec.refsAt demoServer.D.fold s'.db.refs (ascii "/app") = [masterRow, againRow] := by rw [g3]; decide +kernel
  obtain ⟨out, r, refs, k1, k2, _, _, _, k6⟩ := shown_master (P := demoServer) app_url (by decide) (g := []) (.inl rfl) .uploadPack demoMoment rfl s'
    (app_hasMaster g3) (by rw [eat]; decide +kernel) (by
      rw [eat]
      intro r hr
      simp only [List.mem_cons, List.not_mem_nil, or_false] at hr
      rcases hr with rfl | rfl
      · exact masterRow_text
      · exact againRow_text)
  rw [eat] at k6
  refine ⟨demoServer, demoMoment, appCmd, againCmd, pack, pack', rep, rep', out, r.refGitId, s, s', refs, appCmd_ok, againCmd_ok, rfl, rfl, rfl, by decide +kernel,
    by simpa using h2, by simpa using g2, ?_, k2, k6⟩
  rw [List.append_nil] at k1
  rw [k1]

/-- C106: a client creates master in `/app`, another one creates dev there; then each is shown once. -/
example : ∃ (pack pack' out head : Bytes) (s' : ServerState) (refs : List (Bytes × Bytes)),
    serve demoServer demoMoment (runServer demoServer .empty
      [(demoMoment, Spec.pushReq (ascii "/app" ++ []) (Spec.pushBody appCmd [] (ascii "report-status") pack)),
       (demoMoment, Spec.pushReq (ascii "/app" ++ []) (Spec.pushBody devCmd [] (ascii "report-status") pack'))]) (Spec.refsReq (ascii "/app" ++ []) .uploadPack) =
      (.reply (.ok (.bytes out)), s') ∧ s'.db.refs.length = 2 ∧ Spec.Shows .uploadPack out head refs ∧ (refs.map (fun p => demoFold p.2)).Nodup := by
  obtain ⟨pack, rep, s, _, h2, h3⟩ := demo_app
  obtain ⟨pack', rep', s', _, g2, g3⟩ := demo_create app_url (g := []) (.inl rfl) s devCmd devCmd_ok rfl
  rw [h3] at g3
  have g3 : s'.db.refs = [masterRow, { repoPath := ascii "/app", refName := devCmd.name ++ [0], refGitId := devCmd.new }] := g3
  have texts : ∀ r ∈ s'.db.refs, Spec.RefText r := by
    rw [g3]
    intro r hr
    simp only [List.mem_cons, List.not_mem_nil, or_false] at hr
    rcases hr with rfl | rfl
    · exact masterRow_text
    · exact ⟨by decide +kernel, by decide +kernel, by decide +kernel, by decide +kernel⟩
  have paths : ∀ r ∈ s'.db.refs, r.repoPath = ascii "/app" := by
    rw [g3]
    intro r hr
    simp only [List.mem_cons, List.not_mem_nil, or_false] at hr
    rcases hr with rfl | rfl <;> rfl
  have eat : Spec.refsAt demoServer.D.fold s'.db.refs (ascii "/app") = s'.db.refs := by
    rw [g3]; decide +kernel
  obtain ⟨out, r, refs, k1, _⟩ := shown_master (P := demoServer) app_url (by decide) (g := []) (.inl rfl) .uploadPack demoMoment rfl s'
    (app_hasMaster g3) (by rw [eat, g3]; decide +kernel) (by rw [eat]; exact texts)
  have er : route .post (ascii "/app" ++ [] ++ ascii "/git-receive-pack") none = .receivePack (ascii "/app") := route_push app_url (.inl rfl)
  have run : runServer demoServer .empty
      [(demoMoment, Spec.pushReq (ascii "/app" ++ []) (Spec.pushBody appCmd [] (ascii "report-status") pack)),
       (demoMoment, Spec.pushReq (ascii "/app" ++ []) (Spec.pushBody devCmd [] (ascii "report-status") pack'))] = s' := by
    show (serve demoServer demoMoment (serve demoServer demoMoment .empty _).2 _).2 = s'
    rw [h2, g2]
  have careful : Spec.CreatesNew demoServer .empty
      [(demoMoment, Spec.pushReq (ascii "/app" ++ []) (Spec.pushBody appCmd [] (ascii "report-status") pack)),
       (demoMoment, Spec.pushReq (ascii "/app" ++ []) (Spec.pushBody devCmd [] (ascii "report-status") pack'))] := by
    refine ⟨rfl, fun u t h => ?_, fun u h => ?_, rfl, fun u t h => ?_, fun u h => ?_, trivial⟩
    · replace h := er.symm.trans h; cases h
    · exact ⟨appCmd, ascii "report-status", pack, appCmd_ok, by decide, by decide, rfl, fun _ r hr => by cases hr⟩
    · replace h := er.symm.trans h; cases h
    · refine ⟨devCmd, ascii "report-status", pack', devCmd_ok, by decide, by decide, rfl, fun _ r hr _ => ?_⟩
      rw [h2] at hr
      have hr : r ∈ s.db.refs := hr
      rw [h3] at hr
      rw [List.mem_singleton.1 hr]
      decide +kernel
  rw [← run] at k1
  obtain ⟨_, head, refs, c1, c2⟩ := C106_once_partial (P := demoServer) app_url (by decide) (g := []) (.inl rfl) .uploadPack _ careful demoMoment rfl out _ k1
    (by rw [run]; exact fun r hr _ => paths r hr) (by rw [run]; exact fun r hr _ => texts r hr)
  exact ⟨pack, pack', out, head, _, refs, k1, by rw [run, g3]; rfl, c1, c2⟩

end Gust

import Verif.Props.NoMaster

/-! # C123: a repository and the repositories of its directories -/

namespace Gust

/-- The request or message carries no pack for the repository `u` (nor for a path that the database takes for the same). -/
def Spec.NoPackFor (fold : Bytes → Bytes) (u : Bytes) (s : Both) : Visit → Prop
  | .http r => ∀ a, route r.method r.path r.service = .receivePack a → fold a ≠ fold u
  | .ssh i (.data _ bytes) => ∀ p, s.link i = .ready (some p) → p.service = .receivePack → fold p.path = fold u → (ascii "PACK").isPrefixOf bytes = false
  | .ssh _ _ => True

/-- From the state `s` on, nobody pushes to the repository `u` itself; to directories above and below it anybody may push anything. -/
def Spec.NotPushed (P : ServerExt) (u : Bytes) : Both → BothHist → Prop
  | _, [] => True
  | s, (m, v) :: h => m.sql.fold = P.D.fold ∧ Spec.NoPackFor P.D.fold u s v ∧ Spec.NotPushed P u (bothStep P m s v) h

/-! ## Lemmas -/

/-- The rows of a path, spelt as it is. -/
def rowsAt (refs : List RefRow) (u : Bytes) : List RefRow := refs.filter (fun r => r.repoPath == u)

theorem mem_rowsAt {refs : List RefRow} {u : Bytes} {r : RefRow} : r ∈ rowsAt refs u ↔ r ∈ refs ∧ r.repoPath = u := by
  simp [rowsAt]

theorem insertRefs_rowsAt {E : SqlExt} {u : Bytes} : ∀ (bs : List (List RefRow)) (db : Db), (∀ b ∈ bs, ∀ r ∈ b, r.repoPath ≠ u) →
    rowsAt (insertRefs E bs db).refs u = rowsAt db.refs u
  | [], _, _ => rfl
  | b :: bs, db, h => by
    have e : rowsAt b u = [] := List.filter_eq_nil_iff.2 (fun r hr => by simpa using h b (by simp) r hr)
    rw [insertRefs, insertRefs_rowsAt bs _ (fun b hb => h b (by simp [hb]))]
    simp only
    split
    · unfold rowsAt at e ⊢
      rw [List.filter_append, e, List.append_nil]
    · rfl

theorem chunk_other {u a : Bytes} (hne : a ≠ u) (n i : Bytes) : ∀ b ∈ chunks 100 1 [({ repoPath := a, refName := n, refGitId := i } : RefRow)], ∀ r ∈ b, r.repoPath ≠ u := by
  intro b hb r hr
  rw [mem_chunks_one hb hr]
  exact hne

theorem getHead_rowsAt {X : Ext} {E : SqlExt} {u a : Bytes} (hne : a ≠ u) (db : Db) : rowsAt (getHeadObjectId X E db a).2.refs u = rowsAt db.refs u := by
  unfold getHeadObjectId
  split
  · rfl
  · split
    · unfold generateChild
      split
      · rfl
      · split
        · split
          · have e : ∀ c, (saveCommits E [c] a db).refs = db.refs := fun c => by unfold saveCommits; rw [insertCommits_refs]
            refine (insertRefs_rowsAt _ _ (chunk_other hne _ _)).trans ?_
            rw [e]
          · rfl
          · rfl
        · rfl
        · rfl
        · rfl
    · rfl

theorem handleRefs_rowsAt {E : SqlExt} {u a : Bytes} (hne : E.fold a ≠ E.fold u) (cmd : RefCommand) (db : Db) :
    rowsAt (handleRefs E cmd a db).2.refs u = rowsAt db.refs u := by
  unfold handleRefs
  split
  · exact insertRefs_rowsAt _ db (chunk_other (fun e => hne (by rw [e])) _ _)
  · rfl
  · unfold updateRefs
    split
    · rename_i i hi
      split
      · have hm := order_head hi
        rw [List.mem_filter] at hm
        refine modify_filter _ _ _ _ (fun x hx => ?_)
        rw [hx] at hm
        have h2 := hm.2
        simp only [Option.any_some, updateMatches, Bool.and_eq_true, beq_iff_eq] at h2
        have : ¬ x.repoPath = u := fun e => hne (by rw [← h2.2, e])
        exact ⟨by simpa using this, by simpa using this⟩
      · rfl
    · rfl

theorem hasMaster_rowsAt {fold : Bytes → Bytes} {db db' : Db} {u : Bytes} (e : rowsAt db'.refs u = rowsAt db.refs u) (h : Spec.HasMaster fold db u) :
    Spec.HasMaster fold db' u := by
  obtain ⟨r, h1, h2, h3⟩ := h
  have hm : r ∈ rowsAt db'.refs u := by rw [e]; exact mem_rowsAt.2 ⟨h1, h2⟩
  exact ⟨r, (mem_rowsAt.1 hm).1, h2, h3⟩

theorem effect_rowsAt {X : Ext} {E : SqlExt} {fuel : Nat} {a : Bytes} {S : Bytes → Prop} {db db' : Db} {u : Bytes} (hb : (0x5c : UInt8) ∉ u) (he : DbEffect X E fuel a S db db')
    (hS : ∀ file, S file → E.fold a ≠ E.fold u) (h : Spec.HasMaster E.fold db u) : rowsAt db'.refs u = rowsAt db.refs u := by
  cases he with
  | same => rfl
  | head =>
    by_cases e : a = u
    · subst e
      obtain ⟨_, _, _, _, e⟩ := getHead_master (X := X) hb h
      rw [e]
    · exact getHead_rowsAt e db
  | push file p _ _ => rw [savePackfile_refs]
  | pushRef file p cmd hs _ => rw [handleRefs_rowsAt (hS file hs), savePackfile_refs]

theorem visit_rowsAt {P : ServerExt} {u : Bytes} (hb : (0x5c : UInt8) ∉ u) {m : Moment} {s : Both} {v : Visit} (hm : m.sql.fold = P.D.fold) (hv : Spec.NoPackFor P.D.fold u s v)
    (h : Spec.HasMaster P.D.fold s.web.db u) : rowsAt (bothStep P m s v).web.db.refs u = rowsAt s.web.db.refs u := by
  rw [← hm] at h hv
  by_cases hq : ∃ i ch bytes p, v = .ssh i (.data ch bytes) ∧ s.link i = .ready (some p) ∧ p.service = .receivePack ∧ m.sql.fold p.path = m.sql.fold u
  · obtain ⟨i, ch, bytes, p, rfl, h1, h2, h3⟩ := hq
    have h4 := hv p h1 h2 h3
    have e : (bothStep P m s (.ssh i (.data ch bytes))).web.db = s.web.db := by
      show (sshLinkStep P.X m s.web.db (s.link i) (.data ch bytes)).2.2 = s.web.db
      rw [h1]
      simp only [sshLinkStep, sshData, h2, gitReceiveDb, h4]
      rfl
    rw [e]
  · rcases both_effect P m s v with e | ⟨a, _, he⟩
    · rw [e]
    · refine effect_rowsAt hb he ?_ h
      intro file hs ha
      cases v with
      | http r => exact hv a hs.1 ha
      | ssh i e =>
        cases e with
        | data ch bytes =>
          obtain ⟨_, p, h1, h2, h3⟩ := hs
          exact hq ⟨i, ch, bytes, p, rfl, h1, h3, by rw [h2]; exact ha⟩
        | auth => exact hs
        | exec => exact hs

theorem run_rowsAt {P : ServerExt} {u : Bytes} (hb : (0x5c : UInt8) ∉ u) : ∀ {h : BothHist} {s : Both}, Spec.NotPushed P u s h → Spec.HasMaster P.D.fold s.web.db u →
    rowsAt (runBoth P s h).web.db.refs u = rowsAt s.web.db.refs u
  | [], _, _, _ => rfl
  | (m, v) :: h, s, ⟨h1, h2, h3⟩, hm => by
    have e := visit_rowsAt hb h1 h2 hm
    exact (run_rowsAt hb h3 (hasMaster_rowsAt e hm)).trans e

/-- What is read of a repository with a branch master. -/
theorem client_master {P : ServerExt} {u g : Bytes} (hu : Spec.CleanUrl u) (hb : (0x5c : UInt8) ∉ u) (hg : g = [] ∨ g = ascii ".git") (t : ServiceType) (m : Moment)
    (hf : m.sql.fold = P.D.fold) (s : ServerState) (hm : Spec.HasMaster P.D.fold s.db u) (ht : ∀ r ∈ Spec.refsAt P.D.fold s.db.refs u, Spec.RefText r)
    (hz : ∀ r ∈ s.db.refs, r.repoPath = u → r.refGitId ≠ zeroId) :
    ∃ out r refs, serve P m s (Spec.refsReq (u ++ g) t) = (.reply (.ok (.bytes out)), s) ∧ Spec.clientHttp t out = some ((r.refGitId, ascii "HEAD") :: refs) ∧
      r ∈ s.db.refs ∧ r.repoPath = u ∧ Spec.isMaster P.D.fold r := by
  rw [← hf] at hm ht ⊢
  obtain ⟨r, h1, h2, h3, h4⟩ := getHead_master (X := P.X) hb hm
  have hr : route .get (u ++ g ++ ascii "/info/refs") (some t.display) = .infoRefs u t := route_discover hu hg t
  have ha : advertise P.X m.sql .http t s.db u = (.ok (gitInfoRefs .http t r.refGitId (getRefObjectId m.sql s.db u)), s.db) := by
    simp only [advertise, h4]
  refine ⟨gitInfoRefs .http t r.refGitId (getRefObjectId m.sql s.db u), r, getRefObjectId m.sql s.db u, ?_, ?_, h1, h2, h3⟩
  · unfold serve
    simp only [Spec.refsReq, hr, ha]
    rfl
  · rw [client_http h4 ht, if_neg (hz r h1 h2)]

/-! ## C123 -/

/-- **C123 is false** upwards, whatever the database does: a repository has one branch master. Whatever is pushed afterwards to directories of it (or anywhere but to the repository itself),
over HTTP or SSH, a client that asks for its refs is told the same HEAD. -/
theorem C123_up_false (P : ServerExt) (u g : Bytes) (hu : Spec.CleanUrl u) (hb : (0x5c : UInt8) ∉ u) (hg : g = [] ∨ g = ascii ".git") (s : Both) (r : RefRow)
    (hr : r ∈ s.web.db.refs) (hru : r.repoPath = u) (hrm : Spec.isMaster P.D.fold r) (hone : ∀ r' ∈ s.web.db.refs, r'.repoPath = u → Spec.isMaster P.D.fold r' → r' = r)
    (h : BothHist) (hh : Spec.NotPushed P u s h) (m : Moment) (hm : m.sql.fold = P.D.fold) (t : ServiceType)
    (hz : ∀ r' ∈ s.web.db.refs, r'.repoPath = u → r'.refGitId ≠ zeroId) (ht : ∀ r' ∈ Spec.refsAt P.D.fold (runBoth P s h).web.db.refs u, Spec.RefText r') :
    ∃ out refs, serve P m (runBoth P s h).web (Spec.refsReq (u ++ g) t) = (.reply (.ok (.bytes out)), (runBoth P s h).web) ∧
      Spec.clientHttp t out = some ((r.refGitId, ascii "HEAD") :: refs) := by
  have hM : Spec.HasMaster P.D.fold s.web.db u := ⟨r, hr, hru, hrm⟩
  have e := run_rowsAt hb hh hM
  have back : ∀ x ∈ (runBoth P s h).web.db.refs, x.repoPath = u → x ∈ s.web.db.refs := by
    intro x hx hxu
    have : x ∈ rowsAt s.web.db.refs u := by rw [← e]; exact mem_rowsAt.2 ⟨hx, hxu⟩
    exact (mem_rowsAt.1 this).1
  obtain ⟨out, r', refs, k1, k2, k3, k4, k5⟩ := client_master hu hb hg t m hm _ (hasMaster_rowsAt e hM) ht (fun x hx hxu => hz x (back x hx hxu) hxu)
  rw [hone r' (back r' k3 k4) k4 k5] at k2
  exact ⟨out, refs, k1, k2⟩

/-- **C123 is false** downwards, whatever the database does (if it takes the insert of the ref): somebody asks for the refs of a directory that nobody has asked for before, and is told a HEAD.
Whatever is pushed afterwards to the repository the directory belongs to (or anywhere but to the directory's own path), over HTTP or SSH, a client that asks for the refs of the
directory is told the same HEAD: it never gets what was changed in the directory. -/
theorem C123_down_false (P : ServerExt) (u g g' : Bytes) (hu : Spec.CleanUrl u) (hb : (0x5c : UInt8) ∉ u) (hg : g = [] ∨ g = ascii ".git") (hg' : g' = [] ∨ g' = ascii ".git")
    (s : Both) (hno : ∀ r ∈ s.web.db.refs, r.repoPath ≠ u) (m0 : Moment) (hm0 : m0.sql.fold = P.D.fold) (hacc : ∀ n rows, m0.sql.acceptRefs n rows = true) (t0 : ServiceType)
    (out0 head : Bytes) (refs0 : List (Bytes × Bytes)) (h0 : (serve P m0 s.web (Spec.refsReq (u ++ g) t0)).1 = .reply (.ok (.bytes out0)))
    (hc0 : Spec.clientHttp t0 out0 = some ((head, ascii "HEAD") :: refs0))
    (h : BothHist) (hh : Spec.NotPushed P u (bothStep P m0 s (.http (Spec.refsReq (u ++ g) t0))) h) (m : Moment) (hm : m.sql.fold = P.D.fold) (t : ServiceType)
    (ht0 : ∀ r ∈ Spec.refsAt P.D.fold (serve P m0 s.web (Spec.refsReq (u ++ g) t0)).2.db.refs u, Spec.RefText r)
    (ht : ∀ r ∈ Spec.refsAt P.D.fold (runBoth P (bothStep P m0 s (.http (Spec.refsReq (u ++ g) t0))) h).web.db.refs u, Spec.RefText r) :
    ∃ out refs, serve P m (runBoth P (bothStep P m0 s (.http (Spec.refsReq (u ++ g) t0))) h).web (Spec.refsReq (u ++ g') t) =
        (.reply (.ok (.bytes out)), (runBoth P (bothStep P m0 s (.http (Spec.refsReq (u ++ g) t0))) h).web) ∧
      Spec.clientHttp t out = some ((head, ascii "HEAD") :: refs) := by
  have hroute : route .get (u ++ g ++ ascii "/info/refs") (some t0.display) = .infoRefs u t0 := route_discover hu hg t0
  have e2 : (serve P m0 s.web (Spec.refsReq (u ++ g) t0)).2.db = (getHeadObjectId P.X m0.sql s.web.db u).2 := by
    simp only [serve_db, Spec.refsReq, hroute]
  have e1 := h0
  simp only [serve, Spec.refsReq, hroute] at e1
  obtain ⟨reply, e3, e4⟩ := Res.outcome_ok e1
  cases e4
  -- the first answer
  obtain ⟨id, db1, hgh⟩ : ∃ id db1, getHeadObjectId P.X m0.sql s.web.db u = (.ok id, db1) := by
    unfold advertise at e3
    rcases hx : getHeadObjectId P.X m0.sql s.web.db u with ⟨x, d⟩
    rw [hx] at e3
    cases x with
    | ok id => exact ⟨id, d, rfl⟩
    | err _ => cases e3
    | panic => cases e3
    | spin => cases e3
  rw [hgh] at e2
  simp only at e2
  have hout : out0 = gitInfoRefs .http t0 id (getRefObjectId m0.sql db1 u) := by
    unfold advertise at e3
    rw [hgh] at e3
    simpa using e3.symm
  rw [e2, ← hm0] at ht0
  rw [hout, client_http hgh ht0] at hc0
  have hid : id ≠ zeroId ∧ id = head := by
    split at hc0
    · split at hc0 <;> cases hc0
    · rename_i hz
      simp only [Option.some.injEq, List.cons.injEq, Prod.mk.injEq, and_true] at hc0
      exact ⟨hz, hc0.1⟩
  obtain ⟨hz, rfl⟩ := hid
  -- the row made for the directory
  obtain ⟨r, hrows, hrm⟩ : ∃ r : RefRow, db1.refs = s.web.db.refs ++ [r] ∧ r.repoPath = u ∧ r.refGitId = id ∧ Spec.isMaster P.D.fold r := by
    rcases getHead_ok hgh with ⟨r, hmr, hp, _, _⟩ | ⟨_, ⟨r, hmr, _, hgen⟩ | ⟨_, e, _⟩⟩
    · exact absurd hp (hno r (mem_searchRefs.1 hmr).1)
    · rcases generateChild_ok hgen with ⟨⟨gen⟩⟩ | ⟨_, e, _⟩
      · refine ⟨{ repoPath := u, refName := r.refName, refGitId := id }, ?_, rfl, rfl, ?_⟩
        · rw [gen.db_eq]; simp [hacc]
        · unfold Spec.isMaster
          rw [← hm0]
          exact (mem_searchRefs.1 hmr).2.2
      · exact absurd e hz
    · exact absurd e hz
  have hdb : (bothStep P m0 s (.http (Spec.refsReq (u ++ g) t0))).web.db = db1 := e2
  refine (fun ⟨out, refs, k1, k2⟩ => ⟨out, refs, k1, by rw [← hrm.2.1]; exact k2⟩) (C123_up_false P u g' hu hb hg' _ r (by rw [hdb, hrows]; simp) hrm.1 hrm.2.2 ?_ h hh m hm t ?_ ht)
  · intro r' hr' hru' _
    rw [hdb, hrows] at hr'
    rcases List.mem_append.1 hr' with h | h
    · exact absurd hru' (hno r' h)
    · exact List.mem_singleton.1 h
  · intro r' hr' hru'
    rw [hdb, hrows] at hr'
    rcases List.mem_append.1 hr' with h | h
    · exact absurd hru' (hno r' h)
    · rw [List.mem_singleton.1 h, hrm.2.1]
      exact hz

end Gust

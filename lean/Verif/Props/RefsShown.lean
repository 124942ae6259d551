import Verif.Props.RefsKept

/-! # C96, C97: what clients are shown of the refs of a repository, over HTTP -/

namespace Gust

/-- A client asks for the refs of URL `u`, before a fetch or before a push. -/
def Spec.refsReq (u : Bytes) (t : ServiceType) : HttpReq := { method := .get, path := u ++ ascii "/info/refs", service := some t.display }

/-- A ref a client can be told of: id of 40 digits, name in one line. -/
def Spec.RefText (r : RefRow) : Prop :=
  r.refGitId.length = 40 ∧ (∀ x ∈ r.refGitId, Spec.IsHexDigit x) ∧ r.refName.length ≤ 65000 ∧ (0x0a : UInt8) ∉ r.refName

/-- What a client reads from the reply to `refsReq`: the announcement, a flush packet, HEAD, the refs, a flush packet. -/
def Spec.Shows (t : ServiceType) (out : Bytes) (headId : Bytes) (refs : List (Bytes × Bytes)) : Prop :=
  ∃ pkts, Spec.readPkts out = some (.line (ascii "# service=" ++ t.display ++ ascii "\n") :: .flush :: pkts) ∧ advertised t headId refs pkts

/-! ## Lemmas -/

theorem refsAt_append (fold : Bytes → Bytes) (l l' : List RefRow) (u : Bytes) :
    Spec.refsAt fold (l ++ l') u = Spec.refsAt fold l u ++ Spec.refsAt fold l' u := List.filter_append ..

theorem insertRefs_refsAt {E : SqlExt} {u : Bytes} : ∀ (bs : List (List RefRow)) (db : Db), (∀ b ∈ bs, ∀ r ∈ b, E.fold r.repoPath ≠ E.fold u) →
    Spec.refsAt E.fold (insertRefs E bs db).refs u = Spec.refsAt E.fold db.refs u
  | [], _, _ => rfl
  | b :: bs, db, h => by
    have e : Spec.refsAt E.fold b u = [] := List.filter_eq_nil_iff.2 (fun r hr => by simpa using h b (by simp) r hr)
    rw [insertRefs, insertRefs_refsAt bs _ (fun b hb => h b (by simp [hb]))]
    simp only
    split
    · rw [refsAt_append, e, List.append_nil]
    · rfl

theorem modify_filter {α : Type} (p : α → Bool) (f : α → α) : ∀ (l : List α) (i : Nat), (∀ a, l[i]? = some a → p a = false ∧ p (f a) = false) →
    (l.modify i f).filter p = l.filter p
  | [], i, _ => by simp
  | a :: l, 0, h => by
    obtain ⟨h1, h2⟩ := h a rfl
    simp [List.filter_cons, h1, h2]
  | a :: l, i + 1, h => by
    have ih := modify_filter p f l i (fun b hb => h b (by simpa using hb))
    simp only [List.modify_succ_cons, List.filter_cons, ih]

theorem handleRefs_refsAt {E : SqlExt} {u path : Bytes} (hne : E.fold path ≠ E.fold u) (cmd : RefCommand) (db : Db) :
    Spec.refsAt E.fold (handleRefs E cmd path db).2.refs u = Spec.refsAt E.fold db.refs u := by
  unfold handleRefs
  split
  · exact insertRefs_refsAt _ db (by
      intro b hb r hr
      rw [chunks_one] at hb
      rw [List.mem_singleton.1 hb] at hr
      rw [List.mem_singleton.1 hr]
      exact hne)
  · rfl
  · unfold updateRefs
    split
    · rename_i i hi
      split
      · have hm := order_head hi
        rw [List.mem_filter] at hm
        refine modify_filter _ _ _ _ (fun a ha => ?_)
        rw [ha] at hm
        have h2 := hm.2
        simp only [Option.any_some, updateMatches, Bool.and_eq_true, beq_iff_eq] at h2
        have : ¬ E.fold a.repoPath = E.fold u := by rw [h2.2]; exact hne
        exact ⟨by simpa using this, by simpa using this⟩
      · rfl
    · rfl

/-- A row of a ref stays unless its own repository is pushed to. -/
theorem refsAt_mem {fold : Bytes → Bytes} {l : List RefRow} {u : Bytes} {r : RefRow} : r ∈ Spec.refsAt fold l u ↔ r ∈ l ∧ fold r.repoPath = fold u := by
  simp [Spec.refsAt, List.mem_filter]

/-- A discovery for another path. -/
theorem getHead_refsAt {X : Ext} {E : SqlExt} {u path : Bytes} (hne : E.fold path ≠ E.fold u) (db : Db) :
    Spec.refsAt E.fold (getHeadObjectId X E db path).2.refs u = Spec.refsAt E.fold db.refs u := by
  unfold getHeadObjectId
  split
  · rfl
  · split
    · unfold generateChild
      split
      · rfl
      · split
        · split
          · rename_i child _
            simp only
            rw [insertRefs_refsAt]
            · rw [saveCommits, insertCommits_refs]
            · intro b hb r hr
              rw [chunks_one] at hb
              rw [List.mem_singleton.1 hb] at hr
              rw [List.mem_singleton.1 hr]
              exact hne
          · rfl
          · rfl
        · rfl
        · rfl
        · rfl
    · rfl

/-- The repository `u` has a branch master. -/
def Spec.HasMaster (fold : Bytes → Bytes) (db : Db) (u : Bytes) : Prop := ∃ r ∈ db.refs, r.repoPath = u ∧ Spec.isMaster fold r

/-- HEAD of a repository with a branch master is the id of such a branch, and asking changes nothing. -/
theorem getHead_master {X : Ext} {E : SqlExt} {u : Bytes} (hb : (0x5c : UInt8) ∉ u) {db : Db} (h : Spec.HasMaster E.fold db u) :
    ∃ r ∈ db.refs, r.repoPath = u ∧ Spec.isMaster E.fold r ∧ getHeadObjectId X E db u = (.ok r.refGitId, db) := by
  obtain ⟨r, h1, h2, h3⟩ := h
  have hl : E.like u u = true := by simpa using E.like_prefix u [] hb
  have hm : r ∈ searchRefs E db u := mem_searchRefs.2 ⟨h1, by rw [h2]; exact hl, h3⟩
  unfold getHeadObjectId
  cases hf : (searchRefs E db u).find? (fun r => u == r.repoPath) with
  | some r' =>
    have hm' := mem_searchRefs.1 (List.mem_of_find?_eq_some hf)
    have he := List.find?_some hf
    simp only [beq_iff_eq] at he
    exact ⟨r', hm'.1, he.symm, hm'.2.2, rfl⟩
  | none => exact absurd (List.find?_eq_none.1 hf r hm) (by simp [h2])

theorem httpReceiveDb_refsAt {X : Ext} {E : SqlExt} {u path : Bytes} (hne : E.fold path ≠ E.fold u) (fuel : Nat) (body : Bytes) (db : Db) :
    Spec.refsAt E.fold (httpReceiveDb (mysqlPush X E fuel) { caps := [], commands := [], path := path, db := db } body).refs u =
      Spec.refsAt E.fold db.refs u := by
  rcases httpReceiveDb_cases X E fuel path body db with e | ⟨file, p, _, e | ⟨cmd, e⟩⟩
  · rw [e]
  · rw [e, savePackfile_refs]
  · rw [e, handleRefs_refsAt hne, savePackfile_refs]

/-- Requests that do not push to the repository `u` (nor write its path in another way that the database takes for the same). -/
def Spec.Elsewhere (fold : Bytes → Bytes) (u : Bytes) (h : List (Moment × HttpReq)) : Prop :=
  ∀ p ∈ h, p.1.sql.fold = fold ∧ (∀ a, route p.2.method p.2.path p.2.service = .receivePack a → fold a ≠ fold u) ∧
    ∀ a t, route p.2.method p.2.path p.2.service = .infoRefs a t → fold a = fold u → a = u

theorem hasMaster_refsAt {fold : Bytes → Bytes} {db db' : Db} {u : Bytes} (e : Spec.refsAt fold db'.refs u = Spec.refsAt fold db.refs u)
    (h : Spec.HasMaster fold db u) : Spec.HasMaster fold db' u := by
  obtain ⟨r, h1, h2, h3⟩ := h
  have hm : r ∈ Spec.refsAt fold db'.refs u := by rw [e]; exact refsAt_mem.2 ⟨h1, by rw [h2]⟩
  exact ⟨r, (refsAt_mem.1 hm).1, h2, h3⟩

theorem run_refsAt {P : ServerExt} {u : Bytes} (hb : (0x5c : UInt8) ∉ u) : ∀ {h : List (Moment × HttpReq)} {s : ServerState},
    Spec.Elsewhere P.D.fold u h → Spec.HasMaster P.D.fold s.db u →
    Spec.refsAt P.D.fold (runServer P s h).db.refs u = Spec.refsAt P.D.fold s.db.refs u
  | [], _, _, _ => rfl
  | (m, r) :: h, s, he, hm => by
    obtain ⟨hf, h1, h2⟩ := he (m, r) (by simp)
    simp only at hf h1 h2
    have one : Spec.refsAt P.D.fold (serve P m s r).2.db.refs u = Spec.refsAt P.D.fold s.db.refs u := by
      rw [serve_db]
      split
      · rename_i a t ha
        by_cases e : P.D.fold a = P.D.fold u
        · obtain rfl := h2 a t ha e
          obtain ⟨_, _, _, _, e⟩ := getHead_master (X := P.X) (E := m.sql) hb (by rw [hf]; exact hm)
          rw [e]
        · rw [← hf]
          exact getHead_refsAt (by rw [hf]; exact e) _
      · rename_i a ha
        rw [← hf]
        exact httpReceiveDb_refsAt (by rw [hf]; exact h1 a ha) _ _ _
      · rfl
    have ih := run_refsAt hb (h := h) (s := (serve P m s r).2) (fun p hp => he p (by simp [hp])) (hasMaster_refsAt one hm)
    exact ih.trans one

/-- What a client is shown of a repository with a branch master. -/
theorem shown_master {P : ServerExt} {u g : Bytes} (hu : Spec.CleanUrl u) (hb : (0x5c : UInt8) ∉ u) (hg : g = [] ∨ g = ascii ".git") (t : ServiceType)
    (m : Moment) (hf : m.sql.fold = P.D.fold) (s : ServerState) (hm : Spec.HasMaster P.D.fold s.db u)
    (hid : ((Spec.refsAt P.D.fold s.db.refs u).map RefRow.refGitId).Nodup) (ht : ∀ r ∈ Spec.refsAt P.D.fold s.db.refs u, Spec.RefText r) :
    ∃ out r refs, serve P m s (Spec.refsReq (u ++ g) t) = (.reply (.ok (.bytes out)), s) ∧ Spec.Shows t out r.refGitId refs ∧
      r ∈ s.db.refs ∧ r.repoPath = u ∧ Spec.isMaster P.D.fold r ∧
      refs.Perm ((Spec.refsAt P.D.fold s.db.refs u).map (fun r => (r.refGitId, r.refName))) := by
  rw [← hf] at hm hid ht ⊢
  obtain ⟨r, h1, h2, h3, h4⟩ := getHead_master (X := P.X) hb hm
  have hr : route .get (u ++ g ++ ascii "/info/refs") (some t.display) = .infoRefs u t := route_discover hu hg t
  have ha : advertise P.X m.sql .http t s.db u = (.ok (gitInfoRefs .http t r.refGitId (getRefObjectId m.sql s.db u)), s.db) := by
    simp only [advertise, h4]
  obtain ⟨headId, refs, pkts, k1, k2, k3, k4⟩ := C52_advertised_partial P.X m.sql s.db s.db t u _ ha hid ht
  rw [h4] at k1
  simp only [Prod.mk.injEq, Res.ok.injEq, and_true] at k1
  subst k1
  refine ⟨_, r, refs, ?_, ⟨pkts, k2, k3⟩, h1, h2, h3, k4⟩
  unfold serve
  simp only [Spec.refsReq, hr, ha]
  rfl

/-! ## C97: other repositories -/

/-- **C97** Whatever requests are made to other repositories, and whatever is asked of this one, a client asking for the refs of a repository is told
the same refs with the same ids before and after, in whatever order; HEAD too, if there is one master. The repository has a branch
master and its refs have different ids (C52). -/
theorem C97_unaffected_partial {P : ServerExt} {u g g' : Bytes} (hu : Spec.CleanUrl u) (hb : (0x5c : UInt8) ∉ u) (hg : g = [] ∨ g = ascii ".git")
    (hg' : g' = [] ∨ g' = ascii ".git") (t t' : ServiceType) (s : ServerState) (hm : Spec.HasMaster P.D.fold s.db u)
    (hid : ((Spec.refsAt P.D.fold s.db.refs u).map RefRow.refGitId).Nodup) (ht : ∀ r ∈ Spec.refsAt P.D.fold s.db.refs u, Spec.RefText r)
    (h : List (Moment × HttpReq)) (he : Spec.Elsewhere P.D.fold u h) (m m' : Moment) (hf : m.sql.fold = P.D.fold) (hf' : m'.sql.fold = P.D.fold) :
    ∃ out out' head head' refs refs', (serve P m s (Spec.refsReq (u ++ g) t)).1 = .reply (.ok (.bytes out)) ∧ Spec.Shows t out head refs ∧
      (serve P m' (runServer P s h) (Spec.refsReq (u ++ g') t')).1 = .reply (.ok (.bytes out')) ∧ Spec.Shows t' out' head' refs' ∧
      refs.Perm refs' ∧
      ((∀ r ∈ s.db.refs, ∀ r' ∈ s.db.refs, r.repoPath = u → r'.repoPath = u → Spec.isMaster P.D.fold r → Spec.isMaster P.D.fold r' → r = r') →
        head = head') := by
  have e := run_refsAt hb he hm
  obtain ⟨out, r, refs, a1, a2, a3, a4, a5, a6⟩ := shown_master hu hb hg t m hf s hm hid ht
  obtain ⟨out', r', refs', b1, b2, b3, b4, b5, b6⟩ := shown_master hu hb hg' t' m' hf' (runServer P s h) (hasMaster_refsAt e hm)
    (by rw [e]; exact hid) (by rw [e]; exact ht)
  rw [e] at b6
  refine ⟨out, out', _, _, refs, refs', by rw [a1], a2, by rw [b1], b2, a6.trans b6.symm, fun hone => ?_⟩
  have hm' : r' ∈ Spec.refsAt P.D.fold s.db.refs u := by rw [← e]; exact refsAt_mem.2 ⟨b3, by rw [b4]⟩
  rw [hone r a3 r' (refsAt_mem.1 hm').1 a4 b4 a5 b5]

/-! ## C96: a pushed branch is shown -/

/-- A row stays while nobody pushes to its repository. -/
theorem run_row {P : ServerExt} {u : Bytes} {r : RefRow} (hr : r.repoPath = u) : ∀ {h : List (Moment × HttpReq)} {s : ServerState},
    (∀ p ∈ h, p.1.sql.fold = P.D.fold ∧ ∀ a, route p.2.method p.2.path p.2.service = .receivePack a → P.D.fold a ≠ P.D.fold u) → r ∈ s.db.refs →
    r ∈ (runServer P s h).db.refs
  | [], _, _, h => h
  | (m, q) :: h, s, he, hm => by
    obtain ⟨hf, h1⟩ := he (m, q) (by simp)
    simp only at hf h1
    refine run_row hr (h := h) (s := (serve P m s q).2) (fun p hp => he p (by simp [hp])) ?_
    rw [serve_db]
    split
    · exact (getHead_refsOf _ _ _ _).1 r hm
    · rename_i a ha
      have e := httpReceiveDb_refsAt (X := P.X) (E := m.sql) (u := u) (by rw [hf]; exact h1 a ha) m.fuel q.body s.db
      have : r ∈ Spec.refsAt m.sql.fold s.db.refs u := refsAt_mem.2 ⟨hm, by rw [hr]⟩
      rw [← e] at this
      exact (refsAt_mem.1 this).1
    · exact hm

/-- **C96** After a push over HTTP that created a branch, or moved one, and was answered, and after any requests that do not push to the same repository, a
client that asks for the refs of the repository is shown the pushed id under the pushed name (with a NUL byte appended, `C96_name_false`), and as HEAD if the
branch is the only one the database takes for master. The database accepts
the insert of the ref; the refs of the repository have different ids (C52); a moved branch is the only one at its old id (C53). -/
theorem C96_shown_partial {P : ServerExt} {u g g' : Bytes} (hu : Spec.CleanUrl u) (hg : g = [] ∨ g = ascii ".git") (hg' : g' = [] ∨ g' = ascii ".git")
    (s : ServerState) (m1 m2 : Moment) (hf1 : m1.sql.fold = P.D.fold) (hf2 : m2.sql.fold = P.D.fold)
    (c : Spec.PushCmd) (hc : c.Ok) (hnew : c.new ≠ zeroId) (caps : Bytes) (hcaps : caps.length ≤ 4000) (hascii : ∀ x ∈ caps, x.toNat < 128) (pack : Bytes)
    (hpack : (ascii "PACK").isPrefixOf pack = true) (hacc : ∀ n rows, m1.sql.acceptRefs n rows = true)
    (hkind : c.old = zeroId ∨ ({ repoPath := u, refName := c.name ++ [0], refGitId := c.old } ∈ s.db.refs ∧
      ∀ r ∈ s.db.refs, P.D.fold r.repoPath = P.D.fold u → P.D.fold r.refGitId = P.D.fold c.old →
        r = { repoPath := u, refName := c.name ++ [0], refGitId := c.old }))
    (rep : Bytes) (hpush : (serve P m1 s (Spec.pushReq (u ++ g) (Spec.pushBody c [] caps pack))).1 = .reply (.ok (.bytes rep)))
    (h : List (Moment × HttpReq))
    (hno : ∀ p ∈ h, p.1.sql.fold = P.D.fold ∧ ∀ a, route p.2.method p.2.path p.2.service = .receivePack a → P.D.fold a ≠ P.D.fold u)
    (t : ServiceType) (out : Bytes) (s' : ServerState)
    (hdisc : serve P m2 (runServer P (serve P m1 s (Spec.pushReq (u ++ g) (Spec.pushBody c [] caps pack))).2 h) (Spec.refsReq (u ++ g') t) =
      (.reply (.ok (.bytes out)), s'))
    (hid : ((Spec.refsAt P.D.fold s'.db.refs u).map RefRow.refGitId).Nodup) (ht : ∀ r ∈ Spec.refsAt P.D.fold s'.db.refs u, Spec.RefText r) :
    ∃ head refs, Spec.Shows t out head refs ∧ (c.new, c.name ++ [0]) ∈ refs ∧
      refs.Perm ((Spec.refsAt P.D.fold s'.db.refs u).map (fun r => (r.refGitId, r.refName))) ∧
      ((0x5c : UInt8) ∉ u → P.D.fold (c.name ++ [0]) = P.D.fold (ascii "refs/heads/master") →
        (∀ r ∈ s'.db.refs, r.repoPath = u → Spec.isMaster P.D.fold r → r.refGitId = c.new) → head = c.new) := by
  have hroute : route .post (u ++ g ++ ascii "/git-receive-pack") none = .receivePack u := route_push hu hg
  obtain ⟨s1, hs1⟩ : ∃ s1, s1 = (serve P m1 s (Spec.pushReq (u ++ g) (Spec.pushBody c [] caps pack))).2 := ⟨_, rfl⟩
  -- the push
  have hrow : ({ repoPath := u, refName := c.name ++ [0], refGitId := c.new } : RefRow) ∈ s1.db.refs := by
    cases hp : httpReceivePack (mysqlPush P.X m1.sql m1.fuel) { caps := [], commands := [], path := u, db := s.db } (Spec.pushBody c [] caps pack) with
    | ok r =>
      obtain ⟨o, st'⟩ := r
      have hdb : s1.db = st'.db := by
        rw [hs1, serve_db]
        simp only [Spec.pushReq, hroute]
        exact httpReceiveDb_ok _ _ _ _ _ hp
      rw [push_answer _ u s.db c hc caps hcaps hascii pack hpack] at hp
      obtain ⟨p, db1, k1, k2, k3, _⟩ := receiveData_ok rfl (Res.unwrap_eq_ok.1 hp)
      simp only at k1 k2 k3
      have hrefs : db1.refs = s.db.refs := by
        have := savePackfile_refs m1.sql m1.fuel p u s.db
        rw [show savePackfile m1.sql m1.fuel p u s.db = (.ok (), db1) from k2] at this
        exact this
      have k3' : handleRefs m1.sql { RefCommand.new c.old c.new (c.name ++ [0]) with ok := true } u db1 = (.ok (), st'.db) := k3
      rw [hdb]
      rcases hkind with e | ⟨hold, hone⟩
      · have hk : (RefCommand.new c.old c.new (c.name ++ [0])).commandType = .create := by
          simp only [RefCommand.new, e, if_true]
        simp only [handleRefs, hk, Prod.mk.injEq, true_and] at k3'
        rw [← k3', saveRefs, chunks_one]
        simp only [insertRefs, hacc, if_true]
        simp [RefCommand.new]
      · by_cases e : c.old = zeroId
        · have hk : (RefCommand.new c.old c.new (c.name ++ [0])).commandType = .create := by
            simp only [RefCommand.new, e, if_true]
          simp only [handleRefs, hk, Prod.mk.injEq, true_and] at k3'
          rw [← k3', saveRefs, chunks_one]
          simp only [insertRefs, hacc, if_true]
          simp [RefCommand.new]
        · have hk : (RefCommand.new c.old c.new (c.name ++ [0])).commandType = .update := by
            simp only [RefCommand.new]
            rw [if_neg (fun h => e h.symm), if_neg (fun h => hnew h.symm)]
          rcases C53_update_scope_partial m1.sql { RefCommand.new c.old c.new (c.name ++ [0]) with ok := true } u db1 hk with
            ⟨pre, r, post, q1, q2, q3, q4⟩ | ⟨_, q⟩
          · rw [k3'] at q4
            have q5 := (Prod.mk.inj q4).2
            rw [q5]
            have hr : r ∈ s.db.refs := by rw [← hrefs, q1]; simp
            rw [hf1] at q2 q3
            have e := hone r hr q2 (by simpa [RefCommand.new] using q3)
            rw [e]
            simp [RefCommand.new]
          · rw [k3'] at q
            exact absurd (Prod.mk.inj q).1 (by simp)
    | err e =>
      unfold serve at hpush
      simp only [Spec.pushReq, hroute, hp, Res.outcome] at hpush
      cases hpush
    | panic =>
      unfold serve at hpush
      simp only [Spec.pushReq, hroute, hp, Res.outcome] at hpush
      cases hpush
    | spin =>
      unfold serve at hpush
      simp only [Spec.pushReq, hroute, hp, Res.outcome] at hpush
      cases hpush
  rw [← hs1] at hdisc
  have hrow2 := run_row (P := P) (u := u) rfl hno hrow
  -- the discovery
  obtain ⟨s2, hs2⟩ : ∃ s2, s2 = runServer P s1 h := ⟨_, rfl⟩
  rw [← hs2] at hdisc hrow2
  have hr2 : route .get (u ++ g' ++ ascii "/info/refs") (some t.display) = .infoRefs u t := route_discover hu hg' t
  unfold serve at hdisc
  simp only [Spec.refsReq, hr2] at hdisc
  cases ha : advertise P.X m2.sql .http t s2.db u with
  | mk r db' =>
    rw [ha] at hdisc
    cases r with
    | ok reply =>
      simp only [Res.outcome, Prod.mk.injEq, Outcome.reply.injEq, Reply.ok.injEq, Payload.bytes.injEq] at hdisc
      obtain ⟨rfl, rfl⟩ := hdisc
      simp only at hid ht ⊢
      rw [← hf2] at hid ht ⊢
      obtain ⟨headId, refs, pkts, k1, k2, k3, k4⟩ := C52_advertised_partial P.X m2.sql s2.db db' t u _ ha hid ht
      refine ⟨headId, refs, ⟨pkts, k2, k3⟩, k4.mem_iff.2 (List.mem_map.2 ⟨_, refsAt_mem.2 ⟨(getHead_refs k1).1 _ hrow2, rfl⟩, rfl⟩), k4, fun hb hn hone => ?_⟩
      obtain ⟨r, e1, e2, e3, e4⟩ := getHead_master (X := P.X) (E := m2.sql) hb ⟨_, hrow2, rfl, hn⟩
      rw [k1, Prod.mk.injEq, Res.ok.injEq] at e4
      rw [e4.1]
      exact hone r ((getHead_refs k1).1 r e1) e2 e3
    | err e => simp [Res.outcome] at hdisc
    | panic => simp [Res.outcome] at hdisc
    | spin => simp [Res.outcome] at hdisc

/-! ## Examples and negations -/

/-- On the server of the examples, in any state, a branch can be created in any repository. -/
theorem demo_create_rows {u g : Bytes} (hu : Spec.CleanUrl u) (hg : g = [] ∨ g = ascii ".git") (s : ServerState) (c : Spec.PushCmd) (hc : c.Ok) (h0 : c.old = zeroId) :
    ∃ pack rep s', (ascii "PACK").isPrefixOf pack = true ∧
      serve demoServer demoMoment s (Spec.pushReq (u ++ g) (Spec.pushBody c [] (ascii "report-status") pack)) = (.reply (.ok (.bytes rep)), s') ∧
      s'.db.refs = s.db.refs ++ [{ repoPath := u, refName := c.name ++ [0], refGitId := c.new }] ∧
      (∀ x ∈ s'.db.commits, x ∈ s.db.commits ∨ x.gitId = appCmd.new) ∧ ∃ x ∈ s'.db.commits, x.gitId = appCmd.new := by
  obtain ⟨file, p, h1, _, h2, h3⟩ := app_pack (getHashObject polyExt demoSql s.db) appObjects (fun _ h => h) (by decide) (by decide) (by decide +kernel) 1
  obtain ⟨hist, e, _⟩ := decodePack_hist h2
  obtain ⟨db1, h4⟩ := app_stored (by rw [e]; exact PackCache.keyed_run hist) h3 demoSql (fun _ _ => rfl) 0 u s.db
  have hk : handleRefs demoSql (RefCommand.new c.old c.new (c.name ++ [0])) u db1 =
      (.ok (), saveRefs demoSql (RefCommand.new c.old c.new (c.name ++ [0])) u db1) := by
    simp only [handleRefs, RefCommand.new, h0, if_true]
  obtain ⟨out, st', r1, r2, _⟩ := (C70_report_partial (mysqlPush polyExt demoSql 2) u s.db db1 c hc (ascii "report-status") (by decide) (by decide) file h1
    p h2).1 _ h4 hk
  have hroute : route .post (u ++ g ++ ascii "/git-receive-pack") none = .receivePack u := route_push hu hg
  refine ⟨file, out, { s with db := st'.db }, h1, ?_, ?_, ?_, ?_⟩
  · have e1 : httpReceivePack (mysqlPush demoServer.X demoMoment.sql demoMoment.fuel) { caps := [], commands := [], path := u, db := s.db }
      (Spec.pushBody c [] (ascii "report-status") file) = .ok (out, st') := r1
    have e2 := httpReceiveDb_ok _ _ _ _ _ e1
    unfold serve
    simp only [Spec.pushReq, hroute, e1, e2]
    rfl
  · have hrefs : db1.refs = s.db.refs := by
      have := savePackfile_refs demoSql 2 p u s.db
      rw [show savePackfile demoSql 2 p u s.db = (.ok (), db1) from h4] at this
      exact this
    simp only [r2, saveRefs, chunks_one, insertRefs, hrefs]
    rfl
  · intro x hx
    obtain ⟨D, rows, db0, p1, p2, p3, rfl⟩ := savePackfile_ok (show savePackfile demoSql 2 p u s.db = (.ok (), db1) from h4)
    have hH : D.Holds p.result := C36_each_object_once h2 (by have := demoSql.pool_outcome p.result; rwa [p1] at this)
    simp only [r2, saveRefs, (insertRefs_only demoSql _ _).2.1] at hx
    rcases (saveCommits_mem demoSql D.commits u db0).2 x hx with hx | hx
    · obtain ⟨_, _, _, _, _, _, e0, _⟩ := C51_batches_partial demoSql rows s.db
      rw [p3] at e0
      exact .inl (e0 ▸ hx)
    · obtain ⟨y, hy, rfl⟩ := List.mem_map.1 hx
      have hb := (hH.commits y.base).1 (List.mem_map.2 ⟨y, hy, rfl⟩)
      have ho := ((h3 _ _).1 hb.2).1
      refine .inr ?_
      show Hash.toPlainStr y.base.id = _
      simp only [appObjects, appThin, List.mem_append, List.mem_cons, List.not_mem_nil, or_false] at ho
      rcases ho with (e | e | e | e) | e
      · rw [e]; rfl
      · have := hb.1; rw [e] at this; cases this
      · have := hb.1; rw [e] at this; cases this
      · have := hb.1; rw [e] at this; cases this
      · have := hb.1; rw [e] at this; cases this
  · obtain ⟨p', q1, q2, _⟩ := C26_durable_partial polyExt demoSql 2 u s.db c hc (ascii "report-status") (by decide) (by decide) file h1
      (fun _ _ => rfl) (fun _ _ => rfl) out st' r1
    rw [h2] at q1
    cases q1
    obtain ⟨r, hr, e1, _⟩ := q2 (metaOf polyExt (.commit, appCommit.encode)) ((h3 _ _).2 ⟨by simp [appObjects, appThin], rfl⟩) rfl
    exact ⟨r, hr, e1⟩

theorem demo_create {u g : Bytes} (hu : Spec.CleanUrl u) (hg : g = [] ∨ g = ascii ".git") (s : ServerState) (c : Spec.PushCmd) (hc : c.Ok) (h0 : c.old = zeroId) :
    ∃ pack rep s', (ascii "PACK").isPrefixOf pack = true ∧
      serve demoServer demoMoment s (Spec.pushReq (u ++ g) (Spec.pushBody c [] (ascii "report-status") pack)) = (.reply (.ok (.bytes rep)), s') ∧
      s'.db.refs = s.db.refs ++ [{ repoPath := u, refName := c.name ++ [0], refGitId := c.new }] := by
  obtain ⟨pack, rep, s', h1, h2, h3, _⟩ := demo_create_rows hu hg s c hc h0
  exact ⟨pack, rep, s', h1, h2, h3⟩

theorem app_url : Spec.CleanUrl (ascii "/app") := ⟨by decide, by decide, by decide, by decide⟩
theorem upper_url : Spec.CleanUrl (ascii "/APP") := ⟨by decide, by decide, by decide, by decide⟩

/-- A branch at some id. -/
def devCmd : Spec.PushCmd := { old := zeroId, new := List.replicate 40 0x62, name := ascii "refs/heads/dev" }

theorem devCmd_ok : devCmd.Ok := by
  refine ⟨by decide, by decide, by decide, by decide, by decide, by decide, by decide⟩

/-- The row of the pushed branch. -/
def masterRow : RefRow := { repoPath := ascii "/app", refName := appCmd.name ++ [0], refGitId := appCmd.new }

theorem masterRow_text : Spec.RefText masterRow := ⟨by decide +kernel, by decide +kernel, by decide +kernel, by decide +kernel⟩

/-- A server with one repository. -/
theorem demo_app : ∃ pack rep s', (ascii "PACK").isPrefixOf pack = true ∧
    serve demoServer demoMoment .empty (Spec.pushReq (ascii "/app" ++ []) (Spec.pushBody appCmd [] (ascii "report-status") pack)) =
      (.reply (.ok (.bytes rep)), s') ∧ s'.db.refs = [masterRow] :=
  demo_create app_url (.inl rfl) .empty appCmd appCmd_ok rfl

theorem app_hasMaster {s : ServerState} {l : List RefRow} (e : s.db.refs = masterRow :: l) : Spec.HasMaster demoServer.D.fold s.db (ascii "/app") :=
  ⟨masterRow, by rw [e]; simp, rfl, by unfold Spec.isMaster; decide +kernel⟩

/-- **C96 is false** as far as the name goes: a branch `refs/heads/master` is pushed to an empty server, which answers that all is well; a client
that asks for the refs is shown one ref, and its name is another one. -/
theorem C96_name_false : ∃ (P : ServerExt) (m : Moment) (u : Bytes) (c : Spec.PushCmd) (pack rep out head : Bytes) (s : ServerState)
    (refs : List (Bytes × Bytes)), c.Ok ∧ Spec.CleanUrl u ∧
    serve P m .empty (Spec.pushReq u (Spec.pushBody c [] (ascii "report-status") pack)) = (.reply (.ok (.bytes rep)), s) ∧
    (serve P m s (Spec.refsReq u .uploadPack)).1 = .reply (.ok (.bytes out)) ∧ Spec.Shows .uploadPack out head refs ∧ refs.length = 1 ∧
    ∀ p ∈ refs, p.2 ≠ c.name := by
  obtain ⟨pack, rep, s, h1, h2, h3⟩ := demo_app
  have eat : Spec.refsAt demoServer.D.fold s.db.refs (ascii "/app") = [masterRow] := by rw [h3]; decide +kernel
  obtain ⟨out, r, refs, k1, k2, _, _, _, k6⟩ := shown_master (P := demoServer) app_url (by decide) (g := []) (.inl rfl) .uploadPack demoMoment rfl s
    (app_hasMaster h3) (by rw [eat]; simp) (by rw [eat]; intro r hr; rw [List.mem_singleton.1 hr]; exact masterRow_text)
  rw [eat] at k6
  have e := List.perm_singleton.1 k6
  refine ⟨demoServer, demoMoment, ascii "/app", appCmd, pack, rep, out, r.refGitId, s, refs, appCmd_ok, app_url, by simpa using h2, ?_, k2, by rw [e]; rfl, ?_⟩
  · rw [List.append_nil] at k1
    rw [k1]
  · rw [e]
    intro p hp
    rw [List.mem_singleton.1 hp]
    decide +kernel

/-- Example for C96: the branch pushed is shown, after other requests. -/
example : ∃ pack rep s out head refs,
    serve demoServer demoMoment .empty (Spec.pushReq (ascii "/app" ++ []) (Spec.pushBody appCmd [] (ascii "report-status") pack)) =
      (.reply (.ok (.bytes rep)), s) ∧
    (serve demoServer demoMoment (runServer demoServer s mixedRequests) (Spec.refsReq (ascii "/app" ++ ascii ".git") .uploadPack)).1 =
      .reply (.ok (.bytes out)) ∧ Spec.Shows .uploadPack out head refs ∧ (appCmd.new, ascii "refs/heads/master" ++ [0]) ∈ refs := by
  obtain ⟨pack, rep, s, h1, h2, h3⟩ := demo_app
  have eat : Spec.refsAt demoServer.D.fold s.db.refs (ascii "/app") = [masterRow] := by rw [h3]; decide +kernel
  have no : ∀ (r : HttpReq), Spec.RepoOf (route r.method r.path r.service) = none →
      demoMoment.sql.fold = demoServer.D.fold ∧ (∀ a, route r.method r.path r.service = .receivePack a → demoServer.D.fold a ≠ demoServer.D.fold (ascii "/app")) ∧
        ∀ a t, route r.method r.path r.service = .infoRefs a t → demoServer.D.fold a = demoServer.D.fold (ascii "/app") → a = ascii "/app" :=
    fun r e => ⟨rfl, (fun a h => by rw [h] at e; cases e), (fun a t h => by rw [h] at e; cases e)⟩
  have he : Spec.Elsewhere demoServer.D.fold (ascii "/app") mixedRequests := by
    intro p hp
    simp only [mixedRequests, uploadHistory, List.cons_append, List.nil_append, List.mem_cons, List.not_mem_nil, or_false] at hp
    rcases hp with rfl | rfl | rfl | rfl | rfl
    · exact no _ (by decide +kernel)
    · exact no _ (by decide +kernel)
    · exact no _ (by decide +kernel)
    · have e : route (discoverReq (ascii "/app")).method (discoverReq (ascii "/app")).path (discoverReq (ascii "/app")).service =
        .infoRefs (ascii "/app") .uploadPack := by decide +kernel
      refine ⟨rfl, fun a h => ?_, fun a t h _ => ?_⟩
      · rw [e] at h
        cases h
      · rw [e] at h
        cases h
        rfl
    · exact no _ (by decide +kernel)
  have hm := app_hasMaster h3
  have eat2 := (run_refsAt (by decide) he hm).trans eat
  have hm2 := hasMaster_refsAt (run_refsAt (by decide) he hm) hm
  have hid : ((Spec.refsAt demoServer.D.fold (runServer demoServer s mixedRequests).db.refs (ascii "/app")).map RefRow.refGitId).Nodup := by rw [eat2]; simp
  have ht : ∀ r ∈ Spec.refsAt demoServer.D.fold (runServer demoServer s mixedRequests).db.refs (ascii "/app"), Spec.RefText r := by
    rw [eat2]; intro r hr; rw [List.mem_singleton.1 hr]; exact masterRow_text
  obtain ⟨out, r, _, k1, _⟩ := shown_master (P := demoServer) app_url (by decide) (g := ascii ".git") (.inr rfl) .uploadPack demoMoment rfl
    (runServer demoServer s mixedRequests) hm2 hid ht
  obtain ⟨head, refs, l1, l2, _⟩ := C96_shown_partial (P := demoServer) app_url (g := []) (.inl rfl) (g' := ascii ".git") (.inr rfl) .empty demoMoment demoMoment rfl rfl
    appCmd appCmd_ok (by decide +kernel) (ascii "report-status") (by decide) (by decide) pack h1 (fun _ _ => rfl) (.inl rfl) rep (by rw [h2]) mixedRequests
    (fun p hp => ⟨(he p hp).1, (he p hp).2.1⟩) .uploadPack out (runServer demoServer s mixedRequests) (by rw [h2]; exact k1) hid ht
  exact ⟨pack, rep, s, out, head, refs, h2, by rw [k1], l1, l2⟩

/-- The theorem applied to a history with another push: after a branch of `/app` is pushed, any pack at all is pushed to `/lib` (the push is answered or
not); what is shown of `/app` is the same before and after. -/
example (lib : Bytes) : ∃ (s : ServerState) (out out' head head' : Bytes) (refs refs' : List (Bytes × Bytes)), s.db.refs = [masterRow] ∧
    (serve demoServer demoMoment s (Spec.refsReq (ascii "/app" ++ []) .uploadPack)).1 = .reply (.ok (.bytes out)) ∧ Spec.Shows .uploadPack out head refs ∧
    (serve demoServer demoMoment (serve demoServer demoMoment s (Spec.pushReq (ascii "/lib") (Spec.pushBody devCmd [] (ascii "report-status") lib))).2
      (Spec.refsReq (ascii "/app" ++ []) .uploadPack)).1 = .reply (.ok (.bytes out')) ∧ Spec.Shows .uploadPack out' head' refs' ∧ refs.Perm refs' := by
  obtain ⟨pack, rep, s, h1, h2, h3⟩ := demo_app
  have eat : Spec.refsAt demoServer.D.fold s.db.refs (ascii "/app") = [masterRow] := by rw [h3]; decide +kernel
  have er : route .post (ascii "/lib" ++ ascii "/git-receive-pack") none = .receivePack (ascii "/lib") := by decide +kernel
  have he : Spec.Elsewhere demoServer.D.fold (ascii "/app") [(demoMoment, Spec.pushReq (ascii "/lib") (Spec.pushBody devCmd [] (ascii "report-status") lib))] := by
    intro p hp
    rw [List.mem_singleton.1 hp]
    refine ⟨rfl, fun a h => ?_, fun a t h _ => ?_⟩
    · replace h := er.symm.trans h
      cases h
      decide +kernel
    · replace h := er.symm.trans h
      cases h
  obtain ⟨out, out', head, head', refs, refs', k1, k2, k3, k4, k5, _⟩ := C97_unaffected_partial (P := demoServer) app_url (by decide) (g := []) (g' := [])
    (.inl rfl) (.inl rfl) .uploadPack .uploadPack s (app_hasMaster h3) (by rw [eat]; simp)
    (by rw [eat]; intro r hr; rw [List.mem_singleton.1 hr]; exact masterRow_text) _ he demoMoment demoMoment rfl rfl
  exact ⟨s, out, out', head, head', refs, refs', h3, k1, k2, k3, k4, k5⟩

/-- **C97 is false** for repositories whose paths the database takes for equal: a branch is pushed to `/APP`; before, a client was shown one ref of `/app`,
after it, two. -/
theorem C97_case_false : ∃ (P : ServerExt) (m : Moment) (s : ServerState) (c : Spec.PushCmd) (pack rep out out' head head' : Bytes) (s' : ServerState)
    (refs refs' : List (Bytes × Bytes)), c.Ok ∧
    serve P m s (Spec.pushReq (ascii "/APP") (Spec.pushBody c [] (ascii "report-status") pack)) = (.reply (.ok (.bytes rep)), s') ∧
    (serve P m s (Spec.refsReq (ascii "/app") .uploadPack)).1 = .reply (.ok (.bytes out)) ∧ Spec.Shows .uploadPack out head refs ∧ refs.length = 1 ∧
    (serve P m s' (Spec.refsReq (ascii "/app") .uploadPack)).1 = .reply (.ok (.bytes out')) ∧ Spec.Shows .uploadPack out' head' refs' ∧ refs'.length = 2 := by
  obtain ⟨pack0, rep0, s, _, _, h3⟩ := demo_app
  obtain ⟨pack, rep, s', _, g2, g3⟩ := demo_create upper_url (g := []) (.inl rfl) s devCmd devCmd_ok rfl
  rw [h3] at g3
  have eat : Spec.refsAt demoServer.D.fold s.db.refs (ascii "/app") = [masterRow] := by rw [h3]; decide +kernel
  have eat' : Spec.refsAt demoServer.D.fold s'.db.refs (ascii "/app") =
      [masterRow, { repoPath := ascii "/APP", refName := devCmd.name ++ [0], refGitId := devCmd.new }] := by rw [g3]; decide +kernel
  obtain ⟨out, r, refs, k1, k2, _, _, _, k6⟩ := shown_master (P := demoServer) app_url (by decide) (g := []) (.inl rfl) .uploadPack demoMoment rfl s
    (app_hasMaster h3) (by rw [eat]; simp) (by rw [eat]; intro r hr; rw [List.mem_singleton.1 hr]; exact masterRow_text)
  obtain ⟨out', r', refs', l1, l2, _, _, _, l6⟩ := shown_master (P := demoServer) app_url (by decide) (g := []) (.inl rfl) .uploadPack demoMoment rfl s'
    (app_hasMaster g3) (by rw [eat']; decide +kernel) (by
      rw [eat']
      intro r hr
      rcases List.mem_cons.1 hr with rfl | hr
      · exact masterRow_text
      · rw [List.mem_singleton.1 hr]
        exact ⟨by decide, by decide, by decide, by decide⟩)
  rw [eat] at k6
  rw [eat'] at l6
  rw [List.append_nil] at k1 l1 g2
  exact ⟨demoServer, demoMoment, s, devCmd, pack, rep, out, out', _, _, s', refs, refs', devCmd_ok, g2, by rw [k1], k2, k6.length_eq, by rw [l1], l2,
    l6.length_eq⟩

end Gust

import Verif.Spec.Server
import Verif.Props.Clone
import Verif.Props.Router

/-! # What one request does to the repositories -/

namespace Gust

open Spec (nodeObj StoreReach commitsAt InRepo)

theorem readPktLine_rest {body : Bytes} {r : (Nat × Bytes) × Bytes} (h : readPktLine body = .ok r) : r.2 <:+ body := by
  unfold readPktLine at h
  split at h
  · cases h; exact List.suffix_refl _
  · split at h
    · cases h
    · split at h
      · cases h
      · simp only at h
        split at h
        · cases h; exact List.drop_suffix _ _
        · split at h
          · cases h
          · split at h
            · cases h
            · cases h
              exact (List.drop_suffix _ _).trans (List.drop_suffix _ _)

/-- What a push does to the database, whatever happens; the pack is the end of the body. -/
theorem httpReceiveDb_from (X : Ext) (E : SqlExt) (fuel : Nat) (repo body : Bytes) (db : Db) :
    httpReceiveDb (mysqlPush X E fuel) { caps := [], commands := [], path := repo, db := db } body = db ∨
      ∃ file p, file = Spec.packPart body ∧ decodePack X (getHashObject X E db) fuel file = .ok p ∧
        (httpReceiveDb (mysqlPush X E fuel) { caps := [], commands := [], path := repo, db := db } body = (savePackfile E fuel p repo db).2 ∨
          ∃ cmd, httpReceiveDb (mysqlPush X E fuel) { caps := [], commands := [], path := repo, db := db } body =
            (handleRefs E cmd repo (savePackfile E fuel p repo db).2).2) := by
  have key : ∀ (st : PushState Db) (data : Bytes), st.commands = [] ∨ data = Spec.packPart body → st.db = db → st.path = repo →
      gitReceiveDb (mysqlPush X E fuel) st data = db ∨
      ∃ file p, file = Spec.packPart body ∧ decodePack X (getHashObject X E db) fuel file = .ok p ∧
        (gitReceiveDb (mysqlPush X E fuel) st data = (savePackfile E fuel p repo db).2 ∨
          ∃ cmd, gitReceiveDb (mysqlPush X E fuel) st data = (handleRefs E cmd repo (savePackfile E fuel p repo db).2).2) := by
    intro st data hd h1 h2
    subst h1 h2
    unfold gitReceiveDb
    split
    · unfold receiveDataDb
      split
      · exact .inl rfl
      · rename_i cmd hcmd
        have hd : data = Spec.packPart body := by
          rcases hd with h | h
          · rw [h] at hcmd; cases hcmd
          · exact h
        simp only [mysqlPush]
        split
        · rename_i p hp
          refine .inr ⟨data, p, hd, hp, ?_⟩
          split
          · rename_i db1 he
            refine .inr ⟨{ cmd with ok := true }, ?_⟩
            rw [he]
          · rename_i he
            exact .inl (by rw [he])
        · exact .inl rfl
    · exact .inl rfl
  unfold httpReceiveDb
  split
  · rename_i data st1 h
    have : (st1.commands = [] ∨ data = Spec.packPart body) ∧ st1.db = db ∧ st1.path = repo := by
      unfold gitReceivePack at h
      split at h
      · unfold receiveData at h
        simp at h
      · simp only [receiveCommand, Res.bind_eq_ok, Res.pure_eq] at h
        obtain ⟨⟨⟨n, line⟩, rest⟩, hl, h⟩ := h
        simp only at h
        split at h
        · simp only [Res.ok.injEq, Prod.mk.injEq] at h
          rw [← h.2, ← h.1]; exact ⟨.inl rfl, rfl, rfl⟩
        · simp only [Res.bind_eq_ok, Res.pure_eq] at h
          obtain ⟨⟨cmd, capText⟩, _, h⟩ := h
          simp only at h
          split at h
          · simp only [Res.bind_eq_ok] at h
            obtain ⟨out, hout, h⟩ := h
            simp only [Res.ok.injEq, Prod.mk.injEq] at h
            rw [← h.2, ← h.1]
            refine ⟨?_, rfl, rfl⟩
            unfold sliceFrom at hout
            split at hout
            · cases hout
              refine .inr ?_
              unfold Spec.packPart
              rw [hl]
            · cases hout
          · cases h
    exact key st1 data this.1 this.2.1 this.2.2
  · exact key _ _ (.inl rfl) rfl rfl

/-- What a push does to the database, whatever happens. -/
theorem httpReceiveDb_cases (X : Ext) (E : SqlExt) (fuel : Nat) (repo body : Bytes) (db : Db) :
    httpReceiveDb (mysqlPush X E fuel) { caps := [], commands := [], path := repo, db := db } body = db ∨
      ∃ file p, decodePack X (getHashObject X E db) fuel file = .ok p ∧
        (httpReceiveDb (mysqlPush X E fuel) { caps := [], commands := [], path := repo, db := db } body = (savePackfile E fuel p repo db).2 ∨
          ∃ cmd, httpReceiveDb (mysqlPush X E fuel) { caps := [], commands := [], path := repo, db := db } body =
            (handleRefs E cmd repo (savePackfile E fuel p repo db).2).2) := by
  rcases httpReceiveDb_from X E fuel repo body db with h | ⟨file, p, _, h⟩
  · exact .inl h
  · exact .inr ⟨file, p, h⟩

/-- A handler that ended leaves the database that it had. -/
theorem gitReceiveDb_ok {σ P : Type} {E : PushEnv σ P} {st1 st2 : PushState σ} {data out : Bytes} (h : gitReceivePack E st1 data = .ok (out, st2)) :
    gitReceiveDb E st1 data = st2.db := by
  unfold gitReceivePack at h
  unfold gitReceiveDb
  split at h
  · rename_i hp
    rw [if_pos hp]
    unfold receiveData at h
    unfold receiveDataDb
    split at h
    · cases h
    · rename_i cmd hc
      rw [hc]
      split at h
      · rename_i p hu
        simp only [hu]
        simp only at h
        split at h
        · rename_i db hs
          rw [hs]
          simp only
          split at h
          · rename_i db' hr
            simp only [Res.ok.injEq, Prod.mk.injEq] at h
            rw [hr, ← h.2]
          · cases h
          · cases h
        · rename_i db hs
          rw [hs]
          simp only [Res.ok.injEq, Prod.mk.injEq] at h
          rw [← h.2]
        · cases h
        · cases h
      · cases h
      · cases h
  · rename_i hp
    rw [if_neg hp]
    simp only [receiveCommand, Res.bind_eq_ok, Res.pure_eq] at h
    obtain ⟨⟨⟨n, line⟩, rest⟩, _, h⟩ := h
    simp only at h
    split at h
    · simp only [Res.ok.injEq, Prod.mk.injEq] at h
      rw [← h.2]
    · simp only [Res.bind_eq_ok, Res.pure_eq] at h
      obtain ⟨⟨cmd, capText⟩, _, h⟩ := h
      simp only at h
      split at h
      · simp only [Res.bind_eq_ok] at h
        obtain ⟨out, _, h⟩ := h
        simp only [Res.ok.injEq, Prod.mk.injEq] at h
        rw [← h.2]
      · cases h

/-- An answered push leaves the database that the handler had. -/
theorem httpReceiveDb_ok {σ P : Type} (E : PushEnv σ P) (st st' : PushState σ) (body out : Bytes) (h : httpReceivePack E st body = .ok (out, st')) :
    httpReceiveDb E st body = st'.db := by
  unfold httpReceivePack at h
  simp only [Res.bind_eq_ok, Res.unwrap_eq_ok] at h
  obtain ⟨⟨data, st1⟩, h1, h2⟩ := h
  simp only at h2
  unfold httpReceiveDb
  rw [h1]
  exact gitReceiveDb_ok h2

/-- The repositories after one request. -/
theorem serve_db (P : ServerExt) (m : Moment) (s : ServerState) (r : HttpReq) :
    (serve P m s r).2.db = match route r.method r.path r.service with
      | .infoRefs repo _ => (getHeadObjectId P.X m.sql s.db repo).2
      | .receivePack repo => httpReceiveDb (mysqlPush P.X m.sql m.fuel) { caps := [], commands := [], path := repo, db := s.db } r.body
      | _ => s.db := by
  unfold serve
  cases h : route r.method r.path r.service <;> simp only <;> (try rfl)
  · unfold advertise
    split <;> rename_i e <;> rw [e]
  · split <;> rfl
  · split <;> rfl
  · split
    · rfl
    · split <;> rfl
  · split <;> rfl

/-! ## Rows of refs -/

theorem insertRefs_mem (E : SqlExt) : ∀ (bs : List (List RefRow)) (db : Db), ∀ r ∈ (insertRefs E bs db).refs, r ∈ db.refs ∨ ∃ b ∈ bs, r ∈ b
  | [], db, r, h => .inl h
  | b :: bs, db, r, h => by
    rcases insertRefs_mem E bs _ r h with h | ⟨b', h1, h2⟩
    · simp only at h
      split at h
      · rcases List.mem_append.1 h with h | h
        · exact .inl h
        · exact .inr ⟨b, by simp, h⟩
      · exact .inl h
    · exact .inr ⟨b', by simp [h1], h2⟩

theorem mem_chunks_one {r x : RefRow} {b : List RefRow} (hb : b ∈ chunks 100 1 [x]) (h : r ∈ b) : r = x := by
  simp only [chunks, List.cons_ne_nil, if_false] at hb
  simp only [List.mem_singleton] at hb
  subst hb
  simpa using h

theorem insertCommits_refs (E : SqlExt) : ∀ (bs : List (List CommitRow)) (db : Db), (insertCommits E bs db).refs = db.refs
  | [], _ => rfl
  | b :: bs, db => by rw [insertCommits, insertCommits_refs E bs]

theorem insertNodes_refs (E : SqlExt) : ∀ (bs : List (List NodeRow)) (db : Db), (insertNodes E bs db).2.refs = db.refs
  | [], _ => rfl
  | b :: bs, db => by
    rw [insertNodes]
    split
    · rw [insertNodes_refs E bs]
    · rfl

theorem savePackfile_refs (E : SqlExt) (fuel : Nat) (p : Pack) (repo : Bytes) (db : Db) : (savePackfile E fuel p repo db).2.refs = db.refs := by
  unfold savePackfile
  split
  · split
    · rename_i nodes _
      have := insertNodes_refs E (nodeBatches 0 [] nodes) db
      split <;> rename_i e <;> unfold saveNodes at e <;> rw [e] at this
      · unfold saveCommits
        rw [insertCommits_refs, this]
      · exact this
      · exact this
    · rfl
    · rfl
  · rfl
  · rfl

/-- A change of refs adds rows for its path only, and keeps the paths of the others. -/
theorem handleRefs_paths (E : SqlExt) (cmd : RefCommand) (repo : Bytes) (db : Db) :
    ∀ r ∈ (handleRefs E cmd repo db).2.refs, r.repoPath = repo ∨ ∃ r' ∈ db.refs, r'.repoPath = r.repoPath := by
  intro r h
  unfold handleRefs at h
  split at h
  · rcases insertRefs_mem E _ _ r h with h | ⟨b, hb, h⟩
    · exact .inr ⟨r, h, rfl⟩
    · exact .inl (by rw [mem_chunks_one hb h])
  · exact .inr ⟨r, h, rfl⟩
  · unfold updateRefs at h
    split at h
    · rename_i i _
      split at h
      · simp only at h
        obtain ⟨k, hk, e⟩ := List.mem_iff_getElem.1 h
        rw [List.getElem_modify] at e
        rw [List.length_modify] at hk
        refine .inr ⟨db.refs[k], List.getElem_mem _, ?_⟩
        rw [← e]
        split <;> rfl
      · exact .inr ⟨r, h, rfl⟩
    · exact .inr ⟨r, h, rfl⟩

theorem generateChild_paths (X : Ext) (E : SqlExt) (ref : RefRow) (path : Bytes) (db : Db) :
    ∀ r ∈ (generateChild X E ref path db).2.refs, r.repoPath = path ∨ ∃ r' ∈ db.refs, r'.repoPath = r.repoPath := by
  intro r h
  unfold generateChild at h
  split at h
  · exact .inr ⟨r, h, rfl⟩
  · split at h
    · split at h
      · rcases insertRefs_mem E _ _ r h with h | ⟨b, hb, h⟩
        · unfold saveCommits at h
          rw [insertCommits_refs] at h
          exact .inr ⟨r, h, rfl⟩
        · exact .inl (by rw [mem_chunks_one hb h])
      · exact .inr ⟨r, h, rfl⟩
      · exact .inr ⟨r, h, rfl⟩
    · exact .inr ⟨r, h, rfl⟩
    · exact .inr ⟨r, h, rfl⟩
    · exact .inr ⟨r, h, rfl⟩

theorem getHead_paths (X : Ext) (E : SqlExt) (path : Bytes) (db : Db) :
    ∀ r ∈ (getHeadObjectId X E db path).2.refs, r.repoPath = path ∨ ∃ r' ∈ db.refs, r'.repoPath = r.repoPath := by
  intro r h
  unfold getHeadObjectId at h
  split at h
  · exact .inr ⟨r, h, rfl⟩
  · split at h
    · exact generateChild_paths X E _ path db r h
    · exact .inr ⟨r, h, rfl⟩

theorem insertRefs_keep (E : SqlExt) : ∀ (bs : List (List RefRow)) (db : Db), ∀ r ∈ db.refs, r ∈ (insertRefs E bs db).refs
  | [], _, _, h => h
  | b :: bs, db, r, h => by
    refine insertRefs_keep E bs _ r ?_
    simp only
    split
    · exact List.mem_append_left _ h
    · exact h

/-- Asking for HEAD keeps all refs and adds only refs for the path asked for. -/
theorem getHead_refsOf (X : Ext) (E : SqlExt) (path : Bytes) (db : Db) :
    (∀ r ∈ db.refs, r ∈ (getHeadObjectId X E db path).2.refs) ∧
      ∀ r ∈ (getHeadObjectId X E db path).2.refs, r ∈ db.refs ∨ r.repoPath = path := by
  have same : (∀ r ∈ db.refs, r ∈ db.refs) ∧ ∀ r ∈ db.refs, r ∈ db.refs ∨ r.repoPath = path := ⟨fun _ h => h, fun _ h => .inl h⟩
  unfold getHeadObjectId
  split
  · exact same
  · split
    · unfold generateChild
      split
      · exact same
      · split
        · split
          · have e : ∀ c, (saveCommits E [c] path db).refs = db.refs := fun c => by unfold saveCommits; rw [insertCommits_refs]
            constructor
            · intro r h
              exact insertRefs_keep E _ _ r (by rw [e]; exact h)
            · intro r h
              rcases insertRefs_mem E _ _ r h with h | ⟨b, hb, h⟩
              · rw [e] at h; exact .inl h
              · exact .inr (by rw [mem_chunks_one hb h])
          · exact same
          · exact same
        · exact same
        · exact same
        · exact same
    · exact same

/-- Every stored ref is for the path of a request. -/
theorem serve_paths (P : ServerExt) (m : Moment) (s : ServerState) (r : HttpReq) :
    ∀ x ∈ (serve P m s r).2.db.refs, r.repo = some x.repoPath ∨ ∃ x' ∈ s.db.refs, x'.repoPath = x.repoPath := by
  intro x hx
  rw [serve_db] at hx
  unfold HttpReq.repo
  cases h : route r.method r.path r.service <;> rw [h] at hx <;> simp only at hx <;> (try exact .inr ⟨x, hx, rfl⟩)
  · rcases getHead_paths _ _ _ _ x hx with h | h
    · exact .inl (by rw [h]; rfl)
    · exact .inr h
  · rename_i repo
    rcases httpReceiveDb_cases P.X m.sql m.fuel repo r.body s.db with e | ⟨file, p, _, e | ⟨cmd, e⟩⟩ <;> rw [e] at hx
    · exact .inr ⟨x, hx, rfl⟩
    · rw [savePackfile_refs] at hx
      exact .inr ⟨x, hx, rfl⟩
    · rcases handleRefs_paths _ _ _ _ x hx with h | ⟨x', h1, h2⟩
      · exact .inl (by rw [h]; rfl)
      · rw [savePackfile_refs] at h1
        exact .inr ⟨x', h1, h2⟩

/-- Asking for HEAD changes nothing when the path of no stored ref is above. -/
theorem getHead_same (X : Ext) (E : SqlExt) (path : Bytes) (db : Db) (h : ∀ r ∈ db.refs, pathStartsWith path r.repoPath = true → r.repoPath = path) :
    (getHeadObjectId X E db path).2 = db := by
  unfold getHeadObjectId
  split
  · rfl
  · rename_i h1
    split
    · rename_i r h2
      have hm := List.mem_of_find?_eq_some h2
      have hp := List.find?_some h2
      have he := h r (mem_searchRefs.1 hm).1 hp
      have := List.find?_eq_none.1 h1 r hm
      simp [he] at this
    · rfl

/-! ## Histories -/

theorem runServer_append (P : ServerExt) (s : ServerState) (h1 h2 : List (Moment × HttpReq)) :
    runServer P s (h1 ++ h2) = runServer P (runServer P s h1) h2 := List.foldl_append

theorem runServer_concat (P : ServerExt) (s : ServerState) (h : List (Moment × HttpReq)) (m : Moment) (r : HttpReq) :
    runServer P s (h ++ [(m, r)]) = (serve P m (runServer P s h) r).2 := by rw [runServer_append]; rfl

/-- The paths of the stored refs. -/
theorem run_paths (P : ServerExt) : ∀ (n : Nat) (h : List (Moment × HttpReq)), h.length = n →
    ∀ x ∈ (runServer P .empty h).db.refs, ∃ p ∈ h, p.2.repo = some x.repoPath
  | 0, h, hn, x, hx => by
    have : h = [] := List.length_eq_zero_iff.1 hn
    subst this
    cases hx
  | n + 1, h, hn, x, hx => by
    have hne : h ≠ [] := by rintro rfl; cases hn
    obtain ⟨h', ⟨m, r⟩, rfl⟩ : ∃ h' q, h = h' ++ [q] := ⟨h.dropLast, h.getLast hne, (List.dropLast_append_getLast hne).symm⟩
    rw [runServer_concat] at hx
    rcases serve_paths P m _ r x hx with e | ⟨x', h1, h2⟩
    · exact ⟨(m, r), by simp, e⟩
    · obtain ⟨p, hp, e⟩ := run_paths P n h' (by simpa using hn) x' h1
      exact ⟨p, by simp [hp], by rw [e, h2]⟩

/-- One request is a step of the storage. -/
theorem serve_step {P : ServerExt} {path : Bytes} {s : ServerState} (hrun : StoreRun P.X P.D.fold path s.db) {m : Moment} (hf : m.sql.fold = P.D.fold)
    {r : HttpReq} (hh : ∀ a, r.repo = some a → P.D.fold a = P.D.fold path →
      ∀ x ∈ s.db.refs, pathStartsWith a x.repoPath = true → x.repoPath = a) :
    StoreRun P.X P.D.fold path (serve P m s r).2.db := by
  rw [serve_db]
  unfold HttpReq.repo at hh
  cases h : route r.method r.path r.service <;> rw [h] at hh <;> simp only <;> (try exact hrun)
  · rename_i repo t
    refine .head m.sql repo s.db hrun hf ?_
    by_cases he : P.D.fold repo = P.D.fold path
    · exact .inr (getHead_same _ _ _ _ (hh repo rfl he))
    · exact .inl he
  · rename_i repo
    rcases httpReceiveDb_cases P.X m.sql m.fuel repo r.body s.db with e | ⟨file, p, hd, e | ⟨cmd, e⟩⟩ <;> rw [e]
    · exact hrun
    · exact .push m.sql m.fuel file p repo s.db hrun hf hd
    · exact .ref m.sql cmd repo _ (.push m.sql m.fuel file p repo s.db hrun hf hd) hf

/-- The storage after any history of requests. -/
theorem run_store (P : ServerExt) (path : Bytes) : ∀ (n : Nat) (h : List (Moment × HttpReq)), h.length = n → Spec.SameFold P.D.fold h →
    Spec.NoneAbove P.D.fold path h → StoreRun P.X P.D.fold path (runServer P .empty h).db
  | 0, h, hn, _, _ => by
    have : h = [] := List.length_eq_zero_iff.1 hn
    subst this
    exact .empty
  | n + 1, h, hn, hf, hab => by
    have hne : h ≠ [] := by rintro rfl; cases hn
    obtain ⟨h', ⟨m, r⟩, rfl⟩ : ∃ h' q, h = h' ++ [q] := ⟨h.dropLast, h.getLast hne, (List.dropLast_append_getLast hne).symm⟩
    have ih := run_store P path n h' (by simpa using hn) (fun p hp => hf p (by simp [hp]))
      (fun p hp q hq => hab p (by simp [hp]) q (by simp [hq]))
    rw [runServer_concat]
    refine serve_step ih (hf (m, r) (by simp)) ?_
    intro a ha he x hx hp
    obtain ⟨p, hp1, hp2⟩ := run_paths P _ h' rfl x hx
    exact hab p (by simp [hp1]) (m, r) (by simp) _ _ hp2 ha he hp

/-- A request only adds rows. -/
theorem serve_extends (P : ServerExt) (m : Moment) (s : ServerState) (r : HttpReq) : Extends s.db (serve P m s r).2.db := by
  rw [serve_db]
  cases h : route r.method r.path r.service <;> simp only <;> (try exact ⟨fun _ h => h, fun _ h => h⟩)
  · rename_i repo t
    obtain ⟨h1, h2, _⟩ := getHead_only P.X m.sql repo s.db
    exact ⟨fun n hn => by rw [h1]; exact hn, h2⟩
  · rename_i repo
    rcases httpReceiveDb_cases P.X m.sql m.fuel repo r.body s.db with e | ⟨file, p, hd, e | ⟨cmd, e⟩⟩ <;> rw [e]
    · exact ⟨fun _ h => h, fun _ h => h⟩
    · obtain ⟨rows, h1, _, h3, _⟩ := push_effect hd m.sql m.fuel repo s.db
      exact ⟨fun n hn => by rw [h1]; exact List.mem_append_left _ hn, h3⟩
    · obtain ⟨rows, h1, _, h3, _⟩ := push_effect hd m.sql m.fuel repo s.db
      obtain ⟨k1, k2⟩ := handleRefs_only m.sql cmd repo (savePackfile m.sql m.fuel p repo s.db).2
      exact ⟨fun n hn => by rw [k1, h1]; exact List.mem_append_left _ hn, fun c hc => by rw [k2]; exact h3 c hc⟩

theorem Extends.trans {a b c : Db} (h1 : Extends a b) (h2 : Extends b c) : Extends a c :=
  ⟨fun n h => h2.nodes n (h1.nodes n h), fun n h => h2.commits n (h1.commits n h)⟩

theorem run_extends (P : ServerExt) : ∀ (h : List (Moment × HttpReq)) (s : ServerState), Extends s.db (runServer P s h).db
  | [], _ => ⟨fun _ h => h, fun _ h => h⟩
  | (m, r) :: h, s => (serve_extends P m s r).trans (run_extends P h _)

/-- Rows for other paths make no difference to a complete repository. -/
theorem inRepo_other {X : Ext} {fold : Bytes → Bytes} {path : Bytes} {db db' : Db} (hrun : StoreRun X fold path db) (hrun' : StoreRun X fold path db')
    (ext : Extends db db') (hu : UniqueIds X db') (hc : ∀ r ∈ commitsAt fold db'.commits path, r ∈ db.commits) (o : Spec.Obj) :
    InRepo fold db' path o ↔ InRepo fold db path o := by
  refine ⟨fun h => ?_, inRepo_mono ext⟩
  have inv := storeRun_inv hrun (ext.unique hu)
  have inv' := storeRun_inv hrun' hu
  have old : ∀ r ∈ commitsAt fold db'.commits path, r ∈ commitsAt fold db.commits path :=
    fun r hr => commitsAt_mem.2 ⟨hc r hr, (commitsAt_mem.1 hr).2⟩
  have hsame : ∀ a ∈ db'.nodes, ∀ b ∈ db'.nodes, a.gitId = b.gitId → nodeObj a = nodeObj b := by
    intro a ha b hb e
    rw [inv'.id a ha, inv'.id b hb] at e
    exact hu _ _ (.inl ⟨a, ha, rfl⟩) (.inl ⟨b, hb, rfl⟩) (Hash.toPlainStr_injective e)
  cases h with
  | commit r hr => exact .commit r (old r hr)
  | node r c x n hr hdc hx hn e =>
    obtain ⟨c', k1, _, k4⟩ := inv.commits r (old r hr)
    rw [hdc] at k1
    cases k1
    have hx' := reach_back (X := X) ext.nodes hsame k4 hx
    obtain ⟨n', hn', e'⟩ := k4 x hx'
    have := hsame n' (ext.nodes n' hn') n hn (by rw [e', e])
    rw [← this]
    exact .node r c x n' (old r hr) hdc hx' hn' e'

/-- A request that is not a push to the path does not change the repository. -/
theorem serve_inRepo {P : ServerExt} {path : Bytes} {s : ServerState} (hrun : StoreRun P.X P.D.fold path s.db) {m : Moment} (hf : m.sql.fold = P.D.fold)
    {r : HttpReq} (hh : ∀ a, r.repo = some a → P.D.fold a = P.D.fold path →
      ∀ x ∈ s.db.refs, pathStartsWith a x.repoPath = true → x.repoPath = a)
    (hp : ∀ a, route r.method r.path r.service = .receivePack a → P.D.fold a ≠ P.D.fold path)
    (hu : UniqueIds P.X (serve P m s r).2.db) (o : Spec.Obj) :
    InRepo P.D.fold (serve P m s r).2.db path o ↔ InRepo P.D.fold s.db path o := by
  refine inRepo_other hrun (serve_step hrun hf hh) (serve_extends P m s r) hu ?_ o
  intro x hx
  obtain ⟨q1, q2⟩ := commitsAt_mem.1 hx
  rw [serve_db] at q1
  unfold HttpReq.repo at hh
  cases h : route r.method r.path r.service <;> rw [h] at hh hp q1 <;> simp only at q1 <;> (try exact q1)
  · rename_i repo t
    by_cases he : P.D.fold repo = P.D.fold path
    · rw [getHead_same _ _ _ _ (hh repo rfl he)] at q1
      exact q1
    · rcases (getHead_only P.X m.sql repo s.db).2.2 x q1 with h | h
      · exact h
      · exact absurd (by rw [← q2, h]) he
  · rename_i repo
    have hne := hp repo rfl
    rcases httpReceiveDb_cases P.X m.sql m.fuel repo r.body s.db with e | ⟨file, p, hd, e⟩
    · rw [e] at q1
      exact q1
    · obtain ⟨rows, _, _, _, h4⟩ := push_effect hd m.sql m.fuel repo s.db
      have q1' : x ∈ (savePackfile m.sql m.fuel p repo s.db).2.commits := by
        rcases e with e | ⟨cmd, e⟩
        · rw [e] at q1
          exact q1
        · rw [e, (handleRefs_only m.sql cmd repo (savePackfile m.sql m.fuel p repo s.db).2).2] at q1
          exact q1
      rcases h4 x q1' with h | ⟨h, _⟩
      · exact h
      · exact absurd (by rw [← q2, h]) hne

/-- A history without pushes to the path does not change the repository. -/
theorem run_inRepo (P : ServerExt) (path : Bytes) (h0 : List (Moment × HttpReq)) : ∀ (h : List (Moment × HttpReq)),
    Spec.SameFold P.D.fold (h0 ++ h) → Spec.NoneAbove P.D.fold path (h0 ++ h) →
    (∀ p ∈ h, ∀ a, route p.2.method p.2.path p.2.service = .receivePack a → P.D.fold a ≠ P.D.fold path) →
    UniqueIds P.X (runServer P .empty (h0 ++ h)).db →
    ∀ o, InRepo P.D.fold (runServer P .empty (h0 ++ h)).db path o ↔ InRepo P.D.fold (runServer P .empty h0).db path o := by
  intro h
  induction hn : h.length generalizing h with
  | zero =>
    have : h = [] := List.length_eq_zero_iff.1 hn
    subst this
    intro _ _ _ _ o
    rw [List.append_nil]
  | succ n ih =>
    intro hf hab hp hu o
    have hne : h ≠ [] := by rintro rfl; cases hn
    obtain ⟨h', ⟨m, r⟩, rfl⟩ : ∃ h' q, h = h' ++ [q] := ⟨h.dropLast, h.getLast hne, (List.dropLast_append_getLast hne).symm⟩
    rw [← List.append_assoc] at hf hab hu ⊢
    rw [runServer_concat] at hu ⊢
    have hf' : Spec.SameFold P.D.fold (h0 ++ h') := fun p hp => hf p (List.mem_append_left _ hp)
    have hab' : Spec.NoneAbove P.D.fold path (h0 ++ h') := fun p hp q hq => hab p (List.mem_append_left _ hp) q (List.mem_append_left _ hq)
    have hs := run_store P path _ (h0 ++ h') rfl hf' hab'
    have hh : ∀ a, r.repo = some a → P.D.fold a = P.D.fold path →
        ∀ x ∈ (runServer P .empty (h0 ++ h')).db.refs, pathStartsWith a x.repoPath = true → x.repoPath = a := by
      intro a ha he x hx hp
      obtain ⟨p, hp1, hp2⟩ := run_paths P _ _ rfl x hx
      exact hab p (List.mem_append_left _ hp1) (m, r) (by simp) _ _ hp2 ha he hp
    rw [serve_inRepo hs (hf (m, r) (by simp)) hh (hp (m, r) (by simp)) hu]
    exact ih h' (by simpa using hn) hf' hab' (fun p hq => hp p (by simp [hq])) ((serve_extends P m _ r).unique hu) o

end Gust

import Verif.Lemmas.JsonReply
import Verif.Props.JsonRead

/-! # C132: the replies of the LFS API are JSON texts of what the server found -/

namespace Gust

/-! ## What is read is text -/

theorem text_valid {v : Json} {c : Bytes} (h : v.text = some c) : utf8Valid c = true := by
  cases v with
  | str raw =>
    rw [Json.text, jsonContent] at h
    split at h
    · split at h
      · rename_i hv; cases h; exact hv
      · cases h
    · cases h
  | _ => cases h

theorem int_range {v : Json} {n : Int} (h : v.int = some n) : -2 ^ 63 ≤ n ∧ n < 2 ^ 63 := by
  cases v with
  | num l =>
    rw [Json.int, lexemeI64] at h
    simp only at h
    split at h
    · split at h
      · split at h
        · split at h
          · cases h; omega
          · cases h
        · split at h
          · cases h; omega
          · cases h
      · cases h
    · cases h
  | _ => cases h

theorem need_some {α : Type} {f : Fields} {i : Nat} {k : Bytes} {rd : Json → Option α} {a : α} (h : f.need i k rd = some a) : ∃ v, rd v = some a := by
  rw [Fields.need] at h
  split at h
  · exact ⟨_, h⟩
  · cases h

theorem dflt_text {f : Fields} {i : Nat} {k c : Bytes} (h : f.dflt i k Json.text [] = some c) : utf8Valid c = true := by
  rw [Fields.dflt] at h
  split at h
  · exact text_valid h
  · cases h; rfl
  · cases h

theorem lock_path_valid {s ref path : Bytes} (h : serdeJson.lock s = some (ref, path)) : utf8Valid path = true := by
  change (parseJson s).bind Json.lockRequest = _ at h
  rw [Option.bind_eq_some_iff] at h
  obtain ⟨v, -, h⟩ := h
  rw [Json.lockRequest] at h
  simp only [Option.bind_eq_bind, Option.bind_eq_some_iff] at h
  obtain ⟨f, -, p, hp, r, -, e⟩ := h
  cases e
  obtain ⟨w, hw⟩ := need_some hp
  exact text_valid hw

/-- An entry of a batch request whose strings are strings. -/
structure RequestVars.Clean (o : RequestVars) : Prop where
  oid : utf8Valid o.oid = true
  size : -2 ^ 63 ≤ o.size ∧ o.size < 2 ^ 63
  user : utf8Valid o.user = true
  repo : utf8Valid o.repo = true

theorem vars_clean {v : Json} {o : RequestVars} (h : v.requestVars = some o) : o.Clean := by
  rw [Json.requestVars] at h
  simp only [Option.bind_eq_bind, Option.bind_eq_some_iff] at h
  obtain ⟨f, -, a, ha, b, hb, c, hc, d, -, e, he, g, -, e'⟩ := h
  cases e'
  obtain ⟨w, hw⟩ := need_some ha
  obtain ⟨x, hx⟩ := need_some hb
  exact ⟨text_valid hw, int_range hx, dflt_text hc, dflt_text he⟩

theorem mapM_mem {α β : Type} {f : α → Option β} : ∀ {l : List α} {r : List β}, l.mapM f = some r → ∀ b ∈ r, ∃ a ∈ l, f a = some b
  | [], r, h, b, hb => by cases h; cases hb
  | a :: l, r, h, b, hb => by
    rw [List.mapM_cons] at h
    simp only [Option.bind_eq_bind, Option.bind_eq_some_iff] at h
    obtain ⟨x, hx, y, hy, e⟩ := h
    cases e
    rcases List.mem_cons.1 hb with rfl | hb
    · exact ⟨a, by simp, hx⟩
    · obtain ⟨a', h1, h2⟩ := mapM_mem hy b hb
      exact ⟨a', by simp [h1], h2⟩

theorem batch_clean {s op : Bytes} {objects : List RequestVars} (h : serdeJson.batch s = some (op, objects)) : ∀ o ∈ objects, o.Clean := by
  change (parseJson s).bind Json.batchVars = _ at h
  rw [Option.bind_eq_some_iff] at h
  obtain ⟨v, -, h⟩ := h
  rw [Json.batchVars] at h
  simp only [Option.bind_eq_bind, Option.bind_eq_some_iff] at h
  obtain ⟨f, -, _, -, p, -, os, ho, e⟩ := h
  cases e
  obtain ⟨w, hw⟩ := need_some ho
  cases w with
  | arr l =>
    intro o ho
    obtain ⟨a, -, ha⟩ := mapM_mem (show l.mapM Json.requestVars = _ from hw) o ho
    exact vars_clean ha
  | _ => cases hw

/-! ## What is stored is text -/

/-- All locks can be written. -/
def LockTable.Clean (t : LockTable) : Prop := ∀ k ls, t k = some ls → ∀ l ∈ ls, l.Clean

/-- All rows of `meta` can be written. -/
def MetaTable.Clean (t : MetaTable) : Prop := ∀ k row, t k = some row → utf8Valid row.1 = true ∧ -2 ^ 63 ≤ row.2 ∧ row.2 < 2 ^ 63

theorem setAt_clean {α : Type} {q : α → Prop} {t : Bytes → Option α} {k : Bytes} {o : Option α} (ht : ∀ k x, t k = some x → q x) (ho : ∀ x, o = some x → q x) :
    ∀ k' x, setAt t k o k' = some x → q x := by
  intro k' x h
  rw [setAt_eq] at h
  split at h
  · exact ho x h
  · exact ht k' x h

theorem create_clean {D : DbExt} {t : LockTable} (ht : t.Clean) {r p i n : Bytes} (hp : utf8Valid p = true) (hi : utf8Valid i = true) (hn : utf8Valid n = true) :
    (createLock D t r p i n).2.Clean := by
  rcases createLock_cases D t r p i n with ⟨-, e⟩ | ⟨-, -, e⟩ | ⟨-, t', ha, e⟩
  · rw [e]; exact ht
  · rw [e]; exact ht
  · rw [e]
    obtain ⟨new, rfl, hperm⟩ := addLockWrite_some ha
    refine setAt_clean (q := fun (ls : List Lock) => ∀ l ∈ ls, l.Clean) ht (fun x hx l hl => ?_)
    cases hx
    rcases List.mem_append.1 (hperm.mem_iff.1 hl) with h | h
    · cases e' : t (D.fold r) with
      | none => rw [e'] at h; cases h
      | some ls => rw [e'] at h; exact ht _ _ e' l h
    · rw [List.mem_singleton] at h
      subst h
      exact ⟨hi, hp, hn, fun _ h => by cases h⟩

theorem delete_clean {D : DbExt} {t : LockTable} (ht : t.Clean) {r i : Bytes} {f : Option Bool} :
    (deleteLock D t r i f).2.Clean ∧ ∀ l, (deleteLock D t r i f).1 = .ok l → l.Clean := by
  rcases deleteLock_cases D t r i f with ⟨c, e⟩ | ⟨l, t', hd, e⟩
  · rw [e]; exact ⟨ht, fun _ h => by cases h⟩
  · rw [e]
    obtain ⟨old, h1, -, h2, h3⟩ := deleteLockWrite_some hd
    refine ⟨?_, fun l' h => ?_⟩
    · rcases h3 with ⟨rfl, -⟩ | rfl
      · exact setAt_clean (q := fun (ls : List Lock) => ∀ l ∈ ls, l.Clean) ht (fun x hx => by cases hx)
      · refine setAt_clean (q := fun (ls : List Lock) => ∀ l ∈ ls, l.Clean) ht (fun x hx l hl => ?_)
        cases hx
        exact ht _ _ h1 l (List.mem_filter.1 hl).1
    · cases h
      exact ht _ _ h1 _ (List.mem_filter.1 (List.mem_of_getLast? h2)).1

theorem filtered_clean {D : DbExt} {t : LockTable} (ht : t.Clean) {r p c n : Bytes} {x : List Lock × Bytes} (h : lfsGetFilteredLocks D t r p c n = .ok x) :
    (∀ l ∈ x.1, l.Clean) ∧ utf8Valid x.2 = true := by
  have h0 : ∀ l ∈ (lfsGetLocks D t r).getD [], l.Clean := by
    intro l hl
    rw [lfsGetLocks] at hl
    cases e : t (D.fold r) with
    | none => rw [e] at hl; cases hl
    | some ls => rw [e] at hl; exact ht _ _ e l hl
  unfold lfsGetFilteredLocks at h
  simp only at h
  generalize (lfsGetLocks D t r).getD [] = ls at h h0
  cases e1 : fromCursor ls c with
  | ok ls1 =>
    have h1 : ∀ l ∈ ls1, l.Clean := by
      unfold fromCursor at e1
      split at e1
      · cases e1; exact h0
      · split at e1
        · cases e1; exact fun l hl => h0 l (List.mem_of_mem_drop hl)
        · cases e1
    have h2 : ∀ l ∈ onlyPath ls1 p, l.Clean := by
      unfold onlyPath
      split
      · exact h1
      · exact fun l hl => h1 l (List.mem_filter.1 hl).1
    rw [e1, Res.bind_ok] at h
    generalize onlyPath ls1 p = ls2 at h h2
    unfold cutPage at h
    split at h
    · cases h; exact ⟨h2, rfl⟩
    · split at h
      · cases h
      · simp only at h
        split at h
        · cases h
        · cases h
          refine ⟨fun l hl => h2 l (List.mem_of_mem_take hl), ?_⟩
          simp only
          split
          · generalize hi : (min _ (ls2.length : Int)).toNat = i
            cases e3 : ls2[i]? with
            | none => rfl
            | some l => exact (h2 l (List.mem_of_getElem? e3)).id
          · rfl
  | _ => rw [e1] at h; cases h

theorem push_valid {a b : Bytes} (ha : utf8Valid a = true) (hb : utf8Valid b = true) : utf8Valid (pathJoin a b) = true := by
  unfold pathJoin MetaData.pathPush
  split
  · exact hb
  · split
    · exact utf8Valid_append ha hb
    · exact utf8Valid_append (utf8Valid_append ha (by decide)) hb

theorem link_valid {o : Bytes} {v : RequestVars} (ho : utf8Valid o = true) (hv : v.Clean) : utf8Valid (internalLink o v) = true := by
  have h0 : utf8Valid [] = true := rfl
  have h1 : utf8Valid (if v.user.length > 0 then pathJoin [] v.user else []) = true := by
    split
    · exact push_valid h0 hv.user
    · rfl
  have h2 : utf8Valid (if v.repo.length > 0 then pathJoin (if v.user.length > 0 then pathJoin [] v.user else []) v.repo else (if v.user.length > 0 then pathJoin [] v.user else [])) = true := by
    split
    · exact push_valid h1 hv.repo
    · exact h1
  exact push_valid (push_valid (push_valid h2 ho) (by decide +kernel)) hv.oid

theorem batchOne_clean {D : DbExt} {E : StoreExt} {d : Disk} {t : MetaTable} {up : Bool} {v : RequestVars} (ho : utf8Valid E.origin = true) (ht : t.Clean) (hv : v.Clean) :
    (batchOne D E d t up v).2.Clean ∧ ∀ r, (batchOne D E d t up v).1 = .ok r → r.Clean := by
  have hl := link_valid ho hv
  have key : ∀ put : Res Rep × MetaTable, put = (if up then
      match lfsPutMeta D t v.oid v.size with
      | some (row, m') => (.ok { oid := row.1, size := row.2, offer := .upload (internalLink E.origin v) }, m')
      | none => (.panic, t)
    else (.ok { oid := v.oid, size := v.size, offer := .error 404 }, t)) → put.2.Clean ∧ ∀ r, put.1 = .ok r → r.Clean := by
    rintro _ rfl
    split
    · unfold lfsPutMeta
      cases e : t (D.fold v.oid) with
      | some row => exact ⟨ht, fun r hr => by cases hr; exact ⟨(ht _ _ e).1, (ht _ _ e).2, hl⟩⟩
      | none =>
        simp only
        split
        · rename_i row m' e'
          split at e'
          · cases e'
            refine ⟨setAt_clean (q := fun (row : Bytes × Int) => utf8Valid row.1 = true ∧ -2 ^ 63 ≤ row.2 ∧ row.2 < 2 ^ 63) ht (fun x hx => by cases hx; exact ⟨hv.oid, hv.size⟩), fun r hr => ?_⟩
            cases hr
            exact ⟨hv.oid, hv.size, hl⟩
          · cases e'
        · exact ⟨ht, fun _ h => by cases h⟩
    · exact ⟨ht, fun r hr => by cases hr; exact ⟨hv.oid, hv.size, show 404 < 2 ^ 63 by decide⟩⟩
  unfold batchOne lfsGetMeta
  simp only
  cases e : t (D.fold v.oid) with
  | none => exact key _ rfl
  | some row =>
    simp only
    split
    · exact ⟨ht, fun r hr => by cases hr; exact ⟨(ht _ _ e).1, (ht _ _ e).2, hl⟩⟩
    · exact key _ rfl
    · exact ⟨ht, fun _ h => by cases h⟩

theorem batchLoop_clean {D : DbExt} {E : StoreExt} {d : Disk} {up : Bool} (ho : utf8Valid E.origin = true) : ∀ (vs : List RequestVars) (t : MetaTable), t.Clean → (∀ v ∈ vs, v.Clean) →
    (batchLoop D E d up vs t).2.Clean ∧ ∀ rs, (batchLoop D E d up vs t).1 = .ok rs → ∀ r ∈ rs, r.Clean
  | [], t, ht, _ => ⟨ht, fun rs h r hr => by cases h; cases hr⟩
  | v :: vs, t, ht, hv => by
    obtain ⟨h1, h2⟩ := batchOne_clean (D := D) (d := d) (up := up) ho ht (hv v (by simp))
    rw [batchLoop]
    split
    · rename_i r m1 e
      rw [e] at h1 h2
      obtain ⟨h3, h4⟩ := batchLoop_clean (D := D) (d := d) (up := up) ho vs m1 h1 (fun x hx => hv x (by simp [hx]))
      split
      · rename_i rs m2 e'
        rw [e'] at h3 h4
        refine ⟨h3, fun rs' h x hx => ?_⟩
        cases h
        rcases List.mem_cons.1 hx with rfl | hx
        · exact h2 _ rfl
        · exact h4 _ rfl x hx
      · rename_i m2 _ e'
        rw [e'] at h3
        exact ⟨h3, fun _ h => by cases h⟩
    · rename_i m1 _ e
      rw [e] at h1
      exact ⟨h1, fun _ h => by cases h⟩

/-- Everything that is stored can be written. -/
def Tidy (s : ServerState) : Prop := s.locks.Clean ∧ s.lfs.metas.Clean

/-- A moment at which the random number generator and the clock give texts. -/
def Spec.Texts (m : Moment) : Prop := utf8Valid m.lockId = true ∧ utf8Valid m.now = true

theorem serve_clean (P : ServerExt) (hJ : P.J = serdeJson) (ho : utf8Valid P.S.origin = true) (m : Moment) (hm : Spec.Texts m) (s : ServerState) (hs : Tidy s) (r : HttpReq) :
    Tidy (serve P m s r).2 ∧ ∀ p, (serve P m s r).1 = .reply (.ok p) → (∀ b, p ≠ .bytes b) → p.Clean := by
  have bytes : ∀ {o : Outcome} {p : Payload}, (∀ q, o = .reply (.ok q) → ∃ b, q = .bytes b) → o = .reply (.ok p) → (∀ b, p ≠ .bytes b) → p.Clean := by
    intro o p h1 h2 h3
    obtain ⟨b, rfl⟩ := h1 p h2
    exact absurd rfl (h3 b)
  unfold serve
  split
  · rename_i oid _
    refine ⟨⟨hs.1, ?_⟩, fun p => bytes (fun q hq => ?_)⟩
    · have : (downloadObject P.D P.S s.lfs oid).2.metas = s.lfs.metas := by
        unfold downloadObject
        simp only
        split
        · rfl
        · split <;> rfl
      show MetaTable.Clean (downloadObject P.D P.S s.lfs oid).2.metas
      rw [this]; exact hs.2
    · cases e : (downloadObject P.D P.S s.lfs oid).1 <;> simp only [e, Reply.outcome] at hq <;> cases hq
      exact ⟨_, rfl⟩
  · refine ⟨hs, fun p hp _ => ?_⟩
    have key : ∀ x, retrieveLock P.D s.locks r.query = .ok x → (∀ l ∈ x.1, l.Clean) ∧ utf8Valid x.2 = true := by
      intro x hx
      unfold retrieveLock at hx
      simp only at hx
      split at hx
      · cases hx; rename_i e; exact filtered_clean hs.1 e
      · cases hx
      · cases hx
    cases e : retrieveLock P.D s.locks r.query <;> simp only [e, Reply.outcome] at hp <;> cases hp
    exact key _ e
  · rename_i repo service _
    refine ⟨hs, fun p => bytes (fun q hq => ?_)⟩
    cases e : (advertise P.X m.sql .http service s.db repo).1 <;> simp only [e, Res.outcome] at hq <;> cases hq
    exact ⟨_, rfl⟩
  · split
    · exact ⟨hs, fun p h => by cases h⟩
    · rename_i ref cursor limit _
      refine ⟨hs, fun p hp _ => ?_⟩
      have key : ∀ x, verifyLock P.D s.locks ref cursor limit = .ok x → (∀ l ∈ x.ours, l.Clean) ∧ (∀ l ∈ x.theirs, l.Clean) ∧ utf8Valid x.next = true := by
        intro x hx
        unfold verifyLock at hx
        simp only at hx
        split at hx
        · cases hx
          rename_i e
          obtain ⟨h1, h2⟩ := filtered_clean hs.1 e
          exact ⟨fun l hl => h1 l (List.mem_filter.1 hl).1, fun l hl => h1 l (List.mem_filter.1 hl).1, h2⟩
        · cases hx
        · cases hx
      cases e : verifyLock P.D s.locks ref cursor limit <;> simp only [e, Reply.outcome] at hp <;> cases hp
      exact key _ e
  · split
    · exact ⟨hs, fun p h => by cases h⟩
    · rename_i ref path hb
      rw [hJ] at hb
      have hp := lock_path_valid hb
      refine ⟨⟨create_clean hs.1 hp hm.1 hm.2, hs.2⟩, fun p h _ => ?_⟩
      rcases createLock_cases P.D s.locks ref path m.lockId m.now with ⟨-, e⟩ | ⟨-, -, e⟩ | ⟨-, t', ha, e⟩
      · simp only [e, Reply.outcome] at h; cases h
      · simp only [e, Reply.outcome] at h; cases h
      · simp only [e, Reply.outcome] at h; cases h
        exact ⟨hm.1, hp, hm.2, fun _ h => by cases h⟩
  · rename_i id _
    split
    · exact ⟨hs, fun p h => by cases h⟩
    · split
      · exact ⟨hs, fun p h => by cases h⟩
      · rename_i ref force _
        obtain ⟨h1, h2⟩ := delete_clean (D := P.D) (r := ref) (i := id) (f := force) hs.1
        refine ⟨⟨h1, hs.2⟩, fun p h _ => ?_⟩
        cases e : (deleteLock P.D s.locks ref id force).1 <;> simp only [e, Reply.outcome] at h <;> cases h
        exact h2 _ e
  · split
    · exact ⟨hs, fun p h => by cases h⟩
    · rename_i op objects hb
      rw [hJ] at hb
      have hc := batch_clean hb
      have key : (processBatch P.D P.S s.lfs op objects).2.metas.Clean ∧ ∀ rs, (processBatch P.D P.S s.lfs op objects).1 = .ok rs → ∀ r ∈ rs, r.Clean := by
        unfold processBatch
        simp only
        split
        · exact ⟨hs.2, fun _ h => by cases h⟩
        · obtain ⟨h1, h2⟩ := batchLoop_clean (D := P.D) (d := (storeNew P.S s.lfs.disk).1) (up := op == ascii "upload") ho objects s.lfs.metas hs.2 hc
          refine ⟨h1, fun rs hrs => h2 rs ?_⟩
          cases e : (batchLoop P.D P.S (storeNew P.S s.lfs.disk).1 (op == ascii "upload") objects s.lfs.metas).1 <;> simp only [e, Res.toReply] at hrs <;> cases hrs
          rfl
      refine ⟨⟨hs.1, key.1⟩, fun p h _ => ?_⟩
      cases e : (processBatch P.D P.S s.lfs op objects).1 <;> simp only [e, Reply.outcome] at h <;> cases h
      exact key.2 _ e
  · rename_i repo _
    refine ⟨hs, fun p => bytes (fun q hq => ?_)⟩
    cases e : httpUploadPack (mysqlFetch P.X m.sql m.fuel s.db repo) m.ord m.cut r.body <;> simp only [e, Res.outcome] at hq <;> cases hq
    exact ⟨_, rfl⟩
  · rename_i repo _
    refine ⟨hs, fun p => bytes (fun q hq => ?_)⟩
    cases e : httpReceivePack (mysqlPush P.X m.sql m.fuel) { caps := [], commands := [], path := repo, db := s.db } r.body <;> simp only [e, Res.outcome] at hq <;> cases hq
    exact ⟨_, rfl⟩
  · rename_i oid _
    have hmt : (uploadObject P.D P.S s.lfs oid r.body).2.metas.Clean := by
      unfold uploadObject
      simp only
      split
      · exact hs.2
      · split
        · exact hs.2
        · split
          · exact hs.2
          · exact setAt_clean (q := fun (row : Bytes × Int) => utf8Valid row.1 = true ∧ -2 ^ 63 ≤ row.2 ∧ row.2 < 2 ^ 63) hs.2 (fun x hx => by cases hx)
          · exact hs.2
    refine ⟨⟨hs.1, hmt⟩, fun p => bytes (fun q hq => ?_)⟩
    cases e : (uploadObject P.D P.S s.lfs oid r.body).1 <;> simp only [e, Reply.outcome] at hq <;> cases hq
    exact ⟨_, rfl⟩
  all_goals exact ⟨hs, fun p h => by cases h⟩

theorem empty_tidy : Tidy .empty := by constructor <;> intro k x h <;> cases h

theorem run_tidy (P : ServerExt) (hJ : P.J = serdeJson) (ho : utf8Valid P.S.origin = true) : ∀ (h : List (Moment × HttpReq)) (s : ServerState), Tidy s → (∀ p ∈ h, Spec.Texts p.1) →
    Tidy (runServer P s h)
  | [], _, hs, _ => hs
  | (m, r) :: h, s, hs, hm => run_tidy P hJ ho h _ (serve_clean P hJ ho m (hm (m, r) (by simp)) s hs r).1 (fun p hp => hm p (by simp [hp]))

/-- **C132**: whatever requests a new server has served, every successful reply about locks and large files is the text of exactly one JSON value, and this value shows what the server found. -/
theorem C132_reply (P : ServerExt) (hJ : P.J = serdeJson) (ho : utf8Valid P.S.origin = true) (h : List (Moment × HttpReq)) (hm : ∀ p ∈ h, Spec.Texts p.1) (m : Moment) (hm' : Spec.Texts m)
    (r : HttpReq) (p : Payload) (hok : (serve P m (runServer P .empty h) r).1 = .reply (.ok p)) (hp : ∀ b, p ≠ .bytes b) (expires : Bytes) (he : utf8Valid expires = true) :
    ∃ v, Spec.JsonDoc v (replyText expires p) ∧ Spec.ShowsReply expires v p ∧ ∀ v', Spec.JsonDoc v' (replyText expires p) → v' = v := by
  have hc := (serve_clean P hJ ho m hm' _ (run_tidy P hJ ho h _ empty_tidy hm) r).2 p hok hp
  obtain ⟨v, hv, hs⟩ := shows_reply he hc
  have hd : Spec.JsonDoc v (replyText expires p) := ⟨[], _, [], ws_nil, hv, ws_nil, by simp⟩
  exact ⟨v, hd, hs, fun v' h' => doc_unique h' hd⟩

/-! ## A client reads what was meant -/

theorem isText_unique {v : Json} {a b : Bytes} (h : Spec.IsText v a) (h' : Spec.IsText v b) : a = b := by
  obtain ⟨r, rfl, h1⟩ := h
  obtain ⟨r', e, h2⟩ := h'
  cases e
  exact reads_unique h1 h2

theorem isInt_unique {v : Json} {a b : Int} (hw : v.Written) (h : Spec.IsInt v a) (h' : Spec.IsInt v b) : a = b := by
  have := (int_iff hw a).2 h
  rw [(int_iff hw b).2 h'] at this
  cases this; rfl

theorem lacks_not_says {l : List (Bytes × Json)} {k : Bytes} {v : Json} (h : Spec.Lacks l k) (h' : Spec.Says l k v) : False := by
  obtain ⟨pre, raw, post, rfl, hr, -⟩ := h'
  exact h (raw, v) (by simp) hr

theorem owner_unique {l : List (Bytes × Json)} {k : Bytes} {a b : Option Bytes} (h : Spec.MaySay l k Spec.IsRef a) (h' : Spec.MaySay l k Spec.IsRef b) : a = b := by
  cases a with
  | none =>
    cases b with
    | none => rfl
    | some y =>
      obtain ⟨w, hw, lr, x, rfl, -⟩ := h'
      rcases h with h | h
      · exact (lacks_not_says h hw).elim
      · cases says_unique h hw
  | some x =>
    obtain ⟨w, hw, lr, x', rfl, h1, h2, h3⟩ := h
    cases b with
    | none =>
      rcases h' with h | h
      · exact (lacks_not_says h hw).elim
      · cases says_unique h hw
    | some y =>
      obtain ⟨w', hw', lr', x'', rfl, h1', h2', h3'⟩ := h'
      cases says_unique hw hw'
      cases says_unique h2 h2'
      rw [isText_unique h3 h3']

theorem showsLock_unique {v : Json} {a b : Lock} (h : Spec.ShowsLock v a) (h' : Spec.ShowsLock v b) : a = b := by
  obtain ⟨ms, i, p, t, rfl, -, h1, h2, h3, h4, h5, h6, h7⟩ := h
  obtain ⟨ms', i', p', t', e, -, g1, g2, g3, g4, g5, g6, g7⟩ := h'
  cases e
  cases says_unique h1 g1
  cases says_unique h3 g3
  cases says_unique h5 g5
  obtain ⟨a1, a2, a3, a4⟩ := a
  obtain ⟨b1, b2, b3, b4⟩ := b
  simp only at h2 h4 h6 h7 g2 g4 g6 g7
  rw [isText_unique h2 g2, isText_unique h4 g4, isText_unique h6 g6, owner_unique h7 g7]

theorem forall_unique {α : Type} {p : Json → α → Prop} {vs : List Json} {l l' : List α} (hp : ∀ v ∈ vs, ∀ a b, p v a → p v b → a = b) (h : List.Forall₂ p vs l) (h' : List.Forall₂ p vs l') :
    l = l' := by
  induction h generalizing l' with
  | nil => cases h'; rfl
  | cons hx _ ih =>
    cases h' with
    | cons hy hl => rw [hp _ (by simp) _ _ hx hy, ih (fun v hv => hp v (by simp [hv])) hl]

theorem showsLocks_unique {v : Json} {a b : List Lock} (h : Spec.ShowsLocks v a) (h' : Spec.ShowsLocks v b) : a = b := by
  obtain ⟨vs, rfl, h1⟩ := h
  obtain ⟨vs', e, h2⟩ := h'
  cases e
  exact forall_unique (p := Spec.ShowsLock) (fun v _ a b h h' => showsLock_unique h h') h1 h2

theorem showsLink_unique {v : Json} {a b e : Bytes} (h : Spec.ShowsLink v a e) (h' : Spec.ShowsLink v b e) : a = b := by
  obtain ⟨ms, x, y, rfl, -, h1, h2, -⟩ := h
  obtain ⟨ms', x', y', e, -, g1, g2, -⟩ := h'
  cases e
  cases says_unique h1 g1
  exact isText_unique h2 g2

theorem showsOffer_unique {ms : List (Bytes × Json)} {e : Bytes} {a b : Offer} (hw : (Json.obj ms).Written) (h : Spec.ShowsOffer ms e a) (h' : Spec.ShowsOffer ms e b) : a = b := by
  cases a with
  | download x =>
    obtain ⟨h1, as, k, h2, -, h3, h4, h5⟩ := h
    cases b with
    | download y =>
      obtain ⟨-, as', k', g2, -, g3, g4, -⟩ := h'
      cases says_unique h2 g2
      cases says_unique h3 g3
      rw [showsLink_unique h4 g4]
    | upload y =>
      obtain ⟨-, as', k', g2, -, g3, -⟩ := h'
      cases says_unique h2 g2
      exact (lacks_not_says h5 g3).elim
    | error c =>
      obtain ⟨g1, -⟩ := h'
      exact (lacks_not_says g1 h2).elim
  | upload x =>
    obtain ⟨h1, as, k, h2, -, h3, h4, h5⟩ := h
    cases b with
    | download y =>
      obtain ⟨-, as', k', g2, -, g3, -⟩ := h'
      cases says_unique h2 g2
      exact (lacks_not_says h5 g3).elim
    | upload y =>
      obtain ⟨-, as', k', g2, -, g3, g4, -⟩ := h'
      cases says_unique h2 g2
      cases says_unique h3 g3
      rw [showsLink_unique h4 g4]
    | error c =>
      obtain ⟨g1, -⟩ := h'
      exact (lacks_not_says g1 h2).elim
  | error x =>
    obtain ⟨h1, es, c, m, h2, -, h3, h4, -⟩ := h
    cases b with
    | error y =>
      obtain ⟨-, es', c', m', g2, -, g3, g4, -⟩ := h'
      cases says_unique h2 g2
      cases says_unique h3 g3
      have := isInt_unique (says_written (says_written hw h2) h3) h4 g4
      rw [Int.ofNat_inj.1 this]
    | download y =>
      obtain ⟨-, as', k', g2, -⟩ := h'
      exact (lacks_not_says h1 g2).elim
    | upload y =>
      obtain ⟨-, as', k', g2, -⟩ := h'
      exact (lacks_not_says h1 g2).elim

theorem showsRep_unique {v : Json} {e : Bytes} {a b : Rep} (hw : v.Written) (h : Spec.ShowsRep e v a) (h' : Spec.ShowsRep e v b) : a = b := by
  obtain ⟨ms, i, z, rfl, -, h1, h2, h3, h4, h5⟩ := h
  obtain ⟨ms', i', z', e', -, g1, g2, g3, g4, g5⟩ := h'
  cases e'
  cases says_unique h1 g1
  cases says_unique h3 g3
  obtain ⟨a1, a2, a3⟩ := a
  obtain ⟨b1, b2, b3⟩ := b
  simp only at h2 h4 h5 g2 g4 g5
  rw [isText_unique h2 g2, isInt_unique (says_written hw h3) h4 g4, showsOffer_unique hw h5 g5]

/-- Replies to the same kind of request. -/
def Spec.SameKind : Payload → Payload → Prop
  | .lock _, .lock _ => True
  | .locks _ _, .locks _ _ => True
  | .verified _, .verified _ => True
  | .objects _, .objects _ => True
  | _, _ => False

/-- **C132**, nothing else: a client that knows what it has asked for can read a reply in one way only. -/
theorem C132_faithful (expires : Bytes) (v : Json) (s : Bytes) (hd : Spec.JsonDoc v s) (p p' : Payload) (hk : Spec.SameKind p p') (h : Spec.ShowsReply expires v p)
    (h' : Spec.ShowsReply expires v p') : p = p' := by
  have hw := doc_written hd
  cases p with
  | bytes b => exact h.elim
  | lock l =>
    cases p' with
    | lock l' =>
      obtain ⟨ms, k, rfl, -, h1, h2⟩ := h
      obtain ⟨ms', k', e, -, g1, g2⟩ := h'
      cases e
      cases says_unique h1 g1
      rw [showsLock_unique h2 g2]
    | _ => exact hk.elim
  | locks l n =>
    cases p' with
    | locks l' n' =>
      obtain ⟨ms, k, x, rfl, -, h1, h2, h3, h4⟩ := h
      obtain ⟨ms', k', x', e, -, g1, g2, g3, g4⟩ := h'
      cases e
      cases says_unique h1 g1
      cases says_unique h3 g3
      rw [showsLocks_unique h2 g2, isText_unique h4 g4]
    | _ => exact hk.elim
  | verified a =>
    cases p' with
    | verified b =>
      obtain ⟨ms, o, t, x, rfl, -, h1, h2, h3, h4, h5, h6⟩ := h
      obtain ⟨ms', o', t', x', e, -, g1, g2, g3, g4, g5, g6⟩ := h'
      cases e
      cases says_unique h1 g1
      cases says_unique h3 g3
      cases says_unique h5 g5
      obtain ⟨a1, a2, a3⟩ := a
      obtain ⟨b1, b2, b3⟩ := b
      simp only at h2 h4 h6 g2 g4 g6
      rw [showsLocks_unique h2 g2, showsLocks_unique h4 g4, isText_unique h6 g6]
    | _ => exact hk.elim
  | objects rs =>
    cases p' with
    | objects rs' =>
      obtain ⟨ms, t, vs, rfl, -, h1, h2, h3, h4⟩ := h
      obtain ⟨ms', t', vs', e, -, g1, g2, g3, g4⟩ := h'
      cases e
      cases says_unique h3 g3
      have hv := arr_written (says_written hw h3)
      rw [forall_unique (p := Spec.ShowsRep expires) (fun v hm a b h h' => showsRep_unique (hv v hm) h h') h4 g4]
    | _ => exact hk.elim

/-! ## Examples -/

/-- A server whose database has room for everything. -/
def jsonServer (X : Ext) : ServerExt :=
  { X := X, D := demoDb, S := { digest := id, maxWrite := 1000, base := ascii "lfs", origin := ascii "http://localhost:8000" }, J := serdeJson }

/-- A path with a quotation mark, a backslash and a line feed: `a"b\c` and a line feed. -/
def trickyPath : Bytes := ascii "a\"b\\c\n"

/-- The request for a lock of this path, as a client writes it. -/
def trickyBody : Bytes := ascii "{\"path\":\"a\\\"b\\\\c\\u000A\",\"ref\":{\"name\":\"refs/heads/main\"}}"

theorem tricky_body : Spec.LockBody trickyBody (ascii "refs/heads/main") trickyPath := lockBody_of (by decide +kernel) (by decide +kernel)

/-- The moment at which it comes. -/
def trickyMoment (m : Moment) : Moment := { m with lockId := ascii "7", now := ascii "2023" }

theorem tricky_reply (X : Ext) (m : Moment) (u : Bytes) : (serve (jsonServer X) (trickyMoment m) .empty ((Spec.LfsAsk.lock trickyBody).to u)).1 =
    .reply (.ok (.lock (newLock trickyPath (ascii "7") (ascii "2023")))) := by
  rw [serve_call _ rfl _ _ _ (.lock (ascii "refs/heads/main") trickyPath) (.lock trickyBody) tricky_body]
  show (createLock demoDb noLocks (ascii "refs/heads/main") trickyPath (ascii "7") (ascii "2023")).1.outcome .lock = _
  have : (createLock demoDb noLocks (ascii "refs/heads/main") trickyPath (ascii "7") (ascii "2023")).1 = .ok (newLock trickyPath (ascii "7") (ascii "2023")) := by decide +kernel
  rw [this]; rfl

/-- The reply to the request: one JSON value, which shows the path. -/
example (X : Ext) (m : Moment) (u : Bytes) : ∃ v, Spec.JsonDoc v (replyText [] (.lock (newLock trickyPath (ascii "7") (ascii "2023")))) ∧
    Spec.ShowsReply [] v (.lock (newLock trickyPath (ascii "7") (ascii "2023"))) := by
  obtain ⟨v, h1, h2, -⟩ := C132_reply (jsonServer X) rfl (by decide +kernel : utf8Valid (ascii "http://localhost:8000") = true) [] (by simp) (trickyMoment m) ⟨(by decide +kernel : utf8Valid (ascii "7") = true), (by decide +kernel : utf8Valid (ascii "2023") = true)⟩
    _ _ (tricky_reply X m u) (by intro b h; cases h) [] rfl
  exact ⟨v, h1, h2⟩

/-- The text of the reply. -/
example : replyText [] (.lock (newLock trickyPath (ascii "7") (ascii "2023"))) =
    ascii "{\"lock\":{\"id\":\"7\",\"path\":\"a\\\"b\\\\c\\n\",\"locked_at\":\"2023\",\"owner\":null},\"message\":\"\"}" := by decide +kernel

/-- The text of a batch reply. -/
example : replyText (ascii "2024") (.objects [{ oid := ascii "ab", size := 12, offer := .upload (ascii "http://h/objects/ab") }, { oid := ascii "cd", size := -3, offer := .error 404 }]) =
    ascii ("{\"transfer\":\"basic\",\"objects\":[{\"oid\":\"ab\",\"size\":12,\"authenticated\":true,\"actions\":{\"upload\":{\"href\":\"http://h/objects/ab\"," ++
      "\"header\":{\"Accept\":\"application/vnd.git-lfs\"},\"expires_at\":\"2024\"}}},{\"oid\":\"cd\",\"size\":-3,\"error\":{\"code\":404,\"message\":\"Not found\"}}],\"hash_algo\":\"sha256\"}") := by
  decide +kernel

/-- Two requests for the same lock, written differently: the second one meets the first. -/
example (X : Ext) (m m' : Moment) (u v : Bytes) :
    (serve (jsonServer X) m' (serve (jsonServer X) (trickyMoment m) .empty ((Spec.LfsAsk.lock trickyBody).to u)).2 ((Spec.LfsAsk.lock (ascii " " ++ trickyBody)).to v)).1 = .reply (.status 409) :=
  (C131_lock_partial (jsonServer X) rfl (trickyMoment m) .empty u trickyBody (ascii "refs/heads/main") trickyPath _ tricky_body (tricky_reply X m u)).2 [] m' v (ascii " " ++ trickyBody) (by simp)
    (lockBody_of (by decide +kernel) (by decide +kernel))

/-! ## A batch request -/

/-- `{"operation":"upload","transfers":["basic"],"objects":[{"size":12,"oid":"ab"}]}` -/
def smallBatchBody : Bytes := ascii "{\"operation\":\"upload\",\"transfers\":[\"basic\"],\"objects\":[{\"size\":12,\"oid\":\"ab\"}]}"

theorem small_batch : Spec.BatchBody smallBatchBody (ascii "upload") [{ oid := ascii "ab", size := 12 }] := by
  have hg : GoodKeys [ascii "operation", ascii "transfers", ascii "objects"] := by unfold GoodKeys; decide +kernel
  have hu : GoodKeys [ascii "size", ascii "oid"] := by unfold GoodKeys; decide +kernel
  have v1 : utf8Valid (ascii "upload") = true := by decide +kernel
  have v2 : utf8Valid (ascii "basic") = true := by decide +kernel
  have v3 : utf8Valid (ascii "ab") = true := by decide +kernel
  have hi := int_text 12 (by omega)
  have ho := obj_at [(ascii "size", jsonInt 12, .num (jsonInt 12)), (ascii "oid", jsonText (ascii "ab"), .str (rawText (ascii "ab")))] hu (by
    intro m hm
    simp only [List.mem_cons, List.not_mem_nil, or_false] at hm
    rcases hm with rfl | rfl
    exacts [hi.1, text_text _ v3])
  have h1 := arr_text [(jsonText (ascii "basic"), .str (rawText (ascii "basic")))] (by
    intro m hm
    rw [List.mem_singleton] at hm
    subst hm
    exact text_text _ v2)
  have h2 := arr_text [(_, _)] (by
    intro m hm
    rw [List.mem_singleton] at hm
    subst hm
    exact ho)
  have hd := obj_at [(ascii "operation", jsonText (ascii "upload"), .str (rawText (ascii "upload"))), (ascii "transfers", _, _), (ascii "objects", _, _)] hg (by
    intro m hm
    simp only [List.mem_cons, List.not_mem_nil, or_false] at hm
    rcases hm with rfl | rfl | rfl
    exacts [text_text _ v1, h1, h2])
  refine ⟨_, _, _, _, ⟨[], _, [], ws_nil, hd, ws_nil, by decide +kernel⟩, names_at hg, says_at hg 1 rfl, ?_, says_at hg 0 rfl, text_is _ v1, says_at hg 2 rfl, .cons ?_ .nil⟩
  · intro t ht
    rw [List.map_cons, List.map_nil, List.mem_singleton] at ht
    subst ht
    exact ⟨_, text_is _ v2⟩
  · exact ⟨_, _, _, rfl, names_at hu, says_at hu 1 rfl, text_is _ v3, says_at hu 0 rfl, hi.2, .inr ⟨lacks_at hu (by decide +kernel), rfl⟩, ⟨[], .inr ⟨lacks_at hu (by decide +kernel), rfl⟩⟩,
      .inr ⟨lacks_at hu (by decide +kernel), rfl⟩, ⟨[], .inr ⟨lacks_at hu (by decide +kernel), rfl⟩⟩⟩

end Gust

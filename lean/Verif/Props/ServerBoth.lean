import Verif.Props.ServerGet
import Verif.Props.OptionsBoth
import Verif.Props.Again

/-! # C75, C76 and C79 over HTTP and SSH together -/

namespace Gust

/-! ## C75 -/

/-- A git request over HTTP, or any SSH message. -/
def Spec.GitVisit : Visit → Prop
  | .http r => Spec.GitUrl r
  | .ssh _ _ => True

/-- A request over HTTP about locks. -/
def Spec.LockVisit : Visit → Prop
  | .http r => Spec.LockUrl r
  | .ssh _ _ => False

/-- A request over HTTP about LFS objects. -/
def Spec.ObjectVisit : Visit → Prop
  | .http r => Spec.ObjectUrl r
  | .ssh _ _ => False

open Classical in
/-- Leaving out what does not change what is looked at. -/
theorem runBoth_filter {α : Type} (P : ServerExt) (f : Both → α) (K : Visit → Prop)
    (hk : ∀ m s v, ¬ K v → f (bothStep P m s v) = f s) (hc : ∀ m s t v, f s = f t → f (bothStep P m s v) = f (bothStep P m t v)) :
    ∀ (h : BothHist) (s t : Both), f s = f t → f (runBoth P s h) = f (runBoth P t (h.filter (fun p => K p.2)))
  | [], _, _, e => e
  | (m, r) :: h, s, t, e => by
    by_cases hr : K r
    · rw [List.filter_cons_of_pos (by simpa using hr)]
      exact runBoth_filter P f K hk hc h _ _ (hc m s t r e)
    · rw [List.filter_cons_of_neg (by simpa using hr)]
      exact runBoth_filter P f K hk hc h _ _ ((hk m s r hr).trans e)

/-- What git requests and SSH messages depend on. -/
theorem git_filter (P : ServerExt) (h : BothHist) (s : Both) : open Classical in
    ((runBoth P s h).web.db, (runBoth P s h).link) =
      ((runBoth P s (h.filter (fun p => Spec.GitVisit p.2))).web.db, (runBoth P s (h.filter (fun p => Spec.GitVisit p.2))).link) := by
  refine runBoth_filter P (fun s => (s.web.db, s.link)) Spec.GitVisit ?_ ?_ h s s rfl
  · intro m s v hv
    cases v with
    | http r => exact Prod.ext (serve_db_other hv) rfl
    | ssh i e => exact absurd trivial hv
  · intro m s t v e
    obtain ⟨e1, e2⟩ := Prod.mk.inj e
    cases v with
    | http r => exact Prod.ext (serve_db_congr e1) e2
    | ssh i e =>
      have : s.ssh = t.ssh := by
        simp only [Both.ssh, e1, e2]
      simp only [bothStep, this]

open Classical in
/-- **C75** Every git request over HTTP and every SSH message, in every history of both servers, is answered as if there had been no requests about locks or LFS objects. -/
theorem C75_git_both (P : ServerExt) (s : Both) (h : BothHist) (m : Moment) :
    (∀ (r : HttpReq) (a : Bytes), r.repo = some a → (serve P m (runBoth P s h).web r).1 = (serve P m (runBoth P s (h.filter (fun p => Spec.GitVisit p.2))).web r).1) ∧
    ∀ i e, (sshStep P.X m (runBoth P s h).ssh i e).1 = (sshStep P.X m (runBoth P s (h.filter (fun p => Spec.GitVisit p.2))).ssh i e).1 := by
  obtain ⟨e1, e2⟩ := Prod.mk.inj (git_filter P h s)
  refine ⟨fun r a hr => (serve_git_congr hr e1).1, fun i e => ?_⟩
  have : (runBoth P s h).ssh = (runBoth P s (h.filter (fun p => Spec.GitVisit p.2))).ssh := by
    simp only [Both.ssh, e1, e2]
  rw [this]

open Classical in
/-- **C75** Every lock request in every history of both servers is answered as if there had been no SSH messages and no requests of git or about LFS objects. -/
theorem C75_locks_both (P : ServerExt) (s : Both) (h : BothHist) (m : Moment) (r : HttpReq)
    (hr : route r.method r.path r.service = .createLock ∨ (∃ id, route r.method r.path r.service = .deleteLock id) ∨
      route r.method r.path r.service = .listLocks ∨ route r.method r.path r.service = .verifyLocks) :
    (serve P m (runBoth P s h).web r).1 = (serve P m (runBoth P s (h.filter (fun p => Spec.LockVisit p.2))).web r).1 := by
  have e : (runBoth P s h).web.locks = (runBoth P s (h.filter (fun p => Spec.LockVisit p.2))).web.locks := by
    refine runBoth_filter P (·.web.locks) Spec.LockVisit ?_ ?_ h s s rfl
    · intro m s v hv
      cases v with
      | http r => exact serve_locks_other hv
      | ssh i e => rfl
    · intro m s t v e
      cases v with
      | http r => exact serve_locks_congr e
      | ssh i e' => exact e
  unfold serve
  rcases hr with h | ⟨id, h⟩ | h | h <;> rw [h] <;> simp only [e]
  · split <;> rfl
  · split
    · rfl
    · split <;> rfl
  · split <;> rfl

open Classical in
/-- **C75** Every request about LFS objects in every history of both servers is answered as if there had been no SSH messages and no requests of git or about locks. -/
theorem C75_objects_both (P : ServerExt) (s : Both) (h : BothHist) (m : Moment) (r : HttpReq)
    (hr : (∃ oid, route r.method r.path r.service = .download oid) ∨ route r.method r.path r.service = .batch ∨
      ∃ oid, route r.method r.path r.service = .upload oid) :
    (serve P m (runBoth P s h).web r).1 = (serve P m (runBoth P s (h.filter (fun p => Spec.ObjectVisit p.2))).web r).1 := by
  have e : (runBoth P s h).web.lfs = (runBoth P s (h.filter (fun p => Spec.ObjectVisit p.2))).web.lfs := by
    refine runBoth_filter P (·.web.lfs) Spec.ObjectVisit ?_ ?_ h s s rfl
    · intro m s v hv
      cases v with
      | http r => exact serve_lfs_other hv
      | ssh i e => rfl
    · intro m s t v e
      cases v with
      | http r => exact serve_lfs_congr e
      | ssh i e' => exact e
  unfold serve
  rcases hr with ⟨oid, h⟩ | h | ⟨oid, h⟩ <;> rw [h] <;> simp only [e]
  split <;> rfl

/-- C75: whatever was locked and uploaded before, somebody who logs in over SSH and asks for the refs of `/app` is answered as on a server where nothing else happened. -/
example (locks : List (Moment × HttpReq)) (hl : ∀ p ∈ locks, ¬ Spec.GitUrl p.2) :
    (sshStep polyExt demoMoment (runBoth demoServer .empty (locks.map (fun p => (p.1, .http p.2)) ++ [(demoMoment, .ssh 1 logIn)])).ssh 1 (askFor .uploadPack 0 (ascii "/app"))).1 =
      (sshStep polyExt demoMoment (runBoth demoServer .empty [(demoMoment, .ssh 1 logIn)]).ssh 1 (askFor .uploadPack 0 (ascii "/app"))).1 := by
  classical
  have key := (C75_git_both demoServer .empty (locks.map (fun p => (p.1, Visit.http p.2)) ++ [(demoMoment, .ssh 1 logIn)]) demoMoment).2 1 (askFor .uploadPack 0 (ascii "/app"))
  rw [List.filter_append, List.filter_eq_nil_iff.2, List.nil_append] at key
  · rw [List.filter_eq_self.2] at key
    · exact key
    · intro x hx
      obtain rfl := List.mem_singleton.1 hx
      exact decide_eq_true trivial
  · intro x hx
    obtain ⟨p, hp, rfl⟩ := List.mem_map.1 hx
    exact fun hd => hl p hp (of_decide_eq_true hd)

/-! ## C76 -/

/-- A command that does not apply. -/
theorem handleRefs_stale {E : SqlExt} {db : Db} {path : Bytes} {c : Spec.PushCmd} (h : ¬ Spec.Applies E.fold db path c) (db1 : Db) (hr : db1.refs = db.refs) :
    handleRefs E { RefCommand.new c.old c.new (c.name ++ [0]) with ok := true } path db1 = (.panic, db1) := by
  have hold : c.old ≠ zeroId := fun e => h (.inl e)
  by_cases hnew : c.new = zeroId
  · have hk : (RefCommand.new c.old c.new (c.name ++ [0])).commandType = .delete := by
      simp only [RefCommand.new]
      rw [if_neg (fun h => hold h.symm), if_pos hnew.symm]
    simp only [handleRefs, hk]
  · have hk : (RefCommand.new c.old c.new (c.name ++ [0])).commandType = .update := by
      simp only [RefCommand.new]
      rw [if_neg (fun h => hold h.symm), if_neg (fun h => hnew h.symm)]
    rcases C53_update_scope_partial E { RefCommand.new c.old c.new (c.name ++ [0]) with ok := true } path db1 hk with ⟨pre, r, post, q1, q2, q3, _⟩ | ⟨_, q⟩
    · exact absurd (.inr ⟨hnew, r, by rw [← hr, q1]; simp, q2, q3⟩) h
    · exact q

/-- What a push that is too late leaves in the database. -/
theorem late_saved {P : ServerExt} (hfold : ∀ a b : Hash, P.D.fold (Hash.toPlainStr a) = P.D.fold (Hash.toPlainStr b) → a = b)
    {u : Bytes} {h h' : BothHist} {m : Moment} (hm : m.sql.fold = P.D.fold) (hun : UniqueIds P.X (runBoth P .empty h).web.db)
    (hacc : Spec.Accepts m.sql) {c : Spec.PushCmd} (hc : c.Ok) {caps : Bytes} (hcaps : caps.length ≤ 4000) (hascii : ∀ x ∈ caps, x.toNat < 128)
    (hstale : ¬ Spec.Applies P.D.fold (runBoth P .empty h).web.db u c)
    {os : List (Nat × Spec.Obj)} {pack : Bytes} (hpack : Spec.PackOf P.X P.D.fold (runBoth P .empty h).web.db pack os) (hproj : Spec.Project P.X os)
    (hfuel : os.length < m.fuel) (hsent : Spec.SentAny P u c caps pack m h h') :
    ∃ p, decodePack P.X (getHashObject P.X m.sql (runBoth P .empty h).web.db) m.fuel pack = .ok p ∧ p.result.hashObject = Spec.found P.X os ∧
      savePackfile m.sql m.fuel p u (runBoth P .empty h).web.db = (.ok (), (runBoth P .empty h').web.db) ∧
      (runBoth P .empty h').web.db.refs = (runBoth P .empty h).web.db.refs ∧
      handleRefs m.sql { RefCommand.new c.old c.new (c.name ++ [0]) with ok := true } u (runBoth P .empty h').web.db = (.panic, (runBoth P .empty h').web.db) := by
  obtain ⟨p, d1, d2⟩ := packOf_read hfold (both_nodes P h) hun hm hpack (fuel := m.fuel) (by omega)
  obtain ⟨db1, d3, d4⟩ := project_saved hpack.ids hproj d1 d2 hfuel hacc.nodes u (runBoth P .empty h).web.db
  have k := handleRefs_stale (E := m.sql) (by rw [hm]; exact hstale) db1 d4
  have hdb : (runBoth P .empty h').web.db = db1 := by
    rw [sent_db hc hcaps hascii (decodePack_magic d1) hsent]
    simp only [receiveDataDb, List.getLast?_singleton, mysqlPush, d1, d3, k]
  exact ⟨p, d1, d2, by rw [hdb]; exact d3, by rw [hdb]; exact d4, by rw [hdb]; exact k⟩

/-- **C76 is false** for every push over HTTP or SSH that is too late: after anything anybody has done on both servers, push a complete project with a command that moves a ref which nobody has at the old id (it was moved
in the meantime), or that deletes one. The push is not answered, and no ref is changed. But every commit of the project, with everything it refers to, belongs to the repository afterwards. -/
theorem C76_stale_false (P : ServerExt) (hfold : ∀ a b : Hash, P.D.fold (Hash.toPlainStr a) = P.D.fold (Hash.toPlainStr b) → a = b)
    (u : Bytes) (h h' : BothHist) (m : Moment) (hfl : Spec.SameFoldAny P.D.fold h') (hab : Spec.NoneAboveAny P.D.fold u h') (hun : UniqueIds P.X (runBoth P .empty h').web.db)
    (hacc : Spec.Accepts m.sql) (c : Spec.PushCmd) (hc : c.Ok) (caps : Bytes) (hcaps : caps.length ≤ 4000) (hascii : ∀ x ∈ caps, x.toNat < 128)
    (hstale : ¬ Spec.Applies P.D.fold (runBoth P .empty h).web.db u c)
    (os : List (Nat × Spec.Obj)) (pack : Bytes) (hpack : Spec.PackOf P.X P.D.fold (runBoth P .empty h).web.db pack os) (hproj : Spec.Project P.X os)
    (hfuel : os.length < m.fuel) (hsent : Spec.SentAny P u c caps pack m h h') :
    Spec.LostAny P u c caps pack m h h' ∧ (runBoth P .empty h').web.db.refs = (runBoth P .empty h).web.db.refs ∧
      ∀ o ∈ os, o.2.1 = .commit ∨ Spec.PackReach (Spec.found P.X os) (idOf P.X o.2) → Spec.InRepo P.D.fold (runBoth P .empty h').web.db u o.2 := by
  obtain ⟨v, rfl⟩ : ∃ v, h' = h ++ [(m, v)] := by
    cases hsent <;> exact ⟨_, rfl⟩
  have ext : Extends (runBoth P .empty h).web.db (runBoth P .empty (h ++ [(m, v)])).web.db := by
    rw [runBoth_append]
    exact runBoth_extends P _ _
  have hm : m.sql.fold = P.D.fold := hfl (m, v) (by simp)
  obtain ⟨p, d1, d2, d3, d4, k⟩ := late_saved hfold hm (ext.unique hun) hacc hc hcaps hascii hstale hpack hproj hfuel hsent
  refine ⟨sent_lost hc hcaps hascii hsent (.inl ?_), d4, fun o ho hr => ?_⟩
  · rw [push_answer _ u _ c hc caps hcaps hascii pack (decodePack_magic d1)]
    unfold receiveData
    simp only [List.getLast?_singleton, mysqlPush, d1, d3, k]
    rfl
  · have hrun := (runBoth_inv P u h (fun q hq => hfl q (by simp [hq])) (fun q hq r hr => hab q (by simp [hq]) r (by simp [hr]))).2.2
    rw [← hm] at hrun
    have e := (push_inRepo hrun m.sql rfl hacc.commits m.fuel pack p d1 d3 hun o.2).2 (.inr ⟨metaOf P.X o.2, by
      rw [d2]; exact (found_iff hpack.ids _ _).2 ⟨o, ho, rfl, rfl⟩, rfl, hr.imp_right (fun h => by rw [d2]; exact h)⟩)
    rw [hm] at e
    exact e

/-! ## C79 -/

/-- Same messages on states that answer alike. -/
theorem same_both {P : ServerExt} : ∀ (h : BothHist) {s t : Both}, Spec.Same P.S s.web t.web → s.link = t.link →
    Spec.Same P.S (runBoth P s h).web (runBoth P t h).web ∧ (runBoth P s h).link = (runBoth P t h).link
  | [], _, _, e, e' => ⟨e, e'⟩
  | (m, .http r) :: h, _, _, e, e' => same_both h (same_serve e m r).2 e'
  | (m, .ssh i ev) :: h, s, t, e, e' => by
    have hs : s.ssh = t.ssh := by
      simp only [Both.ssh, e.1, e']
    refine same_both h (s := bothStep P m s (.ssh i ev)) (t := bothStep P m t (.ssh i ev)) ?_ ?_
    · exact ⟨by simp only [bothStep, hs], e.2.1, e.2.2⟩
    · simp only [bothStep, hs]

/-- A GET request that is not a discovery. -/
theorem get_same (P : ServerExt) (m : Moment) (s : ServerState) (r : HttpReq) (hg : r.method = .get) (hd : ¬ ascii "/info/refs" <:+ r.path) :
    Spec.Same P.S s (serve P m s r).2 := by
  rcases getRoute_cases r.path r.service with ⟨oid, e⟩ | e | ⟨_, _, _, e⟩ | e
  · unfold serve
    rw [hg, e]
    refine ⟨rfl, rfl, .inr ?_⟩
    simp only [downloadObject]
    split
    · rfl
    · split <;> rfl
  · unfold serve
    rw [hg, e]
    exact ⟨rfl, rfl, .inl rfl⟩
  · exact absurd e hd
  · rw [← hg] at e
    rw [refused_same e]
    exact ⟨rfl, rfl, .inl rfl⟩

/-- **C79 (partial)** With both servers running, no GET request except the discovery of refs changes the answer to any later request over HTTP or to any later message over SSH.
(Missing from the full claim: discovery, see `C79_discovery_partial` and `C79_discovery_false`.) -/
theorem C79_get_both_partial (P : ServerExt) (m : Moment) (s : Both) (r : HttpReq) (hg : r.method = .get) (hd : ¬ ascii "/info/refs" <:+ r.path)
    (h : BothHist) (m' : Moment) :
    (∀ r', (serve P m' (runBoth P s ((m, .http r) :: h)).web r').1 = (serve P m' (runBoth P s h).web r').1) ∧
      ∀ i e, (sshStep P.X m' (runBoth P s ((m, .http r) :: h)).ssh i e).1 = (sshStep P.X m' (runBoth P s h).ssh i e).1 := by
  obtain ⟨h1, h2⟩ := same_both (P := P) h (s := s) (t := bothStep P m s (.http r)) (get_same P m s.web r hg hd) rfl
  refine ⟨fun r' => (same_serve h1 m' r').1, fun i e => ?_⟩
  have : (runBoth P s ((m, .http r) :: h)).ssh = (runBoth P s h).ssh := by
    show (runBoth P (bothStep P m s (.http r)) h).ssh = _
    simp only [Both.ssh, h1.1, h2]
  rw [this]

/-- C79: listing locks first does not change what somebody is answered over SSH. -/
example (h : BothHist) : (sshStep polyExt demoMoment (runBoth demoServer .empty ((demoMoment, .http ⟨.get, ascii "/app.git/locks", none, {}, []⟩) :: h)).ssh 1 (askFor .uploadPack 0 (ascii "/app"))).1 =
    (sshStep polyExt demoMoment (runBoth demoServer .empty h).ssh 1 (askFor .uploadPack 0 (ascii "/app"))).1 :=
  (C79_get_both_partial demoServer demoMoment .empty ⟨.get, ascii "/app.git/locks", none, {}, []⟩ rfl (by decide +kernel) h demoMoment).2 1 _

end Gust

import Verif.Props.Answered
import Verif.Props.Checkout
import Verif.Props.Thin

/-! # C111: publishing a project works

C25, C26, C48, C78 and C109 say what a push that was answered has done. Here: a correct push *is* answered, the report says so, and what was pushed can be cloned. -/

namespace Gust

open Spec (commitsAt)

/-! ## Spec -/

/-- Look for an object by its id. -/
def Spec.found (X : Ext) (os : List (Nat × Spec.Obj)) (h : Hash) : Option MetaData :=
  (os.find? (fun p => idOf X p.2 = h)).map (fun p => metaOf X p.2)

/-- A project to be published: its objects can be read and nothing reachable from its commits is missing; no directory contains itself. -/
structure Spec.Project (X : Ext) (os : List (Nat × Spec.Obj)) : Prop where
  complete : Spec.SelfContained (Spec.found X os)
  finite : Spec.NoCycles (Spec.found X os)

/-- The database accepts rows. -/
structure Spec.Accepts (E : SqlExt) : Prop where
  nodes : ∀ n rows, E.acceptNodes n rows = true
  commits : ∀ n rows, E.acceptCommits n rows = true
  refs : ∀ n rows, E.acceptRefs n rows = true
  updates : ∀ n id, E.acceptUpdate n id = true

/-- The command creates a ref, or updates one from a value that some ref of the path has. -/
def Spec.Applies (fold : Bytes → Bytes) (db : Db) (path : Bytes) (c : Spec.PushCmd) : Prop :=
  c.old = zeroId ∨ c.new ≠ zeroId ∧ ∃ r ∈ db.refs, fold r.repoPath = fold path ∧ fold r.refGitId = fold c.old

/-- A well-formed pack for these objects, as any git client may write it: deltas may refer to entries before them or to trees and blobs that are stored on the server. -/
structure Spec.PackOf (X : Ext) (fold : Bytes → Bytes) (db : Db) (file : Bytes) (os : List (Nat × Spec.Obj)) : Prop where
  wellFormed : ∃ es trailer known, Spec.PackFile X.inflate file es trailer ∧ (∀ p ∈ es, p.1 < 2 ^ 32) ∧ Spec.FromRepos X fold db known ∧
    Spec.Resolves (idOf X) known [] es os
  ids : Spec.NoCollision (idOf X) os
  size : ∀ p ∈ os, p.2.2.length < 2 ^ 63

/-! ## A pack without cycles can be stored -/

open Classical in
/-- **C48 (partial)** A pack that can be read, contains everything reachable from its commits and in which no directory contains itself is stored, for every schedule of the
worker threads, whatever the server already has, provided the stack has room for as many calls as the pack has objects. -/
theorem C48_push_acyclic_partial {p : Pack} (hk : p.result.Keyed) (hs : Spec.SelfContained p.result.hashObject) (hc : Spec.NoCycles p.result.hashObject)
    (ids : List Hash) (hids : ∀ x o, p.result.hashObject x = some o → x ∈ ids) (fuel : Nat) (hfuel : ids.length ≤ fuel)
    (E : SqlExt) (ha : ∀ n rows, E.acceptNodes n rows = true) (path : Bytes) (db : Db) :
    ∃ db', savePackfile E fuel p path db = (.ok (), db') := by
  let below : Hash → Finset Hash := fun x => ids.toFinset.filter (fun k => Relation.TransGen (PackChild p.result.hashObject) k x)
  have irrefl : ∀ x, x ∉ below x := by
    intro x hx
    obtain ⟨o, items, i, h1, h2, h3, h4, h5, h6⟩ := below_trans (Finset.mem_filter.1 hx).2
    rw [← h2] at h6
    exact hc o items i h1 h3 h4 h5 h6
  refine C48_push_succeeds_partial hk hs (fun x => (below x).card) fuel ?_ ?_ E ha path db
  · intro o items i hr ho ht hd hi _
    obtain ⟨x, hx, e, _⟩ := hs.items o items i hr ho ht hd hi
    have child : PackChild p.result.hashObject i.id o.id := ⟨o, ho, rfl, ht, items, hd, i, hi, rfl⟩
    refine Finset.card_lt_card ⟨fun k hk => ?_, fun hsub => irrefl i.id (hsub ?_)⟩
    · rw [Finset.mem_filter] at hk ⊢
      exact ⟨hk.1, hk.2.tail child⟩
    · exact Finset.mem_filter.2 ⟨List.mem_toFinset.2 (hids _ _ hx), .single child⟩
  · intro o c ho ht hd
    obtain ⟨c', h1, t, h2, _⟩ := hs.commits o ho ht
    rw [hd] at h1
    cases h1
    refine Nat.lt_of_lt_of_le (Finset.card_lt_card (t := ids.toFinset) ⟨Finset.filter_subset _ _, fun hsub => irrefl _ (hsub (List.mem_toFinset.2 (hids _ _ h2)))⟩)
      ((List.toFinset_card_le ids).trans hfuel)

/-! ## The push -/

theorem found_iff {X : Ext} {os : List (Nat × Spec.Obj)} (hcol : Spec.NoCollision (idOf X) os) (h : Hash) (m : MetaData) :
    Spec.found X os h = some m ↔ ∃ p ∈ os, metaOf X p.2 = m ∧ m.id = h := by
  unfold Spec.found
  rw [Option.map_eq_some_iff]
  constructor
  · rintro ⟨p, hp, rfl⟩
    exact ⟨p, List.mem_of_find?_eq_some hp, rfl, show idOf X p.2 = h by simpa using List.find?_some hp⟩
  · rintro ⟨p, hp, rfl, e⟩
    cases hf : os.find? (fun p => idOf X p.2 = h) with
    | none => exact absurd (show idOf X p.2 = h from e) (by simpa using List.find?_eq_none.1 hf p hp)
    | some q =>
      refine ⟨q, rfl, ?_⟩
      have : idOf X q.2 = h := by simpa using List.find?_some hf
      rw [hcol q (List.mem_of_find?_eq_some hf) p hp (by rw [this]; exact e.symm)]

theorem decoded_found {X : Ext} {pack : Pack} {os : List (Nat × Spec.Obj)} {trailer : Hash} (h : DecodedTo X pack os trailer)
    (hb : ∀ p ∈ os, p.2.1.isBase = true) (hcol : Spec.NoCollision (idOf X) os) : pack.result.hashObject = Spec.found X os := by
  funext x
  apply Option.ext
  intro m
  rw [h.byId, found_iff hcol]
  constructor
  · rintro ⟨p, hp, e, e'⟩
    exact ⟨p, hp, (new_iff_metaOf (hb p hp) m).1 e, e'⟩
  · rintro ⟨p, hp, e, e'⟩
    exact ⟨p, hp, (new_iff_metaOf (hb p hp) m).2 e, e'⟩

theorem handleRefs_applies {E : SqlExt} {db : Db} {path : Bytes} {c : Spec.PushCmd} (h : Spec.Applies E.fold db path c) (hup : ∀ n, E.acceptUpdate n c.new = true) (db1 : Db) (hr : db1.refs = db.refs) :
    ∃ db2, handleRefs E (RefCommand.new c.old c.new (c.name ++ [0])) path db1 = (.ok (), db2) := by
  unfold handleRefs RefCommand.new
  rcases h with h | ⟨hn, r, hm, e1, e2⟩
  · simp only [h, if_true]
    exact ⟨_, rfl⟩
  · by_cases h : c.old = zeroId
    · simp only [h, if_true]
      exact ⟨_, rfl⟩
    simp only [if_neg (Ne.symm h), if_neg (Ne.symm hn)]
    unfold updateRefs
    rw [hr]
    obtain ⟨i, hi⟩ := List.mem_iff_getElem?.1 hm
    obtain ⟨j, hj⟩ : ∃ j, (E.order ((List.range db.refs.length).filter (fun i => (db.refs[i]?).any
        (updateMatches E { refName := c.name ++ [0], oldId := c.old, newId := c.new, ok := true, errorMsg := [], commandType := .update } path)))).head? = some j := by
      have : i ∈ E.order ((List.range db.refs.length).filter (fun i => (db.refs[i]?).any
          (updateMatches E { refName := c.name ++ [0], oldId := c.old, newId := c.new, ok := true, errorMsg := [], commandType := .update } path))) := by
        rw [(E.order_perm _).mem_iff, List.mem_filter, List.mem_range]
        refine ⟨(List.getElem?_eq_some_iff.1 hi).1, ?_⟩
        simp [hi, updateMatches, e1, e2]
      cases hh : E.order ((List.range db.refs.length).filter (fun i => (db.refs[i]?).any
          (updateMatches E { refName := c.name ++ [0], oldId := c.old, newId := c.new, ok := true, errorMsg := [], commandType := .update } path))) with
      | nil => rw [hh] at this; cases this
      | cons j _ => exact ⟨j, rfl⟩
    rw [hj]
    simp only [hup, if_true]
    exact ⟨_, rfl⟩

/-- The pack is read as the project. -/
theorem packOf_read {X : Ext} {fold : Bytes → Bytes} (hfold : ∀ a b : Hash, fold (Hash.toPlainStr a) = fold (Hash.toPlainStr b) → a = b)
    {db : Db} (hn : NodesOk X db) (hun : UniqueIds X db) {E : SqlExt} (hf : E.fold = fold) {pack : Bytes} {os : List (Nat × Spec.Obj)}
    (hp : Spec.PackOf X fold db pack os) {fuel : Nat} (h0 : 0 < fuel) :
    ∃ p, decodePack X (getHashObject X E db) fuel pack = .ok p ∧ p.result.hashObject = Spec.found X os := by
  obtain ⟨es, trailer, known, w1, w2, w3, w4⟩ := hp.wellFormed
  obtain ⟨f, rfl⟩ : ∃ f, fuel = f + 1 := ⟨fuel - 1, by omega⟩
  obtain ⟨p, h1, h2⟩ := thin_read hn hun hfold hf w3 w1 w4 hp.ids hp.size w2 f
  refine ⟨p, h1, decoded_found h2 (resolves_base ?_ w4 (by simp)).1 hp.ids⟩
  intro x t b e
  obtain ⟨_, ht, _⟩ := w3 x _ e
  rcases ht with ht | ht <;> simp only at ht <;> rw [ht] <;> rfl

theorem packOf_decodes (P : ServerExt) (hfold : ∀ a b : Hash, P.D.fold (Hash.toPlainStr a) = P.D.fold (Hash.toPlainStr b) → a = b)
    {h : List (Moment × HttpReq)} (hun : UniqueIds P.X (runServer P .empty h).db) {E : SqlExt} (hf : E.fold = P.D.fold) {pack : Bytes} {os : List (Nat × Spec.Obj)}
    (hp : Spec.PackOf P.X P.D.fold (runServer P .empty h).db pack os) {fuel : Nat} (h0 : 0 < fuel) :
    ∃ p, decodePack P.X (getHashObject P.X E (runServer P .empty h).db) fuel pack = .ok p ∧ p.result.hashObject = Spec.found P.X os :=
  packOf_read hfold (run_nodes P h _ (nodesOk_empty _)) hun hf hp h0

/-- The push of a complete project is answered, for any storage in which rows have the ids of their objects. -/
theorem project_answered {X : Ext} {fold : Bytes → Bytes} (hfold : ∀ a b : Hash, fold (Hash.toPlainStr a) = fold (Hash.toPlainStr b) → a = b) {db : Db} (hn : NodesOk X db)
    (hun : UniqueIds X db) {E : SqlExt} (hf : E.fold = fold) (hacc : Spec.Accepts E) {u : Bytes} {c : Spec.PushCmd} (hc : c.Ok) {caps : Bytes} (hcaps : caps.length ≤ 4000)
    (hascii : ∀ x ∈ caps, x.toNat < 128) (happ : Spec.Applies fold db u c) {os : List (Nat × Spec.Obj)} {pack : Bytes} (hpack : Spec.PackOf X fold db pack os)
    (hproj : Spec.Project X os) {fuel : Nat} (hfuel : os.length < fuel) :
    ∃ rep st', httpReceivePack (mysqlPush X E fuel) { caps := [], commands := [], path := u, db := db } (Spec.pushBody c [] caps pack) = .ok (rep, st') ∧
      Spec.reportLines (decide (.sideBand ∈ parseCapabilities caps ∨ .sideBand64k ∈ parseCapabilities caps)) rep =
        some [ascii "unpack ok\n", Spec.statusLine (c.name ++ [0]) none] := by
  obtain ⟨p, d1, d2⟩ := packOf_read hfold hn hun hf hpack (fuel := fuel) (by omega)
  obtain ⟨hist, e, _⟩ := decodePack_hist d1
  obtain ⟨db1, s1⟩ := C48_push_acyclic_partial (p := p) (by rw [e]; exact PackCache.keyed_run hist) (by rw [d2]; exact hproj.complete) (by rw [d2]; exact hproj.finite)
    (os.map (fun q => idOf X q.2)) (by
      intro x o ho
      rw [d2] at ho
      obtain ⟨q, hq, e1, e2⟩ := (found_iff hpack.ids _ _).1 ho
      exact List.mem_map.2 ⟨q, hq, by rw [← e2, ← e1]; rfl⟩) fuel (by rw [List.length_map]; omega) E hacc.nodes u db
  have hrefs : db1.refs = db.refs := by
    have := savePackfile_refs E fuel p u db
    rwa [s1] at this
  obtain ⟨db2, s2⟩ := handleRefs_applies (E := E) (by rw [hf]; exact happ) (fun n => hacc.updates n _) db1 hrefs
  obtain ⟨rep, st', r1, _, r2⟩ := (C70_report_partial (mysqlPush X E fuel) u _ db1 c hc caps hcaps hascii pack (decodePack_magic d1) p d1).1 db2 s1 s2
  exact ⟨rep, st', r1, r2⟩

/-- **C111 (partial)** On a server that started empty and has handled any requests: every push of a complete project, in a well-formed pack, to create a ref or to update one from
a value some ref of the repository has, is answered, and the report says `unpack ok` and `ok` for the ref. (Missing from the full claim: packs that leave out objects the server
has, see `C48_unchanged_objects_false`, also as bases of deltas if they are commits, see `C80_commit_false`; deletions, see C89; several refs, see C24; the NUL byte after the name in the report, see `C70_report_name_false`.) -/
theorem C111_accepted_partial (P : ServerExt) (hfold : ∀ a b : Hash, P.D.fold (Hash.toPlainStr a) = P.D.fold (Hash.toPlainStr b) → a = b)
    (u g : Bytes) (hu : Spec.CleanUrl u) (hg : g = [] ∨ g = ascii ".git") (h : List (Moment × HttpReq)) (m : Moment)
    (hun : UniqueIds P.X (runServer P .empty h).db) (hm : m.sql.fold = P.D.fold) (hacc : Spec.Accepts m.sql)
    (c : Spec.PushCmd) (hc : c.Ok) (caps : Bytes) (hcaps : caps.length ≤ 4000) (hascii : ∀ x ∈ caps, x.toNat < 128)
    (happ : Spec.Applies P.D.fold (runServer P .empty h).db u c)
    (os : List (Nat × Spec.Obj)) (pack : Bytes) (hpack : Spec.PackOf P.X P.D.fold (runServer P .empty h).db pack os) (hproj : Spec.Project P.X os)
    (hfuel : os.length < m.fuel) :
    ∃ rep, (serve P m (runServer P .empty h) (Spec.pushReq (u ++ g) (Spec.pushBody c [] caps pack))).1 = .reply (.ok (.bytes rep)) ∧
      Spec.reportLines (decide (.sideBand ∈ parseCapabilities caps ∨ .sideBand64k ∈ parseCapabilities caps)) rep =
        some [ascii "unpack ok\n", Spec.statusLine (c.name ++ [0]) none] := by
  obtain ⟨rep, st', r1, r2⟩ := project_answered hfold (run_nodes P h _ (nodesOk_empty _)) hun hm hacc hc hcaps hascii happ hpack hproj hfuel
  refine ⟨rep, ?_, r2⟩
  have hroute := route_push hu hg
  simp only [serve, Spec.pushReq, hroute, r1]
  rfl

/-- **C111 (partial)** Publishing works: on a server that started empty and has handled any requests, push a complete project with at least one commit; the push is answered. Let anybody make
any requests, pushes to the same path included. Then clone: the clone is answered, it can be read, and whoever checks out one of the commits finds exactly the files of the
project. (Missing from the full claim: as above; paths above or below other repositories, see C55 and `C77_below_false`.) -/
theorem C111_published_partial (P : ServerExt) (hfold : ∀ a b : Hash, P.D.fold (Hash.toPlainStr a) = P.D.fold (Hash.toPlainStr b) → a = b)
    (u g g' : Bytes) (hu : Spec.CleanUrl u) (hg : g = [] ∨ g = ascii ".git") (hg' : g' = [] ∨ g' = ascii ".git")
    (h1 h2 : List (Moment × HttpReq)) (m1 m2 : Moment)
    (c : Spec.PushCmd) (hc : c.Ok) (caps : Bytes) (hcaps : caps.length ≤ 4000) (hascii : ∀ x ∈ caps, x.toNat < 128)
    (happ : Spec.Applies P.D.fold (runServer P .empty h1).db u c)
    (os : List (Nat × Spec.Obj)) (pack : Bytes) (hpack : Spec.PackOf P.X P.D.fold (runServer P .empty h1).db pack os) (hproj : Spec.Project P.X os)
    (hcommit : ∃ p ∈ os, p.2.1 = .commit)
    (push : HttpReq) (hreq : push = Spec.pushReq (u ++ g) (Spec.pushBody c [] caps pack))
    (hacc : Spec.Accepts m1.sql) (hfuel1 : os.length < m1.fuel)
    (hfl : Spec.SameFold P.D.fold (h1 ++ [(m1, push)] ++ h2)) (hm2 : m2.sql.fold = P.D.fold)
    (hab : Spec.NoneAbove P.D.fold u (h1 ++ [(m1, push)] ++ h2))
    (hun : UniqueIds P.X (runServer P .empty (h1 ++ [(m1, push)] ++ h2)).db)
    (hfit : FitsPack P.X (runServer P .empty (h1 ++ [(m1, push)] ++ h2)).db)
    (hfuel2 : (runServer P .empty (h1 ++ [(m1, push)] ++ h2)).db.nodes.length ≤ m2.fuel)
    (hord : ∀ l x, x ∈ m2.ord l ↔ x ∈ l) (hcut : Spec.CutOk m2.cut) (ls : List Spec.ReqLine) (t rest : Bytes) (hr : Spec.CloneReq ls t) :
    ∃ rep out file, (serve P m1 (runServer P .empty h1) push).1 = .reply (.ok (.bytes rep)) ∧
      Spec.reportLines (decide (.sideBand ∈ parseCapabilities caps ∨ .sideBand64k ∈ parseCapabilities caps)) rep =
        some [ascii "unpack ok\n", Spec.statusLine (c.name ++ [0]) none] ∧
      (serve P m2 (runServer P .empty (h1 ++ [(m1, push)] ++ h2)) (Spec.fetchReq (u ++ g') (doneBody ls t rest))).1 = .reply (.ok (.bytes out)) ∧
      Spec.readClone out = some file ∧
      ∀ St fuel, ∃ q, decodePack P.X St (fuel + 1) file = .ok q ∧ ∀ p ∈ os, p.2.1 = .commit →
        ∀ path mode data, Spec.CheckedOut (Spec.found P.X os) (idOf P.X p.2) path mode data ↔ Spec.CheckedOut q.result.hashObject (idOf P.X p.2) path mode data := by
  have ext1 : Extends (runServer P .empty h1).db (runServer P .empty (h1 ++ [(m1, push)] ++ h2)).db := by
    rw [List.append_assoc, runServer_append]
    exact run_extends P _ _
  have hun1 := ext1.unique hun
  have hm1 : m1.sql.fold = P.D.fold := hfl (m1, push) (by simp)
  obtain ⟨p, d1, d2⟩ := packOf_decodes P hfold hun1 hm1 hpack (fuel := m1.fuel) (by omega)
  obtain ⟨rep, r1, r2⟩ := C111_accepted_partial P hfold u g hu hg h1 m1 hun1 hm1 hacc c hc caps hcaps hascii happ os pack hpack hproj hfuel1
  rw [← hreq] at r1
  -- some commit is stored
  have hne : commitsAt P.D.fold (runServer P .empty (h1 ++ [(m1, push)] ++ h2)).db.commits u ≠ [] := by
    obtain ⟨o, ho, et⟩ := hcommit
    have hroute := route_push hu hg
    have r1' := r1
    rw [hreq] at r1'
    simp only [serve, Spec.pushReq, hroute] at r1'
    obtain ⟨⟨_, st'⟩, e1, _⟩ := Res.outcome_ok r1'
    obtain ⟨p', d1', k, _⟩ := C26_durable_partial P.X m1.sql m1.fuel u _ c hc caps hcaps hascii pack (decodePack_magic d1) hacc.commits hacc.refs _ _ e1
    rw [d1] at d1'
    cases d1'
    obtain ⟨row, hrow, _, _, e2⟩ := k (metaOf P.X o.2) (by rw [d2]; exact (found_iff hpack.ids _ _).2 ⟨o, ho, rfl, rfl⟩) et
    have edb : (runServer P .empty (h1 ++ [(m1, push)])).db = st'.db := by
      rw [runServer_concat, serve_db, hreq]
      simp only [Spec.pushReq, hroute]
      exact httpReceiveDb_ok _ _ _ _ _ e1
    refine List.ne_nil_of_mem (commitsAt_mem.2 ⟨(?_ : row ∈ _), by rw [e2]⟩)
    rw [runServer_append]
    exact (run_extends P h2 _).commits row (by rw [edb]; exact hrow)
  obtain ⟨out, file, _, c1, c2, _⟩ := C78_clone_stack_partial P hfold u g' hu hg' _ m2 hfl hm2 hab hun hfit hfuel2 hne hord hcut ls t rest hr
  refine ⟨rep, out, file, r1, r2, c1, c2, ?_⟩
  obtain ⟨p', file', d1', k1, k2⟩ := C109_checkout_partial P hfold u g g' hu hg hg' h1 h2 m1 m2 c hc caps hcaps hascii pack (decodePack_magic d1) push hreq hfl hm2 hab hacc.commits rep r1
    hun hfit hord hcut ls t rest hr out c1
  rw [d1] at d1'
  cases d1'
  rw [c2] at k1
  cases k1
  intro St fuel
  obtain ⟨q, q1, q2⟩ := k2 St fuel
  refine ⟨q, q1, fun o ho et path mode data => ?_⟩
  have := q2 (metaOf P.X o.2) (by rw [d2]; exact (found_iff hpack.ids _ _).2 ⟨o, ho, rfl, rfl⟩) et path mode data
  rw [d2] at this
  exact this

/-- **C111 is false** for pushes as git clients usually make them after the first: a well-formed pack without an object that is reachable from one of its commits (because the server has
it) is not answered, whatever the server has stored: the connection is dropped, or the request goes on until the stack is exhausted. -/
theorem C111_update_false (P : ServerExt) (hfold : ∀ a b : Hash, P.D.fold (Hash.toPlainStr a) = P.D.fold (Hash.toPlainStr b) → a = b)
    (u g : Bytes) (hu : Spec.CleanUrl u) (hg : g = [] ∨ g = ascii ".git") (h : List (Moment × HttpReq)) (m : Moment)
    (hun : UniqueIds P.X (runServer P .empty h).db) (hm : m.sql.fold = P.D.fold)
    (c : Spec.PushCmd) (hc : c.Ok) (caps : Bytes) (hcaps : caps.length ≤ 4000) (hascii : ∀ x ∈ caps, x.toNat < 128)
    (os : List (Nat × Spec.Obj)) (pack : Bytes) (hpack : Spec.PackOf P.X P.D.fold (runServer P .empty h).db pack os) (h0 : 0 < m.fuel)
    (x : Hash) (hx : Spec.PackReach (Spec.found P.X os) x) (hmiss : Spec.found P.X os x = none) :
    (serve P m (runServer P .empty h) (Spec.pushReq (u ++ g) (Spec.pushBody c [] caps pack))).1 = .reply .panic ∨
    (serve P m (runServer P .empty h) (Spec.pushReq (u ++ g) (Spec.pushBody c [] caps pack))).1 = .hang := by
  obtain ⟨p, d1, d2⟩ := packOf_decodes P hfold hun hm hpack h0
  obtain ⟨hist, e, _⟩ := decodePack_hist d1
  have hs := C48_missing_object_fails (p := p) (by rw [e]; exact PackCache.keyed_run hist) x (by rw [d2]; exact hx) (by rw [d2]; exact hmiss) m.sql m.fuel u (runServer P .empty h).db
  have hroute := route_push hu hg
  simp only [serve, Spec.pushReq, hroute]
  rw [push_answer _ u _ c hc caps hcaps hascii pack (decodePack_magic d1)]
  unfold receiveData
  simp only [List.getLast?_singleton, mysqlPush, d1]
  rcases hr : savePackfile m.sql m.fuel p u (runServer P .empty h).db with ⟨r, db1⟩
  rw [hr] at hs
  rcases hs with hs | hs <;> simp only at hs <;> subst hs <;> simp only
  · exact .inl rfl
  · exact .inr rfl

end Gust

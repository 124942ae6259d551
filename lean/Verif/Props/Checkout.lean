import Verif.Props.Server
import Verif.Props.FetchOverlap

/-! # C109: what a client sees in the clone

C78 and C108 say which objects a clone has. Here this is put in the terms of someone who works with the files. -/

namespace Gust

open Spec (nodeObj StoreReach commitsAt InRepo)

/-! ## Spec -/

/-- In the directory `h` there is, at the path with the given components, a file with this mode and content; `find` are the objects one has. -/
inductive Spec.FileAt (find : Hash → Option MetaData) : Hash → List Bytes → Bytes → Bytes → Prop
  | file (t b : MetaData) (items : List TreeItem) (i : TreeItem) : find t.id = some t → t.t = .tree → decodeTree t.data = .ok items → i ∈ items →
      i.mode ≠ ascii "40000" → i.id = b.id → find b.id = some b → b.t = .blob → FileAt find t.id [i.filename] i.mode b.data
  | dir (t : MetaData) (items : List TreeItem) (i : TreeItem) (path : List Bytes) (mode data : Bytes) : find t.id = some t → t.t = .tree →
      decodeTree t.data = .ok items → i ∈ items → i.mode = ascii "40000" → FileAt find i.id path mode data → FileAt find t.id (i.filename :: path) mode data

/-- Whoever has the objects `find` and checks out the commit `h` gets a file with this mode and content at this path. -/
def Spec.CheckedOut (find : Hash → Option MetaData) (h : Hash) (path : List Bytes) (mode data : Bytes) : Prop :=
  ∃ o c, o.id = h ∧ find h = some o ∧ o.t = .commit ∧ Commit.decode o.data = .ok c ∧ Spec.FileAt find c.treeId path mode data

/-! ## Lemmas -/

theorem FileAt.mono {find find' : Hash → Option MetaData} (hs : ∀ o, Spec.PackReach find o.id → find o.id = some o → find' o.id = some o)
    {h : Hash} {path : List Bytes} {mode data : Bytes} (hf : Spec.FileAt find h path mode data) (hr : Spec.PackReach find h) :
    Spec.FileAt find' h path mode data := by
  induction hf with
  | file t b items i ht h1 h2 h3 h4 e h5 h6 => exact .file t b items i (hs t hr ht) h1 h2 h3 h4 e (hs b (by rw [← e]; exact .item t items i hr ht h1 h2 h3) h5) h6
  | dir t items i path mode data ht h1 h2 h3 h4 _ ih => exact .dir t items i path mode data (hs t hr ht) h1 h2 h3 h4 (ih (.item t items i hr ht h1 h2 h3))

/-- Two sets of objects of which the second has everything reachable in the first, with nothing missing in the first. -/
theorem FileAt.same {find find' : Hash → Option MetaData} (hs : ∀ o, Spec.PackReach find o.id → find o.id = some o → find' o.id = some o)
    (hall : ∀ h, Spec.PackReach find h → ∃ o, find o.id = some o ∧ o.id = h) {h : Hash} (hr : Spec.PackReach find h)
    (path : List Bytes) (mode data : Bytes) : Spec.FileAt find h path mode data ↔ Spec.FileAt find' h path mode data := by
  refine ⟨fun hf => FileAt.mono hs hf hr, fun hf => ?_⟩
  have back : ∀ o, Spec.PackReach find o.id → find' o.id = some o → find o.id = some o := by
    intro o hr ho
    obtain ⟨x, hx, e⟩ := hall _ hr
    have := hs x (by rw [e]; exact hr) hx
    rw [e, ho] at this
    cases this
    exact hx
  induction hf with
  | file t b items i ht h1 h2 h3 h4 e h5 h6 =>
    have ht' := back t hr ht
    exact .file t b items i ht' h1 h2 h3 h4 e (back b (by rw [← e]; exact .item t items i hr ht' h1 h2 h3) h5) h6
  | dir t items i path mode data ht h1 h2 h3 h4 _ ih =>
    have ht' := back t hr ht
    exact .dir t items i path mode data ht' h1 h2 h3 h4 (ih (.item t items i hr ht' h1 h2 h3))

theorem CheckedOut.same {find find' : Hash → Option MetaData} (hs : ∀ o, o.t = .commit ∨ Spec.PackReach find o.id → find o.id = some o → find' o.id = some o)
    (hall : ∀ h, Spec.PackReach find h → ∃ o, find o.id = some o ∧ o.id = h)
    {o : MetaData} (ho : find o.id = some o) (ht : o.t = .commit) (path : List Bytes) (mode data : Bytes) :
    Spec.CheckedOut find o.id path mode data ↔ Spec.CheckedOut find' o.id path mode data := by
  have key : ∀ c, Commit.decode o.data = .ok c → (Spec.FileAt find c.treeId path mode data ↔ Spec.FileAt find' c.treeId path mode data) := fun c hc =>
    FileAt.same (fun x hx => hs x (.inr hx)) hall (.commit o c ho ht hc) path mode data
  constructor
  · rintro ⟨x, c, _, h1, h2, h3, h4⟩
    rw [ho] at h1
    cases h1
    exact ⟨o, c, rfl, hs o (.inl ht) ho, ht, h3, (key c h3).1 h4⟩
  · rintro ⟨x, c, _, h1, h2, h3, h4⟩
    rw [hs o (.inl ht) ho] at h1
    cases h1
    exact ⟨o, c, rfl, ho, ht, h3, (key c h3).2 h4⟩

/-! ## C109 -/

/-- What a push leaves: everything reachable in the pack is in the repository, in every later state. -/
theorem pushed_inRepo {P : ServerExt} {u : Bytes} {c : Spec.PushCmd} (hc : c.Ok) {caps : Bytes} (hl : caps.length ≤ 4000) (hx : ∀ x ∈ caps, x.toNat < 128)
    {pack rep : Bytes} (hpack : (ascii "PACK").isPrefixOf pack = true) {m : Moment} {db : Db} {st' : PushState Db} (hrun : StoreRun P.X P.D.fold u db) (hf : m.sql.fold = P.D.fold)
    (hac : ∀ n rows, m.sql.acceptCommits n rows = true)
    (hpush : httpReceivePack (mysqlPush P.X m.sql m.fuel) { caps := [], commands := [], path := u, db := db } (Spec.pushBody c [] caps pack) = .ok (rep, st'))
    {db' : Db} (ext : Extends st'.db db') (hun : UniqueIds P.X db') :
    ∃ p, decodePack P.X (getHashObject P.X m.sql db) m.fuel pack = .ok p ∧
      (∀ o, p.result.hashObject o.id = some o → o.t = .commit ∨ Spec.PackReach p.result.hashObject o.id → ∃ x, InRepo P.D.fold db' u x ∧ o = metaOf P.X x) ∧
      ∀ h, Spec.PackReach p.result.hashObject h → ∃ o, p.result.hashObject o.id = some o ∧ o.id = h := by
  have hrun' : StoreRun P.X m.sql.fold u db := by rw [hf]; exact hrun
  obtain ⟨p, db1, d1, d2, d3, d4, r1, r2⟩ := push_run hrun' hc hl hx hpack hpush
  have ext1 : Extends db1 db' := ⟨fun n hn => ext.nodes n (by rw [d3]; exact hn), fun n hn => ext.commits n (by rw [d4]; exact hn)⟩
  obtain ⟨hist, ehist, hok'⟩ := decodePack_hist d1
  have objs : ∀ o, p.result.hashObject o.id = some o → metaOf P.X (o.t, o.data) = o := by
    intro o ho
    rw [ehist, PackCache.hashObject_run] at ho
    obtain ⟨q, hq, rfl⟩ := Option.map_eq_some_iff.1 ho
    exact (metaOf_of_new (hok' q (PackCache.lastWith_some hq).1).2).2
  have key := push_inRepo hrun' m.sql rfl hac m.fuel pack p d1 d2 (ext1.unique hun)
  rw [hf] at key
  refine ⟨p, d1, fun o ho ht => ⟨(o.t, o.data), inRepo_mono ext1 ((key _).2 (.inr ⟨o, ho, (objs o ho).symm, ht⟩)), (objs o ho).symm⟩, ?_⟩
  obtain ⟨rows, _, _, s1, s2⟩ := C48_stored_partial d1 m.sql m.fuel u _ _ d2
  intro h hh
  obtain ⟨r, hr, e⟩ := s2 h hh
  obtain ⟨o, o1, o2, _⟩ := s1 r hr
  exact ⟨o, o1, Hash.toPlainStr_injective (o2.symm.trans e)⟩

/-- **C109 (partial)** After a push to a URL has been answered, whatever requests follow, pushes to the same URL included, a client that clones the URL and checks out a pushed commit has at every
path the file that the pushing client had there, with its mode and content, and no other files. (Missing from the full claim: pushes of several refs, see C24; inserts of commits that
fail, see C26; paths above or below other repositories, see `C77_below_false`.) -/
theorem C109_checkout_partial (P : ServerExt) (hfold : ∀ a b : Hash, P.D.fold (Hash.toPlainStr a) = P.D.fold (Hash.toPlainStr b) → a = b)
    (u g g' : Bytes) (hu : Spec.CleanUrl u) (hg : g = [] ∨ g = ascii ".git") (hg' : g' = [] ∨ g' = ascii ".git")
    (h1 h2 : List (Moment × HttpReq)) (m1 m2 : Moment)
    (c : Spec.PushCmd) (hc : c.Ok) (caps : Bytes) (hcaps : caps.length ≤ 4000) (hascii : ∀ x ∈ caps, x.toNat < 128)
    (pack : Bytes) (hpack : (ascii "PACK").isPrefixOf pack = true)
    (push : HttpReq) (hreq : push = Spec.pushReq (u ++ g) (Spec.pushBody c [] caps pack))
    (hfl : Spec.SameFold P.D.fold (h1 ++ [(m1, push)] ++ h2)) (hm2 : m2.sql.fold = P.D.fold)
    (hab : Spec.NoneAbove P.D.fold u (h1 ++ [(m1, push)] ++ h2))
    (hac : ∀ n rows, m1.sql.acceptCommits n rows = true)
    (rep : Bytes) (hpush : (serve P m1 (runServer P .empty h1) push).1 = .reply (.ok (.bytes rep)))
    (hun : UniqueIds P.X (runServer P .empty (h1 ++ [(m1, push)] ++ h2)).db)
    (hfit : FitsPack P.X (runServer P .empty (h1 ++ [(m1, push)] ++ h2)).db)
    (hord : ∀ l x, x ∈ m2.ord l ↔ x ∈ l) (hcut : Spec.CutOk m2.cut) (ls : List Spec.ReqLine) (t rest : Bytes) (hr : Spec.CloneReq ls t)
    (out : Bytes) (hclone : (serve P m2 (runServer P .empty (h1 ++ [(m1, push)] ++ h2))
      (Spec.fetchReq (u ++ g') (doneBody ls t rest))).1 = .reply (.ok (.bytes out))) :
    ∃ p file, decodePack P.X (getHashObject P.X m1.sql (runServer P .empty h1).db) m1.fuel pack = .ok p ∧ Spec.readClone out = some file ∧
      ∀ St fuel, ∃ q, decodePack P.X St (fuel + 1) file = .ok q ∧ ∀ o, p.result.hashObject o.id = some o → o.t = .commit →
        ∀ path mode data, Spec.CheckedOut p.result.hashObject o.id path mode data ↔ Spec.CheckedOut q.result.hashObject o.id path mode data := by
  have hrun : StoreRun P.X P.D.fold u (runServer P .empty h1).db :=
    run_store P u _ h1 rfl (fun p hp => hfl p (by simp [hp])) (fun p hp q hq => hab p (by simp [hp]) q (by simp [hq]))
  obtain ⟨st', e1, e2⟩ : ∃ st', httpReceivePack (mysqlPush P.X m1.sql m1.fuel) { caps := [], commands := [], path := u, db := (runServer P .empty h1).db }
      (Spec.pushBody c [] caps pack) = .ok (rep, st') ∧ (runServer P .empty (h1 ++ [(m1, push)])).db = st'.db := by
    rw [runServer_concat, serve_db]
    simp only [serve, hreq, Spec.pushReq, route_push hu hg] at hpush ⊢
    obtain ⟨⟨out, st'⟩, e1, e2⟩ := Res.outcome_ok hpush
    cases e2
    exact ⟨st', e1, httpReceiveDb_ok _ _ _ _ _ e1⟩
  have ext := run_extends P h2 (runServer P .empty (h1 ++ [(m1, push)]))
  rw [← runServer_append, e2] at ext
  obtain ⟨p, d1, d2, d3⟩ := pushed_inRepo hc hcaps hascii hpack hrun (hfl (m1, push) (by simp)) hac e1 ext hun
  obtain ⟨file, hfull, hread⟩ : ∃ file, getFullPack P.X m2.sql m2.fuel (runServer P .empty (h1 ++ [(m1, push)] ++ h2)).db u = .ok file ∧ Spec.readClone out = some file := by
    simp only [serve, Spec.fetchReq, route_fetch hu hg'] at hclone
    obtain ⟨o', e1, e2⟩ := Res.outcome_ok hclone
    cases e2
    exact httpUploadPack_clone hord hcut hr e1
  obtain ⟨ms, k1, k2⟩ := clone_has (run_store P u _ _ rfl hfl hab) hun hfold hfit hm2 hfull
  refine ⟨p, file, d1, hread, fun St fuel => ?_⟩
  obtain ⟨q, q1, _, q2⟩ := k1.2 St fuel
  refine ⟨q, q1, fun o ho ht path mode data => ?_⟩
  exact CheckedOut.same (fun x hx hf => (q2 _ _).2 ⟨(k2 x).2 (d2 x hf hx), rfl⟩) d3 ho ht path mode data

/-- **C109 (partial)**, overlapping requests: when a push has finished and a client clones the path, with whatever other requests being worked on before, during and after, then what it
checks out of a commit of the push is exactly what the pushing client had. -/
theorem C109_overlapping_partial (X : Ext) (fold : Bytes → Bytes) (hfold : ∀ a b : Hash, fold (Hash.toPlainStr a) = fold (Hash.toPlainStr b) → a = b)
    (R : Bytes → Prop) (W : Pack → RefCommand → Prop) (path : Bytes) (hR : ∀ a q, R a → R q → fold q = fold path → pathStartsWith q a = true → a = q)
    (first last : Sys) (T : Spec.FetchMoments) (hT : Spec.FetchDuring X fold R W first T last)
    (hu : UniqueIds X last.db) (hfit : FitsPack X last.db) (fuel : Nat) (hfuel : last.db.nodes.length ≤ fuel)
    (hacc : SysRun X (fun E => E.fold = fold ∧ ∀ n b, E.acceptCommits n b = true) R W Sys.empty first)
    (i : Nat) (p : Pack) (hp : (i, path, p) ∈ first.pushed) (hfin : first.tasks[i]? = some (some [])) (ho : ∃ o, p.result.hashObject o.id = some o ∧ o.t = .commit)
    (ord : List Bytes → List Bytes) (hord : ∀ l x, x ∈ ord l ↔ x ∈ l) (cut : Bytes → List Bytes) (hcut : Spec.CutOk cut)
    (ls : List Spec.ReqLine) (t rest : Bytes) (hr : Spec.CloneReq ls t) :
    ∃ out file, httpUploadPackL X T.times fuel path ord cut (doneBody ls t rest) = .ok out ∧ Spec.readClone out = some file ∧
      ∀ St fuel, ∃ q, decodePack X St (fuel + 1) file = .ok q ∧ ∀ o, p.result.hashObject o.id = some o → o.t = .commit →
        ∀ path mode data, Spec.CheckedOut p.result.hashObject o.id path mode data ↔ Spec.CheckedOut q.result.hashObject o.id path mode data := by
  obtain ⟨a0, a1, a2⟩ := hT.at_pack
  have hcov : Covers X first.db [] path p := by
    rcases pushTask_run (fun E hE => hE.2) hacc _ hp with h0 | ⟨as, h0, hc⟩
    · rw [hfin] at h0; cases h0
    · rw [hfin] at h0
      cases h0
      rcases hc with hc | hc
      · cases hc
      · exact hc
  have ext := sysRun_extends a1
  have hin : ∀ m, p.result.hashObject m.id = some m → m.t = .commit ∨ Spec.PackReach p.result.hashObject m.id → ∃ o, InRepo fold (T.pack 0).2.db path o ∧ m = metaOf X o := by
    intro m hm hr
    obtain ⟨o, h1, h2⟩ := finished_inRepo (fold := fold) hcov hm hr
    exact ⟨o, inRepo_mono ext h1, h2⟩
  have hne : commitsAt fold first.db.commits path ≠ [] := by
    obtain ⟨o, ho, ht⟩ := ho
    obtain ⟨x, hx, _⟩ := finished_inRepo (fold := fold) hcov ho (.inl ht)
    cases hx with
    | commit r hr => exact List.ne_nil_of_mem hr
    | node r c y n hr => exact List.ne_nil_of_mem hr
  obtain ⟨out, file, ms, c1, c2, c3, c4⟩ := C108_clone_partial X fold hfold R W path hR first last T hT hu hfit fuel hfuel hne ord hord cut hcut ls t rest hr
  refine ⟨out, file, c1, c2, fun St fuel => ?_⟩
  obtain ⟨q, q1, _, q2⟩ := c3.2 St fuel
  refine ⟨q, q1, fun o ho ht path mode data => ?_⟩
  refine CheckedOut.same (fun x hx hf => ?_) (fun h hh => ?_) ho ht path mode data
  · obtain ⟨y, y1, y2⟩ := hin x hf hx
    exact (q2 _ _).2 ⟨(c4 x).2 ⟨y, y1, y2⟩, rfl⟩
  · obtain ⟨n, o, o1, o2, _⟩ := hcov.1 h hh
    exact ⟨o, o1, o2⟩

end Gust

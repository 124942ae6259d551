import Verif.Props.Stops
import Verif.Props.RefsShown
import Verif.Props.Confined
import Verif.Props.Acks
import Verif.Props.PublishExamples

/-! # C143: tags

What becomes of annotated tags (objects of their own) and of lightweight ones (refs that name a commit) that are pushed. -/

namespace Gust

open Spec (commitsAt)

/-- An answered push over HTTP: what is stored. -/
theorem serve_push_ok {P : ServerExt} {u g : Bytes} (hu : Spec.CleanUrl u) (hg : g = [] ∨ g = ascii ".git") {m : Moment} {s : ServerState} {body rep : Bytes} {st' : PushState Db}
    (h : httpReceivePack (mysqlPush P.X m.sql m.fuel) { caps := [], commands := [], path := u, db := s.db } body = .ok (rep, st')) :
    (serve P m s (Spec.pushReq (u ++ g) body)).1 = .reply (.ok (.bytes rep)) ∧ (serve P m s (Spec.pushReq (u ++ g) body)).2.db = st'.db := by
  have hroute : route .post (u ++ g ++ ascii "/git-receive-pack") none = .receivePack u := route_push hu hg
  constructor
  · unfold serve
    simp only [Spec.pushReq, hroute, h, Res.outcome]
  · rw [serve_db]
    simp only [Spec.pushReq, hroute]
    exact httpReceiveDb_ok _ _ _ _ _ h

/-- Nothing that belongs to a repository is a tag. -/
theorem inRepo_not_tag {fold : Bytes → Bytes} {db : Db} {path : Bytes} {o : ObjectType × Bytes} (h : Spec.InRepo fold db path o) : o.1 ≠ .tag := by
  rcases inRepo_kind h with h | h | h <;> rw [h] <;> simp

/-- **C143 is false** for annotated tags: on a server that started empty and has handled any requests, push a complete project with an annotated tag in it, and a new ref that names the
tag. The push is answered, the report says `ok` for the ref, and the ref is stored. But whatever is requested of the server afterwards, no answer to a fetch, to anybody, has a
pack with a tag in it: the objects of every pack are of other types, and none has the id of the pushed tag. -/
theorem C143_lost_false (P : ServerExt) (hfold : ∀ a b : Hash, P.D.fold (Hash.toPlainStr a) = P.D.fold (Hash.toPlainStr b) → a = b)
    (u g : Bytes) (hu : Spec.CleanUrl u) (hg : g = [] ∨ g = ascii ".git") (h1 : List (Moment × HttpReq)) (m1 : Moment)
    (hun1 : UniqueIds P.X (runServer P .empty h1).db) (hm1 : m1.sql.fold = P.D.fold) (hacc : Spec.Accepts m1.sql)
    (c : Spec.PushCmd) (hc : c.Ok) (hnew : c.old = zeroId) (caps : Bytes) (hcaps : caps.length ≤ 4000) (hascii : ∀ x ∈ caps, x.toNat < 128)
    (os : List (Nat × Spec.Obj)) (pack : Bytes) (hpack : Spec.PackOf P.X P.D.fold (runServer P .empty h1).db pack os) (hproj : Spec.Project P.X os)
    (hfuel : os.length < m1.fuel) (o : Nat × Spec.Obj) (_ho : o ∈ os) (ht : o.2.1 = .tag) (hid : c.new = Hash.toPlainStr (idOf P.X o.2)) :
    ∃ rep, (serve P m1 (runServer P .empty h1) (Spec.pushReq (u ++ g) (Spec.pushBody c [] caps pack))).1 = .reply (.ok (.bytes rep)) ∧
      Spec.reportLines (decide (.sideBand ∈ parseCapabilities caps ∨ .sideBand64k ∈ parseCapabilities caps)) rep =
        some [ascii "unpack ok\n", Spec.statusLine (c.name ++ [0]) none] ∧
      { repoPath := u, refName := c.name ++ [0], refGitId := Hash.toPlainStr (idOf P.X o.2) } ∈
        (serve P m1 (runServer P .empty h1) (Spec.pushReq (u ++ g) (Spec.pushBody c [] caps pack))).2.db.refs ∧
      ∀ (h2 : List (Moment × HttpReq)) (path : Bytes) (h : List (Moment × HttpReq)),
        h = h1 ++ (m1, Spec.pushReq (u ++ g) (Spec.pushBody c [] caps pack)) :: h2 → Spec.SameFold P.D.fold h → Spec.NoneAbove P.D.fold path h →
        UniqueIds P.X (runServer P .empty h).db → (∀ x, StoredObj (runServer P .empty h).db x → idOf P.X x = idOf P.X o.2 → x = o.2) → FitsPack P.X (runServer P .empty h).db →
        ∀ (m : Moment), m.sql.fold = P.D.fold → (∀ l x, x ∈ m.ord l ↔ x ∈ l) → ∀ (r : HttpReq), route r.method r.path r.service = .uploadPack path → ∀ out,
        (serve P m (runServer P .empty h) r).1 = .reply (.ok (.bytes out)) →
        ∃ (lines : List Bytes) (caps' : List Capability) (file : Bytes), out = lines.flatMap (fun l => hex4 (l.length + 4) ++ l) ++ sendPack caps' (m.cut file) ∧
          (∀ l ∈ lines, Spec.AckLine r.body l) ∧
          (file = [] ∨ ∃ ms, PackHas P.X file ms ∧ ∀ x ∈ ms, x.t ≠ .tag ∧ x.id ≠ idOf P.X o.2) := by
  obtain ⟨p, db1, rep, st', d1, d2, d3, d4, d5, d6⟩ := project_stored hfold (run_nodes P h1 _ (nodesOk_empty _)) hun1 hm1 hacc hc hcaps hascii (.inl hnew) hpack hproj hfuel
  obtain ⟨e1, e2⟩ := serve_push_ok (P := P) (s := runServer P .empty h1) hu hg d5
  obtain ⟨_, _, _, _, _, _, e3⟩ := C26_durable_partial P.X m1.sql m1.fuel u _ c hc caps hcaps hascii pack (decodePack_magic d1) hacc.commits hacc.refs rep st' d5
  refine ⟨rep, e1, d6, ?_, ?_⟩
  · rw [e2]
    rcases e3 with ⟨_, e3⟩ | ⟨e3, _⟩
    · rw [e3, ← hid]
      simp
    · exact absurd hnew e3
  · intro h2 path h _ hf hab hu2 hcol hfit m hm hord r hr out hout
    have hrun := run_store P path _ h rfl hf hab
    obtain ⟨lines, caps', file, k1, k2, k3⟩ := fetch_confined hrun hu2 hfold hfit (Q := fun x => x.1 ≠ .tag ∧ StoredObj (runServer P .empty h).db x)
      (fun x hx => ⟨inRepo_not_tag hx, inRepo_stored hx⟩) hm hord ((serve_fetch hr).1 hout)
    refine ⟨lines, caps', file, k1, k2, k3.imp_right fun ⟨ms, k4, k5⟩ => ⟨ms, k4, fun x hx => ?_⟩⟩
    obtain ⟨y, ⟨y1, y2⟩, rfl⟩ := k5 x hx
    refine ⟨y1, fun e => ?_⟩
    rw [hcol y y2 e] at y1
    exact y1 ht

/-- A fetch of things that are not commits of the repository. -/
theorem fetch_unknown {St : FetchStore} {ord : List Bytes → List Bytes} (hord : ∀ l x, x ∈ ord l ↔ x ∈ l) (cut : Bytes → List Bytes) {ls : List Spec.ReqLine} (h : ∀ l ∈ ls, l.Ok)
    {t rest : Bytes} (ht : t.length ≤ 65000) (hh : Spec.haveIds ls ≠ []) (hask : Spec.Asks ls (ascii "multi_ack_detailed"))
    (hinc : ∀ w v, (∀ x, x ∈ w ↔ x ∈ Spec.wantIds ls) → St.incPack w v = .panic) : httpUploadPack St ord cut (doneBody ls t rest) = .panic := by
  obtain ⟨s, hw, hv, hc, e⟩ := httpUploadPack_done St ord cut ls h t rest ht
  have hcap : Capability.multiAckDetailed ∈ s.caps := by
    rw [hc]
    obtain ⟨tail, words, q1, q2, q3⟩ := hask
    unfold requestCaps
    rw [q1]
    rcases q3 with q3 | q3
    · exact (C21_capabilities_iff _ _ q2 _).2 ⟨_, q3, [], [], .nil, .nil, by rfl⟩
    · exact (C21_capabilities_iff _ _ q2 _).2 ⟨_, q3, [], [10], .nil, .cons (.tab_to_cr 10 (by decide) (by decide)) .nil, by rfl⟩
  have hne : ord s.have_ ≠ [] := by
    intro e0
    apply hh
    rw [List.eq_nil_iff_forall_not_mem] at e0 ⊢
    exact fun x hx => e0 x ((hord _ x).2 ((hv x).2 hx))
  have hp := hinc (ord s.want) (ord s.have_) (fun x => by rw [hord, hw])
  rw [e]
  simp only [fetchAnswer, if_neg hne, if_pos hcap, hp]
  rfl

/-- **C143 is false** for clients that fetch an annotated tag into a repository that has something already (the ref with the id of the tag is shown to them, see `C143_lost_false`): the
connection is dropped, after any history of requests, with whatever ids the client says it has. The only id wanted is that of the tag; no other stored object has the same. -/
theorem C143_fetch_false (P : ServerExt) {u g : Bytes} (hu : Spec.CleanUrl u) (hg : g = [] ∨ g = ascii ".git") (h : List (Moment × HttpReq)) (m : Moment)
    (hord : ∀ l x, x ∈ m.ord l ↔ x ∈ l) (o : Spec.Obj) (ho : o.1 = .tag) (hcol : ∀ x, StoredObj (runServer P .empty h).db x → idOf P.X x = idOf P.X o → x = o)
    (ls : List Spec.ReqLine) (hls : ∀ l ∈ ls, l.Ok) (t rest : Bytes) (ht : t.length ≤ 65000) (hhave : Spec.haveIds ls ≠ []) (hask : Spec.Asks ls (ascii "multi_ack_detailed"))
    (hw : ∀ x ∈ Spec.wantIds ls, x = Hash.toPlainStr (idOf P.X o)) :
    (serve P m (runServer P .empty h) (Spec.fetchReq (u ++ g) (doneBody ls t rest))).1 = .reply .panic := by
  have hp : httpUploadPack (mysqlFetch P.X m.sql m.fuel (runServer P .empty h).db u) m.ord m.cut (doneBody ls t rest) = .panic := by
    apply fetch_unknown hord m.cut hls ht hhave hask
    intro w v hwv
    apply C50_unknown_wants
    intro r hr hmem
    have e := hw _ ((hwv _).1 hmem)
    have e1 := Hash.toPlainStr_injective e
    have e2 := hcol _ (.inr ⟨r, (commitsAt_mem.1 hr).1, rfl⟩) e1
    rw [← e2] at ho
    cases ho
  have hroute : route .post (u ++ g ++ ascii "/git-upload-pack") none = .uploadPack u := route_fetch hu hg
  unfold serve
  simp only [Spec.fetchReq, hroute, hp, Res.outcome]

/-- **C143 (partial)** A lightweight tag, that is a ref (of whatever name) that names a commit of the pushed project, works: the push is answered, the ref is stored with the id of the
commit and stays as long as nobody pushes to the same repository, and whoever clones finds the commit with exactly its files. Annotated tags in the same push do no harm to the
commits. (Missing from the full claim: annotated tags, see `C143_lost_false`; the name is stored with a NUL byte appended, see `C96_name_false`.) -/
theorem C143_light_partial (P : ServerExt) (hfold : ∀ a b : Hash, P.D.fold (Hash.toPlainStr a) = P.D.fold (Hash.toPlainStr b) → a = b)
    (u g g' : Bytes) (hu : Spec.CleanUrl u) (hg : g = [] ∨ g = ascii ".git") (hg' : g' = [] ∨ g' = ascii ".git")
    (h1 h2 : List (Moment × HttpReq)) (m1 m2 : Moment)
    (c : Spec.PushCmd) (hc : c.Ok) (hnew : c.old = zeroId) (caps : Bytes) (hcaps : caps.length ≤ 4000) (hascii : ∀ x ∈ caps, x.toNat < 128)
    (os : List (Nat × Spec.Obj)) (pack : Bytes) (hpack : Spec.PackOf P.X P.D.fold (runServer P .empty h1).db pack os) (hproj : Spec.Project P.X os)
    (o : Nat × Spec.Obj) (ho : o ∈ os) (ht : o.2.1 = .commit) (hid : c.new = Hash.toPlainStr (idOf P.X o.2))
    (push : HttpReq) (hreq : push = Spec.pushReq (u ++ g) (Spec.pushBody c [] caps pack))
    (hacc : Spec.Accepts m1.sql) (hfuel1 : os.length < m1.fuel)
    (hfl : Spec.SameFold P.D.fold (h1 ++ [(m1, push)] ++ h2)) (hm2 : m2.sql.fold = P.D.fold)
    (hab : Spec.NoneAbove P.D.fold u (h1 ++ [(m1, push)] ++ h2))
    (hun : UniqueIds P.X (runServer P .empty (h1 ++ [(m1, push)] ++ h2)).db)
    (hfit : FitsPack P.X (runServer P .empty (h1 ++ [(m1, push)] ++ h2)).db)
    (hfuel2 : (runServer P .empty (h1 ++ [(m1, push)] ++ h2)).db.nodes.length ≤ m2.fuel)
    (hord : ∀ l x, x ∈ m2.ord l ↔ x ∈ l) (hcut : Spec.CutOk m2.cut) (ls : List Spec.ReqLine) (t rest : Bytes) (hr : Spec.CloneReq ls t) :
    ∃ rep out file, (serve P m1 (runServer P .empty h1) push).1 = .reply (.ok (.bytes rep)) ∧
      Spec.reportLines (decide (.sideBand ∈ parseCapabilities caps ∨ .sideBand64k ∈ parseCapabilities caps)) rep =
        some [ascii "unpack ok\n", Spec.statusLine (c.name ++ [0]) none] ∧
      ((∀ q ∈ h2, ∀ a, route q.2.method q.2.path q.2.service = .receivePack a → P.D.fold a ≠ P.D.fold u) →
        { repoPath := u, refName := c.name ++ [0], refGitId := Hash.toPlainStr (idOf P.X o.2) } ∈ (runServer P .empty (h1 ++ [(m1, push)] ++ h2)).db.refs) ∧
      (serve P m2 (runServer P .empty (h1 ++ [(m1, push)] ++ h2)) (Spec.fetchReq (u ++ g') (doneBody ls t rest))).1 = .reply (.ok (.bytes out)) ∧
      Spec.readClone out = some file ∧
      ∀ St fuel, ∃ q, decodePack P.X St (fuel + 1) file = .ok q ∧ q.result.hashObject (idOf P.X o.2) = some (metaOf P.X o.2) ∧
        ∀ path mode data, Spec.CheckedOut (Spec.found P.X os) (idOf P.X o.2) path mode data ↔ Spec.CheckedOut q.result.hashObject (idOf P.X o.2) path mode data := by
  obtain ⟨rep, out, file, r1, r2, r3, r4, r5⟩ := C111_published_partial P hfold u g g' hu hg hg' h1 h2 m1 m2 c hc caps hcaps hascii (.inl hnew) os pack hpack hproj ⟨o, ho, ht⟩ push hreq
    hacc hfuel1 hfl hm2 hab hun hfit hfuel2 hord hcut ls t rest hr
  have ext1 : Extends (runServer P .empty h1).db (runServer P .empty (h1 ++ [(m1, push)] ++ h2)).db := by
    rw [List.append_assoc, runServer_append]
    exact run_extends P _ _
  obtain ⟨p, db1, rep', st', d1, d2, d3, d4, d5, d6⟩ := project_stored hfold (run_nodes P h1 _ (nodesOk_empty _)) (ext1.unique hun) (hfl (m1, push) (by simp)) hacc hc hcaps hascii
    (.inl hnew) hpack hproj hfuel1
  obtain ⟨_, e2⟩ := serve_push_ok (P := P) (s := runServer P .empty h1) hu hg d5
  obtain ⟨p', d1', e4, _, _, _, e3⟩ := C26_durable_partial P.X m1.sql m1.fuel u _ c hc caps hcaps hascii pack (decodePack_magic d1) hacc.commits hacc.refs rep' st' d5
  obtain rfl : p = p' := Res.ok.inj (d1.symm.trans d1')
  have edb : (runServer P .empty (h1 ++ [(m1, push)])).db = st'.db := by rw [runServer_concat, hreq, e2]
  refine ⟨rep, out, file, r1, r2, fun hno => ?_, r3, r4, fun St fuel => ?_⟩
  · rw [runServer_append]
    apply run_row (P := P) (u := u) rfl (fun q hq => ⟨hfl q (by simp [hq]), hno q hq⟩)
    rw [edb]
    rcases e3 with ⟨_, e3⟩ | ⟨e3, _⟩
    · rw [e3, ← hid]
      simp
    · exact absurd hnew e3
  · obtain ⟨q, q1, q2⟩ := r5 St fuel
    refine ⟨q, q1, ?_, q2 o ho ht⟩
    obtain ⟨row, w1, _, w2, w3⟩ := e4 (metaOf P.X o.2) (by rw [d2]; exact (found_iff hpack.ids _ _).2 ⟨o, ho, rfl, rfl⟩) ht
    have w4 : row ∈ commitsAt P.D.fold (runServer P .empty (h1 ++ [(m1, push)] ++ h2)).db.commits u := by
      refine commitsAt_mem.2 ⟨(?_ : row ∈ _), by rw [w3]⟩
      rw [runServer_append]
      exact (run_extends P h2 _).commits row (by rw [edb]; exact w1)
    obtain ⟨out', file', ms, c1, c2, c3, c4⟩ := C78_clone_stack_partial P hfold u g' hu hg' _ m2 hfl hm2 hab hun hfit hfuel2 (List.ne_nil_of_mem w4) hord hcut ls t rest hr
    rw [r3] at c1
    cases c1
    rw [r4] at c2
    cases c2
    obtain ⟨q', k1, _, k2⟩ := c3.2 St fuel
    obtain rfl : q = q' := Res.ok.inj (q1.symm.trans k1)
    refine (k2 _ _).2 ⟨(c4 _).2 ⟨_, .commit row w4, ?_⟩, rfl⟩
    have : o.2 = (.commit, o.2.2) := Prod.ext ht rfl
    rw [show row.data = o.2.2 from w2, ← this]

end Gust

import Verif.Props.SchemaExamples
import Verif.Props.NoMaster

/-! # C125, C126: projects with submodules, and branches that start at an existing commit -/

namespace Gust

/-! ## C125: submodules -/

/-- **C125 is false**, whatever the server has stored and whatever the database does: a push over HTTP or SSH is not answered if some directory of one of the pushed commits has an entry
that is neither a file nor a directory of the pack. The entries for submodules are of this kind: they name commits of other repositories. -/
theorem C125_submodule_false (P : ServerExt) (u : Bytes) (c : Spec.PushCmd) (hc : c.Ok) (caps : Bytes) (hcaps : caps.length ≤ 4000)
    (hascii : ∀ x ∈ caps, x.toNat < 128) (pack : Bytes) (hpack : (ascii "PACK").isPrefixOf pack = true) (m : Moment) (h : BothHist)
    (p : Pack) (hdec : decodePack P.X (getHashObject P.X m.sql (runBoth P .empty h).web.db) m.fuel pack = .ok p)
    (x : Hash) (hx : Spec.PackReach p.result.hashObject x) (hsub : ∀ o, p.result.hashObject x = some o → o.t ≠ .tree ∧ o.t ≠ .blob) :
    ∀ rep h', ¬ Spec.PushedAny P u c caps pack rep m h h' := by
  intro rep h' hpush
  obtain ⟨st', e1, e2, _⟩ := pushedAny_http hc hcaps hascii hpush
  rw [push_answer _ u _ c hc caps hcaps hascii pack hpack] at e1
  obtain ⟨p', db1, h1, h2, h3, _⟩ := receiveData_ok rfl (Res.unwrap_eq_ok.1 e1)
  simp only at h1 h2 h3
  rw [hdec] at h1
  cases h1
  obtain ⟨rows, _, _, k1, k2⟩ := C48_stored_partial hdec m.sql m.fuel u _ _ h2
  obtain ⟨r, hr, e⟩ := k2 x hx
  obtain ⟨o, q1, q2, _, q3⟩ := k1 r hr
  obtain rfl : o.id = x := Hash.toPlainStr_injective (q2.symm.trans e)
  obtain ⟨n1, n2⟩ := hsub o q1
  rcases q3 with ⟨t, _⟩ | ⟨t, _⟩
  · exact n1 t
  · exact n2 t

/-- A project whose only entry is the submodule `lib`. -/
def subItems : List TreeItem := [{ mode := ascii "160000", itemType := .commit, id := ⟨List.replicate 20 7, rfl⟩, filename := ascii "lib" }]
def subCommit : Commit := { exampleCommit [] with treeId := idOf polyExt (.tree, encodeTree subItems) }
def subObjects : List MetaData := [metaOf polyExt (.commit, subCommit.encode), metaOf polyExt (.tree, encodeTree subItems)]

theorem subCommit_decode : Commit.decode subCommit.encode = .ok subCommit :=
  commit_decode_encode _ ⟨(exampleCommit_ok []).author, (exampleCommit_ok []).author_line, (exampleCommit_ok []).author_role, (exampleCommit_ok []).committer,
    (exampleCommit_ok []).committer_line, (exampleCommit_ok []).message⟩

theorem subItems_decode : decodeTree (encodeTree subItems) = .ok subItems := by
  apply C08_tree_roundtrip
  intro i hi
  rw [List.mem_singleton.1 hi]
  exact ⟨by decide +kernel, by decide +kernel, utf8Valid_ascii _ (by decide)⟩

theorem subObjects_new : ∀ m ∈ subObjects, MetaData.new polyExt m.t m.data = .ok m := by
  intro m hm
  simp only [subObjects, List.mem_cons, List.not_mem_nil, or_false] at hm
  rcases hm with rfl | rfl
  · exact new_metaOf polyExt (.commit, _) rfl
  · exact new_metaOf polyExt (.tree, _) rfl

/-- **C125 is false**: there is a well-formed pack of a project with a submodule, the push of which is not answered by the server of the examples, whatever has happened on it before, over HTTP and SSH,
to whichever repository and branch. -/
theorem C125_lib_false : ∃ pack : Bytes, (∃ r, encodePack polyExt subObjects = .ok (r, pack)) ∧
    ∀ (h : BothHist) (u : Bytes) (c : Spec.PushCmd), c.Ok → ∀ (m : Moment), 0 < m.fuel → ∀ rep h', ¬ Spec.PushedAny demoServer u c (ascii "report-status") pack rep m h h' := by
  have key : ∀ St fuel, ∃ r pack p, encodePack polyExt subObjects = .ok (r, pack) ∧ decodePack polyExt St (fuel + 1) pack = .ok p ∧
      ∀ h m, p.result.hashObject h = some m ↔ m ∈ subObjects ∧ m.id = h := by
    intro St fuel
    have hn : (subObjects.map MetaData.id).Nodup := by decide +kernel
    obtain ⟨body, file, p, h1, _, h2, h3⟩ := C27_pack_roundtrip polyExt St subObjects subObjects_new (fun a ha b hb e => List.inj_on_of_nodup_map hn ha hb e)
      (by decide +kernel) (by decide) (by decide) (by decide +kernel) fuel
    exact ⟨_, file, p, h1, h2, h3.byId⟩
  obtain ⟨r0, pack, _, e0, _, _⟩ := key (fun _ => none) 0
  refine ⟨pack, ⟨r0, e0⟩, fun h u c hc m hm => ?_⟩
  obtain ⟨f, hf⟩ : ∃ f, m.fuel = f + 1 := ⟨m.fuel - 1, by omega⟩
  obtain ⟨r, pack', p, e, h1, h2⟩ := key (getHashObject polyExt m.sql (runBoth demoServer .empty h).web.db) f
  rw [e0] at e
  obtain ⟨_, rfl⟩ := Prod.mk.inj (Res.ok.inj e)
  have hcommit := (h2 _ _).2 ⟨(by simp [subObjects] : metaOf polyExt (.commit, subCommit.encode) ∈ subObjects), rfl⟩
  have htree := (h2 _ _).2 ⟨(by simp [subObjects] : metaOf polyExt (.tree, encodeTree subItems) ∈ subObjects), rfl⟩
  refine C125_submodule_false demoServer u c hc (ascii "report-status") (by decide) (by decide) pack (decodePack_magic h1) m h p (by rw [hf]; exact h1) ⟨List.replicate 20 7, rfl⟩
    (.item _ subItems _ (.commit _ subCommit hcommit rfl subCommit_decode) htree rfl subItems_decode (.head _)) ?_
  intro o ho
  obtain ⟨hm, e⟩ := (h2 _ _).1 ho
  exact absurd e ((by decide +kernel : ∀ m ∈ subObjects, m.id ≠ ⟨List.replicate 20 7, rfl⟩) o hm)

/-! ## C126: branches that start at an existing commit -/

/-- A pack without objects is read and nothing is stored. -/
theorem nothing_pushed {X : Ext} (St : ObjectSource) {pack : Bytes} {trailer : Hash} (hp : Spec.PackFile X.inflate pack [] trailer) (fuel : Nat) (E : SqlExt) (path : Bytes) (db : Db) :
    ∃ p, decodePack X St fuel pack = .ok p ∧ savePackfile E fuel p path db = (.ok (), db) := by
  obtain ⟨hd, s, rfl, hh, hs⟩ := hp
  cases hs
  have hlen : hd.length = 12 := by
    have := congrArg List.length hh.2
    simpa [Spec.be32] using this
  have hdec : decodePack X St fuel (hd ++ trailer.1) = .ok { numberOfObjects := 0, signature := trailer, result := PackCache.empty } := by
    have hdrop : (hd ++ trailer.1).drop 12 = trailer.1 := by rw [← hlen, List.drop_left]
    have hrd : readBytes 20 trailer.1 = .ok (trailer.1, []) := by
      unfold readBytes
      rw [if_pos (by rw [trailer.2]), List.take_of_length_le (by rw [trailer.2]), List.drop_of_length_le (by rw [trailer.2])]
    have hrow : Hash.fromRow trailer.1 = .ok trailer := by
      unfold Hash.fromRow
      rw [dif_pos trailer.2]
    unfold decodePack
    rw [(C29_header_iff _ 0 trailer.1).2 ⟨hd, rfl, hh⟩]
    simp only [Res.bind_ok, decodeLoop, hdrop, hrd, Res.unwrap_ok, hrow]
    rfl
  refine ⟨_, hdec, ?_⟩
  have hu := E.pool_outcome PackCache.empty
  rcases update_outcomes hu with hp | ⟨D, hD⟩
  · obtain ⟨m, hm, _⟩ := ((C36_fails_iff (c := PackCache.empty) (PackCache.keyed_run [])).2 _ hu).1 hp
    cases hm
  · have hH : D.Holds PackCache.empty := update_holds (PackCache.keyed_run []) (by rwa [hD] at hu)
    have hc : D.commits = [] := by
      cases hcs : D.commits with
      | nil => rfl
      | cons y ys =>
        have := ((hH.commits y.base).1 (by rw [hcs]; simp)).2
        cases this
    simp only [savePackfile, hD, buildNodeTree, hc, buildCommits, saveNodes, nodeBatches, saveCommits]
    rfl

/-- A push without objects does to the refs what its command says, and nothing else. -/
theorem nothing_answered {X : Ext} {E : SqlExt} {fuel : Nat} {u : Bytes} {db : Db} {c : Spec.PushCmd} (hc : c.Ok) {caps : Bytes} (hcaps : caps.length ≤ 4000)
    (hascii : ∀ x ∈ caps, x.toNat < 128) {pack : Bytes} {trailer : Hash} (hp : Spec.PackFile X.inflate pack [] trailer) {db2 : Db}
    (hk : handleRefs E (RefCommand.new c.old c.new (c.name ++ [0])) u db = (.ok (), db2)) :
    ∃ rep st', httpReceivePack (mysqlPush X E fuel) { caps := [], commands := [], path := u, db := db } (Spec.pushBody c [] caps pack) = .ok (rep, st') ∧ st'.db = db2 ∧
      Spec.reportLines (decide (.sideBand ∈ parseCapabilities caps ∨ .sideBand64k ∈ parseCapabilities caps)) rep =
        some [ascii "unpack ok\n", Spec.statusLine (c.name ++ [0]) none] := by
  obtain ⟨p, d1, d2⟩ := nothing_pushed (getHashObject X E db) hp fuel E u db
  obtain ⟨rep, st', r1, r2, r3⟩ := (C70_report_partial (mysqlPush X E fuel) u db db c hc caps hcaps hascii pack (decodePack_magic d1) p d1).1 _ d2 hk
  exact ⟨rep, st', r1, r2, r3⟩

/-- The same over HTTP. -/
theorem push_nothing {P : ServerExt} {u g : Bytes} (hu : Spec.CleanUrl u) (hg : g = [] ∨ g = ascii ".git") (s : ServerState) (m : Moment)
    {c : Spec.PushCmd} (hc : c.Ok) {caps : Bytes} (hcaps : caps.length ≤ 4000) (hascii : ∀ x ∈ caps, x.toNat < 128)
    {pack : Bytes} {trailer : Hash} (hp : Spec.PackFile P.X.inflate pack [] trailer) {db2 : Db}
    (hk : handleRefs m.sql (RefCommand.new c.old c.new (c.name ++ [0])) u s.db = (.ok (), db2)) :
    ∃ rep, serve P m s (Spec.pushReq (u ++ g) (Spec.pushBody c [] caps pack)) = (.reply (.ok (.bytes rep)), { s with db := db2 }) ∧
      Spec.reportLines (decide (.sideBand ∈ parseCapabilities caps ∨ .sideBand64k ∈ parseCapabilities caps)) rep =
        some [ascii "unpack ok\n", Spec.statusLine (c.name ++ [0]) none] := by
  obtain ⟨rep, st', r1, r2, r3⟩ := nothing_answered (X := P.X) (E := m.sql) (fuel := m.fuel) hc hcaps hascii hp hk
  refine ⟨rep, ?_, r3⟩
  have e2 := httpReceiveDb_ok _ _ _ _ _ r1
  have hroute : route .post (u ++ g ++ ascii "/git-receive-pack") none = .receivePack u := route_push hu hg
  unfold serve
  simp only [Spec.pushReq, hroute, r1, e2, r2]
  rfl

/-- **C126 (partial)** Whatever has happened before: the push of a branch that is to start at any commit, with a pack without objects as git clients send it when the server has the commit, is answered with `ok`;
the branch is added, and nothing else changes. The database accepts the row. (Missing from the full claim: see `C126_hidden_false` and `C126_wrong_branch_false`.) -/
theorem C126_started_partial (P : ServerExt) (u g : Bytes) (hu : Spec.CleanUrl u) (hg : g = [] ∨ g = ascii ".git") (s : ServerState) (m : Moment)
    (c : Spec.PushCmd) (hc : c.Ok) (hcreate : c.old = zeroId) (caps : Bytes) (hcaps : caps.length ≤ 4000) (hascii : ∀ x ∈ caps, x.toNat < 128)
    (pack : Bytes) (trailer : Hash) (hp : Spec.PackFile P.X.inflate pack [] trailer)
    (hacc : m.sql.acceptRefs s.db.inserts [{ repoPath := u, refName := c.name ++ [0], refGitId := c.new }] = true) :
    ∃ rep, serve P m s (Spec.pushReq (u ++ g) (Spec.pushBody c [] caps pack)) = (.reply (.ok (.bytes rep)), { s with db := { s.db with
        refs := s.db.refs ++ [{ repoPath := u, refName := c.name ++ [0], refGitId := c.new }], inserts := s.db.inserts + 1 } }) ∧
      Spec.reportLines (decide (.sideBand ∈ parseCapabilities caps ∨ .sideBand64k ∈ parseCapabilities caps)) rep =
        some [ascii "unpack ok\n", Spec.statusLine (c.name ++ [0]) none] := by
  refine push_nothing hu hg s m hc hcaps hascii hp ?_
  simp only [handleRefs, RefCommand.new, hcreate, if_true, saveRefs, chunks_one, insertRefs]
  rw [if_pos hacc]

/-- **C126 (partial)** Whatever has happened before: the push that moves a branch to any commit, with a pack without objects, is answered with `ok`; the branch has the new value, and nothing else
changes. No other branch of the repository has the old value, and the database takes the statement. (Missing from the full claim: branches with the same value, see `C126_wrong_branch_false`.) -/
theorem C126_moved_partial (P : ServerExt) (u g : Bytes) (hu : Spec.CleanUrl u) (hg : g = [] ∨ g = ascii ".git") (s : ServerState) (m : Moment)
    (c : Spec.PushCmd) (hc : c.Ok) (hold : c.old ≠ zeroId) (hnew : c.new ≠ zeroId) (caps : Bytes) (hcaps : caps.length ≤ 4000) (hascii : ∀ x ∈ caps, x.toNat < 128)
    (pack : Bytes) (trailer : Hash) (hp : Spec.PackFile P.X.inflate pack [] trailer)
    (pre post : List RefRow) (hdb : s.db.refs = pre ++ { repoPath := u, refName := c.name ++ [0], refGitId := c.old } :: post)
    (huniq : ∀ x ∈ pre ++ post, m.sql.fold x.repoPath = m.sql.fold u → m.sql.fold x.refGitId ≠ m.sql.fold c.old) (hacc : m.sql.acceptUpdate s.db.inserts c.new = true) :
    ∃ rep, serve P m s (Spec.pushReq (u ++ g) (Spec.pushBody c [] caps pack)) = (.reply (.ok (.bytes rep)), { s with db := { s.db with
        refs := pre ++ { repoPath := u, refName := c.name ++ [0], refGitId := c.new } :: post } }) ∧
      Spec.reportLines (decide (.sideBand ∈ parseCapabilities caps ∨ .sideBand64k ∈ parseCapabilities caps)) rep =
        some [ascii "unpack ok\n", Spec.statusLine (c.name ++ [0]) none] := by
  exact push_nothing hu hg s m hc hcaps hascii hp (C53_update_partial m.sql (RefCommand.new c.old c.new (c.name ++ [0])) u s.db
    (by simp only [RefCommand.new, if_neg (Ne.symm hold), if_neg (Ne.symm hnew)]) pre post _ hdb rfl rfl huniq hacc)

/-- A reply to the question for the refs can be read in one way only. -/
theorem shows_unique {t : ServiceType} {out head head' : Bytes} {refs refs' : List (Bytes × Bytes)} (h : Spec.Shows t out head refs) (h' : Spec.Shows t out head' refs') :
    head = head' ∧ refs = refs' := by
  obtain ⟨pkts, e, first, lines, a1, a2, a3⟩ := h
  obtain ⟨pkts', e', first', lines', b1, b2, b3⟩ := h'
  rw [e] at e'
  simp only [Option.some.injEq, List.cons.injEq, true_and] at e'
  subst e'
  rw [a1] at b1
  simp only [List.cons_append, List.cons.injEq, Spec.Pkt.line.injEq, List.append_cancel_right_eq] at b1
  obtain ⟨rfl, b1⟩ := b1
  have hl : lines = lines' := List.map_injective_iff.2 (fun a b h => by simpa using h) b1
  subst hl
  rw [a2] at b2
  simp only [Option.some.injEq, Prod.mk.injEq] at b2
  exact ⟨b2.1, List.map_injective_iff.2 (Option.some_injective _) (a3.symm.trans b3)⟩

/-- **C126 is false**: whatever has happened before and whatever the database does, no client that asks for the refs of a repository is shown two branches with the same value. So a branch that
starts at the commit of another one is not seen, or the other one is no longer seen. -/
theorem C126_hidden_false (P : ServerExt) (u g : Bytes) (hu : Spec.CleanUrl u) (hg : g = [] ∨ g = ascii ".git") (t : ServiceType) (s s' : ServerState) (m : Moment)
    (out head : Bytes) (refs : List (Bytes × Bytes))
    (ha : serve P m s (Spec.refsReq (u ++ g) t) = (.reply (.ok (.bytes out)), s')) (ht : ∀ r ∈ s'.db.refs, Spec.RefText r) (hs : Spec.Shows t out head refs)
    (id a b : Bytes) (h1 : (id, a) ∈ refs) (h2 : (id, b) ∈ refs) : a = b := by
  have hr : route .get (u ++ g ++ ascii "/info/refs") (some t.display) = .infoRefs u t := route_discover hu hg t
  unfold serve at ha
  simp only [Spec.refsReq, hr] at ha
  unfold advertise at ha
  rcases hg : getHeadObjectId P.X m.sql s.db u with ⟨hd, db'⟩
  rw [hg] at ha
  cases hd with
  | ok headId =>
    simp only [Res.outcome, Prod.mk.injEq, Outcome.reply.injEq, Reply.ok.injEq, Payload.bytes.injEq] at ha
    obtain ⟨rfl, rfl⟩ := ha
    simp only at ht
    obtain ⟨a1, b1⟩ := getHead_hex hg (fun r h e => by
      have h' := ht r ((getHead_refs hg).1 r h)
      exact ⟨h'.1, h'.2.1⟩)
    obtain ⟨pkts, k1, k2⟩ := C60_advertisement_http t headId (getRefObjectId m.sql db' u) a1 b1 (by
      intro q hq
      obtain ⟨r, hr', e1, e2⟩ := foldl_entry_from db'.refs _ [] (fun r hr => (List.mem_filter.1 ((m.sql.order_perm _).mem_iff.1 hr)).1) (by intro p hp; cases hp) q hq
      have := ht r hr'
      rw [← e1, ← e2]
      exact this)
    obtain ⟨_, rfl⟩ := shows_unique hs ⟨pkts, k1, k2⟩
    have hn : ((getRefObjectId m.sql db' u).map Prod.fst).Nodup := foldl_entry_nodup _ _ (by simp)
    simpa using List.inj_on_of_nodup_map hn h1 h2 rfl
  | err e => simp [Res.outcome] at ha
  | panic => simp [Res.outcome] at ha
  | spin => simp [Res.outcome] at ha

theorem first_position {α : Type} {f : α → Bool} {pre post : List α} {r : α} (hr : f r = true) (hpre : ∀ x ∈ pre, f x = false) :
    ((List.range (pre ++ r :: post).length).filter (fun i => ((pre ++ r :: post)[i]?).any f)).head? = some pre.length := by
  rw [show (pre ++ r :: post).length = pre.length + (1 + post.length) by simp; omega, List.range_add, List.filter_append,
    List.filter_eq_nil_iff.2 (fun i hi => ?_), Nat.add_comm 1, List.range_succ_eq_map]
  · simp [hr]
  · have hi := List.mem_range.1 hi
    rw [List.getElem?_append_left hi, List.getElem?_eq_getElem hi]
    simp [hpre _ (List.getElem_mem hi)]

theorem modify_at {α : Type} (f : α → α) {r : α} {post : List α} : ∀ pre : List α, (pre ++ r :: post).modify pre.length f = pre ++ f r :: post
  | [] => rfl
  | x :: pre => by
    rw [List.cons_append, List.length_cons, List.modify_succ_cons, modify_at f pre]
    rfl

/-- The database has taken the statement of an update that has been made. -/
theorem updated_accepted {E : SqlExt} {cmd : RefCommand} {path : Bytes} {db db' : Db} (hc : cmd.commandType = .update) (h : handleRefs E cmd path db = (.ok (), db')) :
    E.acceptUpdate db.inserts cmd.newId = true := by
  rw [handleRefs, hc] at h
  simp only [updateRefs] at h
  split at h
  · split at h
    · assumption
    · cases (Prod.mk.inj h).1
  · cases (Prod.mk.inj h).1

/-- Which row an update changes when rows are found in the order of insertion. -/
theorem handleRefs_first {E : SqlExt} (hord : ∀ (α : Type) (l : List α), E.order l = l) {u : Bytes} {c : Spec.PushCmd} (hold : c.old ≠ zeroId) (hnew : c.new ≠ zeroId) (db : Db)
    {pre post : List RefRow} {r : RefRow} (hdb : db.refs = pre ++ r :: post) (hr : r.repoPath = u) (hid : r.refGitId = c.old)
    (hfirst : ∀ x ∈ pre, E.fold x.repoPath = E.fold u → E.fold x.refGitId ≠ E.fold c.old) (hacc : E.acceptUpdate db.inserts c.new = true) :
    handleRefs E (RefCommand.new c.old c.new (c.name ++ [0])) u db = (.ok (), { db with refs := pre ++ { r with refGitId := c.new } :: post }) := by
  unfold handleRefs
  simp only [RefCommand.new, if_neg (Ne.symm hold), if_neg (Ne.symm hnew), updateRefs, hord, hdb]
  rw [first_position (by simp [updateMatches, hr, hid]) (fun x hx => by
    have := hfirst x hx
    simp only [updateMatches, Bool.and_eq_false_iff, beq_eq_false_iff_ne]
    by_cases e : E.fold x.repoPath = E.fold u
    · exact .inl (this e)
    · exact .inr e)]
  simp only [modify_at, hacc, if_true]

/-- **C126 is false**, when the database finds rows in the order in which they were inserted: an answered push over HTTP or SSH that is to move a branch moves the first branch of the repository with
the old value instead, whatever its name. -/
theorem C126_wrong_branch_false (P : ServerExt) (u : Bytes) (c : Spec.PushCmd) (hc : c.Ok) (hold : c.old ≠ zeroId) (hnew : c.new ≠ zeroId) (caps : Bytes) (hcaps : caps.length ≤ 4000)
    (hascii : ∀ x ∈ caps, x.toNat < 128) (pack rep : Bytes) (hpack : (ascii "PACK").isPrefixOf pack = true) (m : Moment) (hord : ∀ (α : Type) (l : List α), m.sql.order l = l) (h h' : BothHist)
    (hpush : Spec.PushedAny P u c caps pack rep m h h') (pre post : List RefRow) (r : RefRow) (hdb : (runBoth P .empty h).web.db.refs = pre ++ r :: post)
    (hr : r.repoPath = u) (hid : r.refGitId = c.old) (hfirst : ∀ x ∈ pre, m.sql.fold x.repoPath = m.sql.fold u → m.sql.fold x.refGitId ≠ m.sql.fold c.old) :
    (runBoth P .empty h').web.db.refs = pre ++ { r with refGitId := c.new } :: post := by
  obtain ⟨st', e1, e2, _⟩ := pushedAny_http hc hcaps hascii hpush
  rw [push_answer _ u _ c hc caps hcaps hascii pack hpack] at e1
  obtain ⟨p', db1, h1, h2, h3, _⟩ := receiveData_ok rfl (Res.unwrap_eq_ok.1 e1)
  simp only at h1 h2 h3
  have hrefs : db1.refs = (runBoth P .empty h).web.db.refs := by
    have := savePackfile_refs m.sql m.fuel p' u (runBoth P .empty h).web.db
    rwa [h2] at this
  have h4 := handleRefs_first hord (u := u) hold hnew db1 (hrefs.trans hdb) hr hid hfirst
    (updated_accepted (by simp only [RefCommand.new]; rw [if_neg (fun h => hold h.symm), if_neg (fun h => hnew h.symm)]) h3)
  rw [e2]
  have := h3.symm.trans h4
  simp only [Prod.mk.injEq, true_and] at this
  rw [this]

/-! ## Examples -/

/-- A pack without objects. -/
def noObjects : Bytes := ascii "PACK" ++ [0, 0, 0, 2, 0, 0, 0, 0] ++ (Hash.zero).1

theorem noObjects_pack (inflate : Bytes → Option (Bytes × Bytes)) : Spec.PackFile inflate noObjects [] Hash.zero :=
  ⟨ascii "PACK" ++ [0, 0, 0, 2, 0, 0, 0, 0], Hash.zero.1, rfl, ⟨by decide, by decide⟩, .nil ..⟩

/-- The branch `dev` is to start where `master` is, and then to move on. -/
def startCmd : Spec.PushCmd := { old := zeroId, new := appCmd.new, name := ascii "refs/heads/dev" }
def onCmd : Spec.PushCmd := { old := appCmd.new, new := List.replicate 40 0x62, name := ascii "refs/heads/dev" }

theorem startCmd_ok : startCmd.Ok := by
  refine ⟨by decide, by decide, by decide +kernel, by decide +kernel, by decide, by decide, by decide⟩
theorem onCmd_ok : onCmd.Ok := by
  refine ⟨by decide +kernel, by decide +kernel, by decide +kernel, by decide +kernel, by decide, by decide, by decide⟩

/-- The requests of the story. -/
def startReq : HttpReq := Spec.pushReq (ascii "/app" ++ []) (Spec.pushBody startCmd [] (ascii "report-status") noObjects)
def onReq : HttpReq := Spec.pushReq (ascii "/app" ++ []) (Spec.pushBody onCmd [] (ascii "report-status") noObjects)

/-- Anyone can start `dev` where `master` is. -/
theorem dev_started (s : ServerState) : ∃ rep s', serve demoServer demoMoment s startReq = (.reply (.ok (.bytes rep)), s') ∧
    s'.db.refs = s.db.refs ++ [{ repoPath := ascii "/app", refName := startCmd.name ++ [0], refGitId := appCmd.new }] := by
  obtain ⟨rep, h, _⟩ := C126_started_partial demoServer (ascii "/app") [] app_url (.inl rfl) s demoMoment startCmd startCmd_ok rfl (ascii "report-status") (by decide) (by decide) noObjects Hash.zero
    (noObjects_pack _) rfl
  exact ⟨rep, _, h, rfl⟩

/-- **C126 is false**: a project is pushed to `master` of an empty server; the branch `dev` is started at the same commit; `dev` is moved on. All three pushes are answered with `ok`. Afterwards `master` has the value
that `dev` should have, and `dev` is where it was. -/
theorem C126_run_false : ∃ (pack rep1 rep2 rep3 : Bytes) (s1 s2 s3 : ServerState),
    serve demoServer demoMoment .empty (Spec.pushReq (ascii "/app" ++ []) (Spec.pushBody appCmd [] (ascii "report-status") pack)) = (.reply (.ok (.bytes rep1)), s1) ∧
    serve demoServer demoMoment s1 startReq = (.reply (.ok (.bytes rep2)), s2) ∧
    serve demoServer demoMoment s2 onReq = (.reply (.ok (.bytes rep3)), s3) ∧
    Spec.reportLines false rep3 = some [ascii "unpack ok\n", ascii "ok refs/heads/dev" ++ [0]] ∧
    s3.db.refs = [{ repoPath := ascii "/app", refName := ascii "refs/heads/master" ++ [0], refGitId := onCmd.new },
      { repoPath := ascii "/app", refName := ascii "refs/heads/dev" ++ [0], refGitId := onCmd.old }] := by
  obtain ⟨pack, rep1, s1, _, h1, h2⟩ := demo_app
  obtain ⟨rep2, s2, h3, h3'⟩ := dev_started s1
  have hr : s2.db.refs = [] ++ masterRow :: [{ repoPath := ascii "/app", refName := startCmd.name ++ [0], refGitId := appCmd.new }] := by
    rw [h3', h2]
    rfl
  obtain ⟨rep3, h4, h5⟩ := push_nothing (P := demoServer) (g := []) app_url (.inl rfl) s2 demoMoment onCmd_ok (caps := ascii "report-status") (by decide) (by decide) (noObjects_pack _)
    (handleRefs_first (E := demoMoment.sql) (fun _ _ => rfl) (by decide +kernel) (by decide +kernel) s2.db hr rfl rfl (by simp) rfl)
  rw [show decide (Capability.sideBand ∈ parseCapabilities (ascii "report-status") ∨ Capability.sideBand64k ∈ parseCapabilities (ascii "report-status")) = false from by decide +kernel] at h5
  exact ⟨pack, rep1, rep2, rep3, s1, s2, _, h1, h3, h4, h5, rfl⟩

/-- After the first two pushes of the story, a client that asks for the refs is not shown both branches. -/
example (s : ServerState) (h : s.db.refs = [masterRow, { repoPath := ascii "/app", refName := startCmd.name ++ [0], refGitId := appCmd.new }]) (out head : Bytes) (refs : List (Bytes × Bytes))
    (s' : ServerState) (ha : serve demoServer demoMoment s (Spec.refsReq (ascii "/app" ++ []) .uploadPack) = (.reply (.ok (.bytes out)), s')) (hs : Spec.Shows .uploadPack out head refs) :
    ¬ ((appCmd.new, appCmd.name ++ [0]) ∈ refs ∧ (appCmd.new, startCmd.name ++ [0]) ∈ refs) := by
  have hm := getHead_master (X := demoServer.X) (E := demoMoment.sql) (u := ascii "/app") (by decide) (app_hasMaster h)
  obtain ⟨r, _, _, _, h4⟩ := hm
  have hr : route .get (ascii "/app" ++ [] ++ ascii "/info/refs") (some ServiceType.uploadPack.display) = .infoRefs (ascii "/app") .uploadPack := route_discover app_url (.inl rfl) _
  have hsame : s' = s := by
    have := ha
    simp only [serve, Spec.refsReq, hr, advertise, h4, Prod.mk.injEq] at this
    exact this.2.symm
  rintro ⟨h1, h2⟩
  have := C126_hidden_false demoServer (ascii "/app") [] app_url (.inl rfl) .uploadPack s s' demoMoment out head refs ha (by
    rw [hsame, h]
    intro r hr
    simp only [List.mem_cons, List.not_mem_nil, or_false] at hr
    rcases hr with rfl | rfl
    · exact masterRow_text
    · exact ⟨by decide +kernel, by decide +kernel, by decide +kernel, by decide +kernel⟩) hs _ _ _ h1 h2
  exact absurd this (by decide)

/-- On a server where `dev` is alone at its value, it can be moved back to where `master` is. -/
example (s : ServerState) (h : s.db.refs = [masterRow, { repoPath := ascii "/app", refName := onCmd.name ++ [0], refGitId := onCmd.new }]) :
    ∃ rep s', serve demoServer demoMoment s (Spec.pushReq (ascii "/app" ++ []) (Spec.pushBody { onCmd with old := onCmd.new, new := onCmd.old } [] (ascii "report-status") noObjects)) =
      (.reply (.ok (.bytes rep)), s') ∧ s'.db.refs = [masterRow, { repoPath := ascii "/app", refName := onCmd.name ++ [0], refGitId := appCmd.new }] := by
  obtain ⟨rep, h1, _⟩ := C126_moved_partial demoServer (ascii "/app") [] app_url (.inl rfl) s demoMoment { onCmd with old := onCmd.new, new := onCmd.old }
    ⟨by decide +kernel, by decide +kernel, by decide +kernel, by decide +kernel, by decide, by decide, by decide⟩ (by decide +kernel) (by decide +kernel) (ascii "report-status") (by decide) (by decide)
    noObjects Hash.zero (noObjects_pack _) [masterRow] [] h (by decide +kernel) rfl
  exact ⟨rep, _, h1, rfl⟩

end Gust

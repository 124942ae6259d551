import Verif.Props.ServerExamples

/-! # C80: thin packs

`git push` leaves the bases of deltas out of the pack when the server has them. -/

namespace Gust

open Spec (nodeObj StoreReach commitsAt InRepo)

/-- Rows of trees and blobs are stored under the id of their object. -/
structure NodesOk (X : Ext) (db : Db) : Prop where
  type : ∀ n ∈ db.nodes, n.nodeType = ascii "tree" ∨ n.nodeType = ascii "blob"
  id : ∀ n ∈ db.nodes, n.gitId = Hash.toPlainStr (idOf X (nodeObj n))

theorem NodesOk.same {X : Ext} {db db' : Db} (h : NodesOk X db) (e : db'.nodes = db.nodes) : NodesOk X db' :=
  ⟨by rw [e]; exact h.type, by rw [e]; exact h.id⟩

theorem NodesOk.push {X : Ext} {db : Db} (h : NodesOk X db) {St : ObjectSource} {file : Bytes} {fuel0 : Nat} {p : Pack}
    (hdec : decodePack X St fuel0 file = .ok p) (E : SqlExt) (fuel : Nat) (path : Bytes) : NodesOk X (savePackfile E fuel p path db).2 := by
  obtain ⟨rows, h1, h2, _⟩ := push_effect hdec E fuel path db
  constructor
  · rw [h1]
    intro n hn
    rcases List.mem_append.1 hn with hn | hn
    · exact h.type n hn
    · obtain ⟨_, _, _, _, h | h⟩ := h2 n hn
      · exact .inl h.1
      · exact .inr h
  · rw [h1]
    intro n hn
    rcases List.mem_append.1 hn with hn | hn
    · exact h.id n hn
    · obtain ⟨o, _, e1, e2, _⟩ := h2 n hn
      rw [e2, e1]
      rfl

theorem serve_nodes {P : ServerExt} {m : Moment} {s : ServerState} {r : HttpReq} (hs : NodesOk P.X s.db) : NodesOk P.X (serve P m s r).2.db := by
  rw [serve_db]
  cases h : route r.method r.path r.service <;> simp only <;> (try exact hs)
  · exact hs.same (getHead_only _ _ _ _).1
  · rename_i repo
    rcases httpReceiveDb_cases P.X m.sql m.fuel repo r.body s.db with e | ⟨file, p, hd, e | ⟨cmd, e⟩⟩ <;> rw [e]
    · exact hs
    · exact hs.push hd _ _ _
    · exact (hs.push hd _ _ _).same (handleRefs_only _ _ _ _).1

theorem run_nodes (P : ServerExt) : ∀ (h : List (Moment × HttpReq)) (s : ServerState), NodesOk P.X s.db → NodesOk P.X (runServer P s h).db
  | [], _, hs => hs
  | (_, _) :: h, _, hs => run_nodes P h _ (serve_nodes hs)

theorem nodesOk_empty (X : Ext) : NodesOk X Db.empty := ⟨(by intro n h; cases h), (by intro n h; cases h)⟩

/-- The storage answers with the object that was asked for. -/
theorem getHash_supplies {X : Ext} {E : SqlExt} {db : Db} (hn : NodesOk X db) (hu : UniqueIds X db)
    (hfold : ∀ a b : Hash, E.fold (Hash.toPlainStr a) = E.fold (Hash.toPlainStr b) → a = b) {known : Hash → Option Spec.Obj}
    (hk : ∀ h o, known h = some o → idOf X o = h ∧ ∃ n ∈ db.nodes, nodeObj n = o) : Supplies (getHashObject X E db) known := by
  intro h t b e
  obtain ⟨hid, n, hmem, hobj⟩ := hk h _ e
  have hb : t.isBase = true := by
    have : t = (nodeObj n).1 := by rw [hobj]
    rw [this, nodeObj]
    simp only
    split <;> rfl
  refine ⟨hb, metaOf X (t, b), ?_, rfl, rfl, rfl⟩
  have hin : n ∈ E.order (db.nodes.filter (fun n => E.fold n.gitId == E.fold (Hash.toPlainStr h))) :=
    (E.order_perm _).mem_iff.2 (List.mem_filter.2 ⟨hmem, by rw [hn.id n hmem, hobj, hid]; simp⟩)
  unfold getHashObject
  cases hh : (E.order (db.nodes.filter (fun n => E.fold n.gitId == E.fold (Hash.toPlainStr h)))).head? with
  | none =>
    rw [List.head?_eq_none_iff.1 hh] at hin
    cases hin
  | some n' =>
    obtain ⟨hm', he'⟩ := List.mem_filter.1 ((E.order_perm _).mem_iff.1 (List.mem_of_head? hh))
    rw [hn.id n' hm'] at he'
    have hid' := hfold _ _ (eq_of_beq he')
    have hobj' : nodeObj n' = (t, b) := hu _ _ (.inl ⟨n', hm', rfl⟩) (.inl ⟨n, hmem, hobj⟩) (by rw [hid', hid])
    have e1 : (if n'.nodeType = ascii "tree" then ObjectType.tree else .blob) = t := congrArg Prod.fst hobj'
    have e2 : n'.data = b := congrArg Prod.snd hobj'
    simp only [e1, e2, new_metaOf X (t, b) hb]

/-- Objects found by their ids, each a tree or blob of some repository. -/
def Spec.FromRepos (X : Ext) (fold : Bytes → Bytes) (db : Db) (known : Hash → Option Spec.Obj) : Prop :=
  ∀ h o, known h = some o → idOf X o = h ∧ (o.1 = .tree ∨ o.1 = .blob) ∧ ∃ path, InRepo fold db path o

/-- The same for any storage in which rows have the ids of their objects. -/
theorem thin_read {X : Ext} {fold : Bytes → Bytes} {db : Db} (hn : NodesOk X db) (hu : UniqueIds X db) (hfold : ∀ a b : Hash, fold (Hash.toPlainStr a) = fold (Hash.toPlainStr b) → a = b)
    {E : SqlExt} (hf : E.fold = fold) {known : Hash → Option Spec.Obj} (hk : Spec.FromRepos X fold db known)
    {file : Bytes} {es : List (Nat × Spec.Entry)} {trailer : Hash} {os : List (Nat × Spec.Obj)}
    (hp : Spec.PackFile X.inflate file es trailer) (hr : Spec.Resolves (idOf X) known [] es os)
    (hcol : Spec.NoCollision (idOf X) os) (hcap : ∀ p ∈ os, p.2.2.length < 2 ^ 63) (h32 : ∀ p ∈ es, p.1 < 2 ^ 32) (fuel : Nat) :
    ∃ pack, decodePack X (getHashObject X E db) (fuel + 1) file = .ok pack ∧ DecodedTo X pack os trailer := by
  refine C64_decode_wellformed (getHash_supplies hn hu (by rw [hf]; exact hfold) ?_) hp hr hcol hcap h32 fuel
  intro x o e
  obtain ⟨h1, h2, path, h3⟩ := hk x o e
  refine ⟨h1, ?_⟩
  cases h3 with
  | commit r _ => rcases h2 with h | h <;> cases h
  | node r c h n _ _ _ hn _ => exact ⟨n, hn, rfl⟩

/-- **C80 (partial)** On a server that started empty and has handled any requests, a push may leave out the bases of its deltas: every well-formed pack whose deltas refer to
entries before them or to trees and blobs of any repository of the server is read as exactly the objects it stands for. (Missing from the full claim: deltas against
commits, see `C80_commit_false`; tags are not stored at all, see C72.) -/
theorem C80_thin_partial (P : ServerExt) (hfold : ∀ a b : Hash, P.D.fold (Hash.toPlainStr a) = P.D.fold (Hash.toPlainStr b) → a = b)
    (h : List (Moment × HttpReq)) (hu : UniqueIds P.X (runServer P .empty h).db) (E : SqlExt) (hf : E.fold = P.D.fold)
    (known : Hash → Option Spec.Obj) (hk : Spec.FromRepos P.X P.D.fold (runServer P .empty h).db known)
    {file : Bytes} {es : List (Nat × Spec.Entry)} {trailer : Hash} {os : List (Nat × Spec.Obj)}
    (hp : Spec.PackFile P.X.inflate file es trailer) (hr : Spec.Resolves (idOf P.X) known [] es os)
    (hcol : Spec.NoCollision (idOf P.X) os) (hcap : ∀ p ∈ os, p.2.2.length < 2 ^ 63) (h32 : ∀ p ∈ es, p.1 < 2 ^ 32) (fuel : Nat) :
    ∃ pack, decodePack P.X (getHashObject P.X E (runServer P .empty h).db) (fuel + 1) file = .ok pack ∧ DecodedTo P.X pack os trailer := by
  exact thin_read (run_nodes P h _ (nodesOk_empty _)) hu hfold hf hk hp hr hcol hcap h32 fuel

/-- A pack that begins with a delta against an unknown object. -/
theorem decode_unknown {X : Ext} {St : ObjectSource} {file delta : Bytes} {base trailer : Hash} {es : List (Nat × Spec.Entry)}
    (hp : Spec.PackFile X.inflate file ((12, .ref base delta) :: es) trailer) (hs : St (Hash.toPlainStr base) = none) (fuel : Nat) :
    decodePack X St (fuel + 1) file = .panic := by
  obtain ⟨hd, s, rfl, hh, hent⟩ := hp
  have hl : hd.length = 12 := by
    have := congrArg List.length hh.2
    simpa [Spec.be32] using this
  rw [decodePack, (C29_header_iff _ _ _).2 ⟨hd, rfl, hh⟩]
  cases hent with
  | cons _ _ s' _ _ _ hc _ =>
    cases hc with
    | ref r _ _ _ hhd _ =>
      simp only [Res.bind_ok, List.length_cons, decodeLoop, nextObject]
      rw [drop_of_split rfl hl.symm, readTypeAndSize_spec hhd]
      simp only [Res.unwrap_ok, Res.bind_ok, show ¬ (1 ≤ 7 ∧ 7 ≤ 4) by omega, if_false, if_true,
        show ¬ (7 = 6) by omega, readBytes_hash, fromRow_hash, hashBase, hs]
      rfl

/-- **C80 is false** for commits, on every server: a well-formed pack that begins with a delta against a commit stored on the server makes the server panic. -/
theorem C80_commit_false (P : ServerExt) (hfold : ∀ a b : Hash, P.D.fold (Hash.toPlainStr a) = P.D.fold (Hash.toPlainStr b) → a = b)
    (h : List (Moment × HttpReq)) (hu : UniqueIds P.X (runServer P .empty h).db) (E : SqlExt) (hf : E.fold = P.D.fold)
    (r : CommitRow) (hr : r ∈ (runServer P .empty h).db.commits)
    {file delta : Bytes} {es : List (Nat × Spec.Entry)} {trailer : Hash}
    (hp : Spec.PackFile P.X.inflate file ((12, .ref (idOf P.X (.commit, r.data)) delta) :: es) trailer) (fuel : Nat) :
    decodePack P.X (getHashObject P.X E (runServer P .empty h).db) (fuel + 1) file = .panic := by
  refine decode_unknown hp ?_ fuel
  have hn := run_nodes P h .empty (nodesOk_empty _)
  unfold getHashObject
  have : (runServer P .empty h).db.nodes.filter (fun n => E.fold n.gitId == E.fold (Hash.toPlainStr (idOf P.X (.commit, r.data)))) = [] := by
    rw [List.filter_eq_nil_iff]
    intro n hmem e
    rw [hn.id n hmem, hf] at e
    have := hu _ _ (.inl ⟨n, hmem, rfl⟩) (.inr ⟨r, hr, rfl⟩) (hfold _ _ (eq_of_beq e))
    have e1 := congrArg Prod.fst this
    simp only [nodeObj] at e1
    split at e1 <;> cases e1
  rw [this, List.length_eq_zero_iff.1 (E.order_perm ([] : List NodeRow)).length_eq]
  rfl

/-! ## Examples -/

/-- A server after the push of the example repository to `/app`. -/
theorem app_server : ∃ pack, (∀ o, StoredObj (runServer demoServer .empty [(demoMoment, appPush pack)]).db o → metaOf polyExt o ∈ appObjects) ∧
    ∀ m ∈ appObjects, InRepo demoFold (runServer demoServer .empty [(demoMoment, appPush pack)]).db (ascii "/app") (m.t, m.data) := by
  obtain ⟨pack, p, rep, st', h1, h2, h3, h4, q6, objs, _⟩ := app_after (ascii "/app") (ascii "/app")
  have hroute : route (appPush pack).method (appPush pack).path (appPush pack).service = .receivePack (ascii "/app") := route_push app_clean_url (.inr rfl)
  have hdb : (runServer demoServer .empty [(demoMoment, appPush pack)]).db = st'.db := by
    show (serve demoServer demoMoment .empty (appPush pack)).2.db = st'.db
    rw [serve_db, hroute]
    exact httpReceiveDb_ok _ _ _ _ _ h4
  refine ⟨pack, by rw [hdb]; exact objs, ?_⟩
  rw [hdb]
  obtain ⟨p', db1, k1, k2, k3, k4, k5, _⟩ := push_run (path := ascii "/app") .empty appCmd_ok (by decide) (by decide) h1 h4
  rw [h2] at k1
  cases k1
  have hu : UniqueIds polyExt db1 := Extends.unique ⟨fun n hn => by rw [k3]; exact hn, fun n hn => by rw [k4]; exact hn⟩ (app_unique objs)
  have hin := push_inRepo (X := polyExt) (path := ascii "/app") .empty demoSql rfl (fun _ _ => rfl) 2 pack p h2 k2 hu
  intro m hm
  have hob : m = metaOf polyExt (m.t, m.data) := by
    simp only [appObjects, appThin, List.mem_append, List.mem_cons, List.not_mem_nil, or_false] at hm
    rcases hm with (rfl | rfl | rfl | rfl) | rfl <;> rfl
  exact (inRepo_congr k3 k4).2 ((hin _).2 (.inr ⟨m, (h3 _ _).2 ⟨hm, rfl⟩, hob, app_reached (fun m hm => (h3 _ _).2 ⟨appThin_sub m hm, rfl⟩) hm⟩))

/-- A pack with one delta against an object that is not in it. -/
def refPack (base : Hash) (delta : Bytes) : Bytes :=
  [80, 65, 67, 75, 0, 0, 0, 2, 0, 0, 0, 1] ++ ([UInt8.ofNat (0x70 + delta.length)] ++ (base.1 ++ (demoDeflate delta ++ List.replicate 20 7)))

theorem refPack_file (base : Hash) (delta : Bytes) (hd : delta.length < 16) :
    Spec.PackFile polyExt.inflate (refPack base delta) [(12, .ref base delta)] ⟨List.replicate 20 7, rfl⟩ := by
  refine ⟨[80, 65, 67, 75, 0, 0, 0, 2, 0, 0, 0, 1], _, rfl, ⟨(by decide : 1 < 2 ^ 32), (by decide : List.map UInt8.toNat [80, 65, 67, 75, 0, 0, 0, 2, 0, 0, 0, 1] = [80, 65, 67, 75] ++ Spec.be32 2 ++ Spec.be32 1)⟩, ?_⟩
  refine .cons _ _ (List.replicate 20 7) _ _ _ (.ref _ (demoDeflate delta ++ List.replicate 20 7) _ _ _ ?_ (demoInflate_deflate _ _)) (.nil _ _)
  have hv : (UInt8.ofNat (0x70 + delta.length)).toNat = 0x70 + delta.length := by
    rw [UInt8.toNat_ofNat']
    omega
  refine ⟨0x70 + delta.length, ?_, by omega, ?_, by omega, by omega⟩
  · simp only [List.cons_append, List.nil_append, Spec.sizeField, hv]
    rw [if_pos (by omega)]
  · simp only [List.length_append, List.length_cons, List.length_nil]
    omega

/-- "two" becomes "two!". -/
theorem twoDelta_means : Spec.DeltaMeans (ascii "two") [3, 4, 0x90, 3, 1, 33] (ascii "two!") := by
  refine ⟨[4, 0x90, 3, 1, 33], [0x90, 3, 1, 33], [.copy 0 3, .lit [33]], by decide, by decide, ?_, by decide⟩
  have h1 : Spec.DeltaCode [1, 33] [.lit [33]] := Spec.DeltaCode.lit 1 [33] [] [] (by decide) (by decide) (by decide) .done
  exact Spec.DeltaCode.copy 0x90 [3, 1, 33] [1, 33] [0, 0, 0, 0] [3, 0, 0] _ (by decide) (by decide) rfl rfl h1

/-- A change to the file `b` of the example repository, sent as a delta against what the server has, arrives as it should; a delta against the commit makes the server panic. -/
example : ∃ h pack, decodePack polyExt (getHashObject polyExt demoSql (runServer demoServer .empty h).db) 1
      (refPack (idOf polyExt (.blob, ascii "two")) [3, 4, 0x90, 3, 1, 33]) = .ok pack ∧
    pack.result.hashObject (idOf polyExt (.blob, ascii "two!")) = some (metaOf polyExt (.blob, ascii "two!")) ∧
    decodePack polyExt (getHashObject polyExt demoSql (runServer demoServer .empty h).db) 1 (refPack (idOf polyExt (.commit, appCommit.encode)) [3, 4, 0x90, 3, 1, 33]) =
      .panic := by
  obtain ⟨pack, objs, hin⟩ := app_server
  have hk : Spec.FromRepos polyExt demoFold (runServer demoServer .empty [(demoMoment, appPush pack)]).db
      (fun h => if h = idOf polyExt (.blob, ascii "two") then some (.blob, ascii "two") else none) := by
    intro h o e
    simp only at e
    split at e
    · rename_i hh
      cases e
      exact ⟨hh.symm, .inr rfl, ascii "/app", hin (metaOf polyExt (.blob, ascii "two")) (by simp [appObjects, appThin])⟩
    · cases e
  obtain ⟨p, h1, h2⟩ := C80_thin_partial demoServer demoFold_hash _ (app_unique objs) demoSql rfl _ hk (refPack_file _ [3, 4, 0x90, 3, 1, 33] (by decide))
    (.cons _ _ _ _ (.blob, ascii "two!") _ (.refOut _ _ (ascii "two") _ .blob (by simp) (by rw [if_pos rfl]) twoDelta_means) (.nil _))
    (by
      intro a ha b hb _
      rw [List.mem_singleton] at ha hb
      rw [ha, hb]) (by decide) (by decide) 0
  refine ⟨_, p, h1, (h2.byId _ _).2 ⟨_, .head _, new_metaOf polyExt (.blob, ascii "two!") rfl, rfl⟩, ?_⟩
  have hc := hin (metaOf polyExt (.commit, appCommit.encode)) (by simp [appObjects, appThin])
  rcases inRepo_stored hc with ⟨n, _, e⟩ | ⟨r, hr, e⟩
  · have e1 := congrArg Prod.fst e
    simp only [nodeObj, metaOf] at e1
    split at e1 <;> cases e1
  · have e1 : r.data = appCommit.encode := congrArg Prod.snd e
    exact C80_commit_false demoServer demoFold_hash _ (app_unique objs) demoSql rfl r hr (by rw [e1]; exact refPack_file _ [3, 4, 0x90, 3, 1, 33] (by decide)) 0

end Gust

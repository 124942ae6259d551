import Verif.Props.Nesting
import Verif.Props.PackRobust
import Verif.Props.Ssh
import Verif.Props.FetchExact
import Mathlib.Data.Set.Finite.Basic

/-! # C92: which requests are answered -/

namespace Gust

open Spec (nodeObj)
open Res

/-- No directory in a pack contains itself. -/
def Spec.NoCycles (find : Hash → Option MetaData) : Prop :=
  ∀ o items i, find o.id = some o → o.t = .tree → decodeTree o.data = .ok items → i ∈ items → ¬ Spec.PackBelow find i.id o.id

theorem get_mem {V : Type} : ∀ {m : HashMap V} {h : Hash} {v : V}, m.get h = some v → h ∈ m.map Prod.fst
  | [], _, _, e => by cases e
  | (k, v) :: m, h, v', e => by
    rw [HashMap.get] at e
    split at e
    · rename_i hk
      rw [List.map_cons, hk]
      exact .head _
    · exact .tail _ (get_mem e)

theorem below_trans {find : Hash → Option MetaData} {a b : Hash} (h : Relation.TransGen (PackChild find) a b) :
    ∃ o items i, find o.id = some o ∧ o.id = b ∧ o.t = .tree ∧ decodeTree o.data = .ok items ∧ i ∈ items ∧ Spec.PackBelow find i.id a := by
  induction h with
  | single h =>
    obtain ⟨o, h1, h2, h3, items, h4, i, h5, rfl⟩ := h
    subst h2
    exact ⟨o, items, i, h1, rfl, h3, h4, h5, .refl⟩
  | tail _ h ih =>
    obtain ⟨o, items, i, h1, h2, h3, h4, h5, h6⟩ := ih
    obtain ⟨o', g1, g2, g3, items', g4, i', g5, e⟩ := h
    subst g2
    refine ⟨o', items', i', g1, rfl, g3, g4, g5, ?_⟩
    have step : Spec.PackBelow find i'.id i.id := by
      refine .item o items i ?_ h1 h3 h4 h5
      rw [h2, e]
      exact .refl
    revert step
    clear * - h6
    intro step
    induction h6 with
    | refl => exact step
    | item o items i _ q1 q2 q3 q4 ih => exact .item o items i ih q1 q2 q3 q4

/-- Without cycles one cannot go down for ever: a pack is finite. -/
theorem acc_of_noCycles {c : PackCache} (h : Spec.NoCycles c.hashObject) (x : Hash) : Acc (PackChild c.hashObject) x := by
  let K := { x : Hash // x ∈ c.byHash.map Prod.fst }
  let r : K → K → Prop := fun a b => Relation.TransGen (PackChild c.hashObject) a.1 b.1
  have : Finite K := (List.finite_toSet (c.byHash.map Prod.fst)).to_subtype
  have : IsTrans K r := ⟨fun _ _ _ a b => Relation.TransGen.trans a b⟩
  have : Std.Irrefl r := ⟨fun a ha => by
    obtain ⟨o, items, i, h1, h2, h3, h4, h5, h6⟩ := below_trans ha
    rw [← h2] at h6
    exact h o items i h1 h3 h4 h5 h6⟩
  have wf := Finite.wellFounded_of_trans_of_irrefl r
  have inK : ∀ a b, PackChild c.hashObject a b → b ∈ c.byHash.map Prod.fst := by
    rintro a b ⟨o, h1, h2, _⟩
    exact get_mem h1
  have key : ∀ k : K, Acc (PackChild c.hashObject) k.1 := by
    intro k
    induction k using wf.induction with
    | _ k ih =>
      constructor
      intro y hy
      by_cases hk : y ∈ c.byHash.map Prod.fst
      · exact ih ⟨y, hk⟩ (.single hy)
      · exact ⟨_, fun z hz => absurd (inK _ _ hz) hk⟩
  by_cases hk : x ∈ c.byHash.map Prod.fst
  · exact key ⟨x, hk⟩
  · exact ⟨_, fun z hz => absurd (inK _ _ hz) hk⟩

/-- Storing a pack ends. -/
theorem savePackfile_halts {X : Ext} {St : ObjectSource} {file : Bytes} {fuel0 : Nat} {p : Pack} (hdec : decodePack X St fuel0 file = .ok p)
    (hc : Spec.NoCycles p.result.hashObject) (E : SqlExt) : ∃ k, ∀ fuel, k ≤ fuel → ∀ path db, (savePackfile E fuel p path db).1.halts := by
  unfold savePackfile
  have hout := E.pool_outcome p.result
  cases hp : E.pool p.result with
  | ok D =>
    have hH : D.Holds p.result := C36_each_object_once hdec (by rwa [hp] at hout)
    have hac : ∀ h, Acc (Repo.of D).Child h := by
      intro h
      refine Subrelation.accessible ?_ (acc_of_noCycles hc h)
      rintro a b ⟨t, ht, i, hi, rfl⟩
      obtain ⟨hm, rfl⟩ := (repo_tree hH b t).1 ht
      obtain ⟨q1, q2⟩ := (hH.trees t.base).1 (List.mem_map_of_mem hm)
      exact ⟨t.base, q2, rfl, q1, t.items, hH.treeItems t hm, i, hi, rfl⟩
    obtain ⟨k, hk⟩ := buildCommits_halts hac D.commits
    refine ⟨k, fun fuel hf path db => ?_⟩
    have hb := hk fuel hf []
    simp only
    unfold buildNodeTree
    cases hr : buildCommits (Repo.of D) fuel D.commits [] with
    | ok rows =>
      simp only
      obtain ⟨_, _, _, _, _, _, _, _, h5⟩ := C51_batches_partial E rows db
      rcases hs : saveNodes E rows db with ⟨r, db1⟩
      rw [hs] at h5
      rcases h5 with ⟨h, _⟩ | ⟨h, _⟩ <;> cases h <;> trivial
    | spin => rw [hr] at hb; exact hb.elim
    | err e => trivial
    | panic => trivial
  | spin => rw [hp] at hout; cases hout
  | err e => rw [hp] at hout; cases hout
  | panic => exact ⟨0, fun _ _ _ _ => trivial⟩

theorem readPktLine_halts (b : Bytes) : (readPktLine b).halts := by
  unfold readPktLine
  dsimp only
  repeat' split
  all_goals trivial

theorem receiveCommand_halts {σ : Type} (st : PushState σ) (b : Bytes) : (receiveCommand st b).halts := by
  have ws : ∀ s, (readUntilWhiteSpace s).halts := fun s => by unfold readUntilWhiteSpace; split <;> trivial
  unfold receiveCommand
  refine halts_bind (readPktLine_halts b) fun r _ => ?_
  dsimp only
  split
  · trivial
  · refine halts_bind ?_ fun q _ => ?_
    · unfold parseRefUpdate
      exact halts_bind (ws _) fun _ _ => halts_bind (ws _) fun _ _ => halts_bind (ws _) fun _ _ => trivial
    · split
      · exact halts_bind (sliceFrom_halts _ _) fun _ _ => trivial
      · trivial

theorem handleRefs_halts (E : SqlExt) (cmd : RefCommand) (path : Bytes) (db : Db) : (handleRefs E cmd path db).1.halts := by
  unfold handleRefs
  split
  · trivial
  · trivial
  · unfold updateRefs
    split
    · split <;> trivial
    · trivial

theorem receiveData_halts {X : Ext} {E : SqlExt} {fuel : Nat} {st : PushState Db} {b : Bytes} (hd : (decodePack X (getHashObject X E st.db) fuel b).halts)
    (hs : ∀ p, decodePack X (getHashObject X E st.db) fuel b = .ok p → ∀ path db, (savePackfile E fuel p path db).1.halts) : (receiveData (mysqlPush X E fuel) st b).halts := by
  unfold receiveData
  split
  · trivial
  · simp only [mysqlPush]
    cases h : decodePack X (getHashObject X E st.db) fuel b with
    | ok p =>
      simp only
      have := hs p h st.path st.db
      rcases hp : savePackfile E fuel p st.path st.db with ⟨r, db⟩
      rw [hp] at this
      cases r with
      | ok u =>
        simp only
        rename_i cmd _
        have hh := handleRefs_halts E { cmd with ok := true } st.path db
        rcases hq : handleRefs E { cmd with ok := true } st.path db with ⟨r, db'⟩
        rw [hq] at hh
        cases r with
        | spin => exact hh.elim
        | _ => trivial
      | spin => exact this.elim
      | _ => trivial
    | spin => rw [h] at hd; exact hd.elim
    | _ => trivial

theorem httpReceivePack_halts {X : Ext} {E : SqlExt} {fuel : Nat} {repo body : Bytes} {db : Db}
    (hd : (decodePack X (getHashObject X E db) fuel (Spec.packPart body)).halts)
    (hs : ∀ p, decodePack X (getHashObject X E db) fuel (Spec.packPart body) = .ok p → ∀ path db, (savePackfile E fuel p path db).1.halts) :
    (httpReceivePack (mysqlPush X E fuel) { caps := [], commands := [], path := repo, db := db } body).halts := by
  have none : ∀ (st : PushState Db) (b : Bytes), st.commands = [] → (gitReceivePack (mysqlPush X E fuel) st b).halts := by
    intro st b h
    unfold gitReceivePack
    split
    · unfold receiveData
      rw [h]
      trivial
    · exact receiveCommand_halts _ _
  unfold httpReceivePack
  refine halts_bind (halts_unwrap (none _ _ rfl)) ?_
  rintro ⟨data, st1⟩ h
  rw [Res.unwrap_eq_ok] at h
  refine halts_unwrap ?_
  unfold gitReceivePack at h
  split at h
  · unfold receiveData at h
    simp at h
  · simp only [receiveCommand, Res.bind_eq_ok, Res.pure_eq] at h
    obtain ⟨⟨⟨n, line⟩, rest⟩, hl, h⟩ := h
    simp only at h
    split at h
    · simp only [Res.ok.injEq, Prod.mk.injEq] at h
      exact none _ _ (by rw [← h.2])
    · simp only [Res.bind_eq_ok, Res.pure_eq] at h
      obtain ⟨⟨cmd, capText⟩, _, h⟩ := h
      simp only at h
      split at h
      · simp only [Res.bind_eq_ok] at h
        obtain ⟨out, hout, h⟩ := h
        simp only [Res.ok.injEq, Prod.mk.injEq] at h
        have e : data = Spec.packPart body := by
          unfold Spec.packPart
          rw [hl]
          unfold sliceFrom at hout
          split at hout
          · cases hout
            exact h.1.symm
          · cases hout
        unfold gitReceivePack
        split
        · rw [e]
          exact receiveData_halts (by rw [← h.2]; exact hd) (by rw [← h.2]; exact hs)
        · exact receiveCommand_halts _ _
      · cases h

theorem outcome_answered {α : Type} {f : α → Payload} {x : Res α} (h : x.halts) : x.outcome f ≠ .hang := by
  cases x with
  | spin => exact h.elim
  | _ => exact fun h => nomatch h

theorem reply_answered {α : Type} {f : α → Payload} (x : Reply α) : x.outcome f ≠ .hang := by
  cases x <;> exact fun h => nomatch h

theorem advertise_halts (X : Ext) (E : SqlExt) (protocol : Protocol) (service : ServiceType) (db : Db) (path : Bytes) : (advertise X E protocol service db path).1.halts := by
  have child : ∀ ref, (generateChild X E ref path db).1.halts := by
    intro ref
    have root : (searchRootNode E db path).halts := halts_bind (halts_unwrapOpt _) fun _ _ => trivial
    unfold generateChild
    split
    · trivial
    · rename_i rc _
      cases hr : searchRootNode E db path with
      | ok o =>
        cases o with
        | none => trivial
        | some n =>
          simp only
          have hb : (buildFromModel X rc n).halts := by
            unfold buildFromModel
            refine halts_bind (halts_unwrap (commit_halts _)) fun _ _ => halts_bind (halts_unwrap ?_) fun _ _ => halts_bind (new_halts _ _ _) fun _ _ => trivial
            unfold Hash.fromStr
            cases Hash.fromBytes n.gitId <;> trivial
          cases hq : buildFromModel X rc n with
          | ok c => trivial
          | spin => rw [hq] at hb; exact hb.elim
          | err e => trivial
          | panic => trivial
      | spin => rw [hr] at root; exact root.elim
      | err e => trivial
      | panic => trivial
  have head : (getHeadObjectId X E db path).1.halts := by
    unfold getHeadObjectId
    split
    · trivial
    · split
      · exact child _
      · trivial
  unfold advertise
  rcases hg : getHeadObjectId X E db path with ⟨r, db'⟩
  rw [hg] at head
  cases r with
  | spin => exact head.elim
  | _ => trivial

/-- Every request comes to an end once the stack is deep enough, when the storage code answers every fetch. -/
theorem serve_answered (P : ServerExt) (s : ServerState) (m : Moment) (r : HttpReq) (N : Nat)
    (hends : ∀ fuel, N ≤ fuel → ∀ path want have_, (getFullPack P.X m.sql fuel s.db path).halts ∧ (getIncPack P.X m.sql fuel s.db path want have_).halts)
    (hfetch : ∀ repo, route r.method r.path r.service = .uploadPack repo → ¬ Spec.Unfinished true r.body)
    (hpush : ∀ repo, route r.method r.path r.service = .receivePack repo → Spec.NoSelfDelta P.X.inflate (Spec.packPart r.body) ∧
      ∀ fuel p, decodePack P.X (getHashObject P.X m.sql s.db) fuel (Spec.packPart r.body) = .ok p → Spec.NoCycles p.result.hashObject) :
    ∃ k, ∀ fuel, k ≤ fuel → (serve P { m with fuel := fuel } s r).1 ≠ .hang := by
  unfold serve
  cases hr : route r.method r.path r.service with
  | download oid => exact ⟨0, fun fuel _ => reply_answered _⟩
  | listLocks => exact ⟨0, fun fuel _ => reply_answered _⟩
  | infoRefs repo t => exact ⟨0, fun fuel _ => outcome_answered (advertise_halts _ _ _ _ _ _)⟩
  | verifyLocks =>
    refine ⟨0, fun fuel _ => ?_⟩
    simp only
    split
    · exact fun h => nomatch h
    · exact reply_answered _
  | createLock =>
    refine ⟨0, fun fuel _ => ?_⟩
    simp only
    split
    · exact fun h => nomatch h
    · exact reply_answered _
  | deleteLock id =>
    refine ⟨0, fun fuel _ => ?_⟩
    simp only
    split
    · exact fun h => nomatch h
    · split
      · exact fun h => nomatch h
      · exact reply_answered _
  | batch =>
    refine ⟨0, fun fuel _ => ?_⟩
    simp only
    split
    · exact fun h => nomatch h
    · exact reply_answered _
  | uploadPack repo =>
    refine ⟨N, fun fuel hf => outcome_answered ?_⟩
    obtain ⟨full, _⟩ := hends fuel hf repo [] []
    have inc : ∀ w v, (getIncPack P.X m.sql fuel s.db repo w v).halts := fun w v => (hends fuel hf repo w v).2
    unfold httpUploadPack
    refine halts_bind ?_ fun p _ => halts_bind (fetchAnswer_halts full inc _ _ _) fun _ _ => trivial
    rcases C18_fetch_dichotomy r.body fetchInit with q | q
    · exact q
    · exact absurd ((spins_exact _ fetchInit r.body (Nat.le_refl _)).1 q) (hfetch repo hr)
  | receivePack repo =>
    obtain ⟨hz, hc⟩ := hpush repo hr
    obtain ⟨res, hres, heq⟩ := C31_decode_terminates_partial P.X (getHashObject P.X m.sql s.db) (Spec.packPart r.body) hz
    have store : ∃ k, ∀ fuel, k ≤ fuel → ∀ p, res = .ok p → ∀ path db, (savePackfile m.sql fuel p path db).1.halts := by
      cases hp : res with
      | ok p =>
        have hd := heq _ (Nat.lt_succ_self _)
        rw [hp] at hd
        obtain ⟨k, hk⟩ := savePackfile_halts hd (hc _ p hd) m.sql
        refine ⟨k, fun fuel hf p' e => ?_⟩
        cases e
        exact hk fuel hf
      | _ => exact ⟨0, fun _ _ p e => by cases e⟩
    obtain ⟨k, hk⟩ := store
    refine ⟨max k ((Spec.packPart r.body).length + 1), fun fuel hf => outcome_answered ?_⟩
    have e := heq fuel (by omega)
    refine httpReceivePack_halts (E := m.sql) (fuel := fuel) (by rw [e]; exact hres) (fun p hp => ?_)
    rw [e] at hp
    exact hk fuel (by omega) p hp
  | upload oid => exact ⟨0, fun fuel _ => reply_answered _⟩
  | forbidden => exact ⟨0, fun fuel _ => fun h => nomatch h⟩
  | notFound => exact ⟨0, fun fuel _ => fun h => nomatch h⟩
  | methodNotAllowed => exact ⟨0, fun fuel _ => fun h => nomatch h⟩
  | crash => exact ⟨0, fun fuel _ => fun h => nomatch h⟩

/-- **C92 (partial)** Whatever has happened on a server that started empty, every request, to whatever URL and with whatever body, comes to an end once the stack is deep enough: there
is a reply, or the connection is closed after a panic. The conditions: a fetch request does not break off behind a complete packet before it says `done`; in a pushed pack no delta names itself as
its base and no directory contains itself. `hag` and `hfold`: no SHA-1 collision among pushed objects, and the database tells ids apart. (Missing from the full claim: other fetch
requests and packs, see `C92_fetch_false` and `C92_push_false`.) -/
theorem C92_answered_partial (P : ServerExt) (hfold : ∀ a b : Hash, P.D.fold (Hash.toPlainStr a) = P.D.fold (Hash.toPlainStr b) → a = b)
    (h : List (Moment × HttpReq)) (hag : Spec.PushesAgree P h) (m : Moment) (hm : m.sql.fold = P.D.fold) (r : HttpReq)
    (hfetch : ∀ repo, route r.method r.path r.service = .uploadPack repo → ¬ Spec.Unfinished true r.body)
    (hpush : ∀ repo, route r.method r.path r.service = .receivePack repo → Spec.NoSelfDelta P.X.inflate (Spec.packPart r.body) ∧
      ∀ fuel p, decodePack P.X (getHashObject P.X m.sql (runServer P .empty h).db) fuel (Spec.packPart r.body) = .ok p → Spec.NoCycles p.result.hashObject) :
    ∃ k, ∀ fuel, k ≤ fuel → (serve P { m with fuel := fuel } (runServer P .empty h) r).1 ≠ .hang :=
  serve_answered P _ m r _ (C91_fetch_ends P hfold h hag m.sql hm) hfetch hpush

/-- **C92 is false** for fetches: a request that breaks off behind a complete packet before it says `done` is never answered, whatever the server has stored and whatever
repository it names. -/
theorem C92_fetch_false (P : ServerExt) (s : ServerState) (m : Moment) {u g : Bytes} (hu : Spec.CleanUrl u) (hg : g = [] ∨ g = ascii ".git") (body : Bytes)
    (hun : Spec.Unfinished true body) : (serve P m s (Spec.fetchReq (u ++ g) body)).1 = .hang := by
  have hroute : route (Spec.fetchReq (u ++ g) body).method (Spec.fetchReq (u ++ g) body).path (Spec.fetchReq (u ++ g) body).service = .uploadPack u := route_fetch hu hg
  have h : httpUploadPack (mysqlFetch P.X m.sql m.fuel s.db u) m.ord m.cut (Spec.fetchReq (u ++ g) body).body = .spin := by
    have := (spins_exact _ fetchInit body (Nat.le_refl _)).2 hun (body.length + 1)
    unfold fetchInit at this
    unfold httpUploadPack
    rw [show (Spec.fetchReq (u ++ g) body).body = body from rfl, this]
    rfl
  unfold serve
  rw [hroute]
  simp only
  rw [h]
  rfl

/-- **C92 is false** for pushes: a well-formed push of a pack of fourteen bytes, a delta that names itself as its base, is never answered, whatever the server has stored. -/
theorem C92_push_false (P : ServerExt) (s : ServerState) (m : Moment) {u g : Bytes} (hu : Spec.CleanUrl u) (hg : g = [] ∨ g = ascii ".git") {c : Spec.PushCmd} (hc : c.Ok) {caps : Bytes}
    (hl : caps.length ≤ 4000) (ha : ∀ x ∈ caps, x.toNat < 128) : (serve P m s (Spec.pushReq (u ++ g) (Spec.pushBody c [] caps selfDeltaPack))).1 = .hang := by
  have hroute : route (Spec.pushReq (u ++ g) (Spec.pushBody c [] caps selfDeltaPack)).method (Spec.pushReq (u ++ g) (Spec.pushBody c [] caps selfDeltaPack)).path
      (Spec.pushReq (u ++ g) (Spec.pushBody c [] caps selfDeltaPack)).service = .receivePack u := route_push hu hg
  have spins : ∀ St : ObjectSource, decodePack P.X St m.fuel selfDeltaPack = .spin := by
    intro St
    have hd : selfDeltaPack.drop 12 = [0x60, 0x00] := rfl
    have hloop := C31_zero_distance_loops (X := P.X) (St := St) (file := selfDeltaPack) (off := 12) (n := 0)
      (r := [0x00]) (r' := []) (cache := PackCache.empty)
      (by rw [hd]; exact ⟨0x60, by decide, by decide, by decide, by decide, by decide⟩) (by decide) rfl m.fuel
    have hc : checkHeader selfDeltaPack = .ok (1, [0x60, 0x00]) := by decide
    rw [decodePack, hc]
    simp only [Res.bind_ok, decodeLoop, hloop, Res.bind_spin]
  have h : httpReceivePack (mysqlPush P.X m.sql m.fuel) { caps := [], commands := [], path := u, db := s.db } (Spec.pushReq (u ++ g) (Spec.pushBody c [] caps selfDeltaPack)).body = .spin := by
    unfold httpReceivePack
    rw [show (Spec.pushReq (u ++ g) (Spec.pushBody c [] caps selfDeltaPack)).body = Spec.pushBody c [] caps selfDeltaPack from rfl, receive_section _ _ _ hc hl ha]
    simp only [Res.unwrap, Res.bind_ok]
    unfold gitReceivePack
    rw [if_pos (by decide)]
    unfold receiveData
    simp only [List.getLast?_singleton, mysqlPush, spins]
  unfold serve
  rw [hroute]
  simp only
  rw [h]
  rfl

end Gust

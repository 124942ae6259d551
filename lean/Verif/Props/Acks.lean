import Verif.Props.Asked
import Verif.Props.Confined

/-! # C103: what a fetch acknowledges, tied to what was pushed -/

namespace Gust

open Spec (nodeObj)

/-- The ids that a reply calls common: lines `ACK <40 characters> common`. -/
def Spec.commonIds : List Spec.Pkt → List Bytes
  | [] => []
  | .line p :: ps => if p.take 4 = ascii "ACK " ∧ p.drop 44 = ascii " common\n" then (p.drop 4).take 40 :: Spec.commonIds ps else Spec.commonIds ps
  | .flush :: ps => Spec.commonIds ps

/-- Some repository has a commit with this id. -/
def Spec.HasCommit (X : Ext) (db : Db) (id : Hash) : Prop := ∃ r ∈ db.commits, idOf X (.commit, r.data) = id

/-- The request asks for a capability. -/
def Spec.Asks (ls : List Spec.ReqLine) (name : Bytes) : Prop :=
  ∃ tail words, Spec.firstTail ls = some tail ∧ Spec.SpaceSeparated (tail.drop 1) words ∧ (name ∈ words ∨ name ++ [10] ∈ words)

/-- The capabilities a request asks for. -/
def requestCaps (ls : List Spec.ReqLine) : List Capability :=
  match Spec.firstTail ls with
  | none => []
  | some t => parseCapabilities (t.drop 1)

/-! ## Every stored commit is stored under its own id -/

/-- Commits are filed under their ids. -/
def CommitIds (X : Ext) (db : Db) : Prop := ∀ r ∈ db.commits, r.gitId = Hash.toPlainStr (idOf X (.commit, r.data))

theorem push_commit_ids {X : Ext} {St : ObjectSource} {file : Bytes} {fuel0 : Nat} {p : Pack} (hdec : decodePack X St fuel0 file = .ok p)
    (E : SqlExt) (fuel : Nat) (path : Bytes) {db : Db} (h : CommitIds X db) : CommitIds X (savePackfile E fuel p path db).2 := by
  obtain ⟨hist, ehist, hok⟩ := decodePack_hist hdec
  have objs : ∀ o, p.result.hashObject o.id = some o → metaOf X (o.t, o.data) = o := by
    intro o ho
    rw [ehist, PackCache.hashObject_run] at ho
    obtain ⟨q, hq, rfl⟩ := Option.map_eq_some_iff.1 ho
    exact (metaOf_of_new (hok q (PackCache.lastWith_some hq).1).2).2
  unfold savePackfile
  cases hp : E.pool p.result with
  | ok D =>
    have hH : D.Holds p.result := C36_each_object_once hdec (by have := E.pool_outcome p.result; rwa [hp] at this)
    simp only
    cases hb : buildNodeTree fuel D with
    | ok rows =>
      simp only
      rcases hs : saveNodes E rows db with ⟨r, db1⟩
      have hold : db1.commits = db.commits := by
        obtain ⟨bs, b1, _, _, k, b4, b5, _, b7⟩ := C51_batches_partial E rows db
        rw [hs] at b5
        exact b5
      cases r with
      | ok u =>
        intro r hr
        rcases (saveCommits_mem E D.commits path db1).2 r hr with h1 | h1
        · exact h r (by rw [← hold]; exact h1)
        · obtain ⟨co, hm, rfl⟩ := List.mem_map.1 h1
          obtain ⟨q1, q2⟩ := (hH.commits co.base).1 (List.mem_map_of_mem hm)
          have e := objs _ q2
          rw [q1] at e
          show Hash.toPlainStr co.base.id = Hash.toPlainStr (metaOf X (.commit, co.base.data)).id
          rw [e]
      | _ => intro r hr; exact h r (by rw [← hold]; exact hr)
    | _ => exact h
  | _ => exact h

theorem generateChild_commit_ids {X : Ext} {E : SqlExt} {ref : RefRow} {path : Bytes} {db : Db} (hr : Readable db) (h : CommitIds X db) :
    CommitIds X (generateChild X E ref path db).2 := by
  unfold generateChild
  split
  · exact h
  · rename_i row hrow
    split
    · rename_i root hroot
      split
      · rename_i child hb
        simp only
        rw [saveChild_eq]
        intro r hc
        simp only at hc
        split at hc
        · rcases List.mem_append.1 hc with hc | hc
          · exact h r hc
          · rw [List.mem_singleton.1 hc]
            obtain ⟨c, hc⟩ := hr.commits row (List.mem_filter.1 (order_head hrow)).1
            obtain ⟨t, ht⟩ := hr.nodes root (searchRootNode_mem hroot)
            obtain ⟨child', h1, _, h3, _⟩ := C61_every X row root c t hc ht
            rw [hb] at h1
            cases h1
            have e := new_metaOf X (.commit, child.base.data) rfl
            rw [show MetaData.new X (ObjectType.commit, child.base.data).1 (ObjectType.commit, child.base.data).2 = .ok child.base from h3] at e
            show Hash.toPlainStr child.base.id = Hash.toPlainStr (metaOf X (.commit, child.base.data)).id
            rw [← Res.ok.inj e]
        · exact h r hc
      · exact h
      · exact h
    · exact h
    · exact h
    · exact h

theorem serve_commit_ids {P : ServerExt} {m : Moment} {s : ServerState} {r : HttpReq} (hr : Readable s.db) (h : CommitIds P.X s.db) :
    CommitIds P.X (serve P m s r).2.db := by
  rw [serve_db]
  cases hq : route r.method r.path r.service <;> simp only <;> (try exact h)
  · unfold getHeadObjectId
    split
    · exact h
    · split
      · exact generateChild_commit_ids hr h
      · exact h
  · rename_i repo
    rcases httpReceiveDb_cases P.X m.sql m.fuel repo r.body s.db with e | ⟨file, p, hd, e | ⟨cmd, e⟩⟩ <;> rw [e]
    · exact h
    · exact push_commit_ids hd m.sql m.fuel repo h
    · obtain ⟨_, k2⟩ := handleRefs_only m.sql cmd repo (savePackfile m.sql m.fuel p repo s.db).2
      unfold CommitIds
      rw [k2]
      exact push_commit_ids hd m.sql m.fuel repo h

theorem run_commit_ids (P : ServerExt) : ∀ (h : List (Moment × HttpReq)) (s : ServerState), Readable s.db → CommitIds P.X s.db → CommitIds P.X (runServer P s h).db
  | [], _, _, hc => hc
  | (m, r) :: h, s, hr, hc => run_commit_ids P h _ (serve_readable (m := m) (r := r) hr) (serve_commit_ids hr hc)

/-- Commits stay stored. -/
theorem serve_keeps_commits (P : ServerExt) (m : Moment) (s : ServerState) (r : HttpReq) : ∀ c ∈ s.db.commits, c ∈ (serve P m s r).2.db.commits := by
  rw [serve_db]
  cases hq : route r.method r.path r.service <;> simp only <;> (try exact fun _ h => h)
  · exact (getHead_only P.X m.sql _ s.db).2.1
  · rename_i repo
    rcases httpReceiveDb_cases P.X m.sql m.fuel repo r.body s.db with e | ⟨file, p, hd, e | ⟨cmd, e⟩⟩ <;> rw [e]
    · exact fun _ h => h
    · exact (push_effect hd m.sql m.fuel repo s.db).choose_spec.2.2.1
    · obtain ⟨_, k2⟩ := handleRefs_only m.sql cmd repo (savePackfile m.sql m.fuel p repo s.db).2
      rw [k2]
      exact (push_effect hd m.sql m.fuel repo s.db).choose_spec.2.2.1

theorem run_keeps_commits (P : ServerExt) : ∀ (h : List (Moment × HttpReq)) (s : ServerState), ∀ c ∈ s.db.commits, c ∈ (runServer P s h).db.commits
  | [], _, _, hc => hc
  | (m, r) :: h, s, c, hc => run_keeps_commits P h _ c (serve_keeps_commits P m s r c hc)

/-! ## What storage says it knows -/

theorem known_iff (X : Ext) (E : SqlExt) (fuel : Nat) (db : Db) (path id : Bytes) :
    (mysqlFetch X E fuel db path).known id = true ↔ ∃ r ∈ db.commits, E.fold r.gitId = E.fold id := by
  unfold mysqlFetch getCommitByHash
  simp only
  cases hh : (E.order (db.commits.filter (fun c => E.fold c.gitId == E.fold id))).head? with
  | none =>
    have := order_none.1 hh
    rw [List.filter_eq_nil_iff] at this
    simp only [Bool.false_eq_true, false_iff, not_exists, not_and]
    exact fun r hr e => this r hr (by rw [e]; exact beq_self_eq_true _)
  | some c =>
    have := List.mem_filter.1 (order_head hh)
    simp only
    rw [show MetaData.new X .commit c.data = .ok (metaOf X (.commit, c.data)) from new_metaOf X (.commit, c.data) rfl]
    simp only [true_iff]
    exact ⟨c, this.1, eq_of_beq this.2⟩

/-- With commits filed under their ids: storage knows an id when some repository has a commit with it. -/
theorem known_hash {X : Ext} {E : SqlExt} (hfold : ∀ a b : Hash, E.fold (Hash.toPlainStr a) = E.fold (Hash.toPlainStr b) → a = b) {db : Db} (hc : CommitIds X db)
    (fuel : Nat) (path : Bytes) (id : Hash) : (mysqlFetch X E fuel db path).known (Hash.toPlainStr id) = true ↔ Spec.HasCommit X db id := by
  rw [known_iff]
  constructor
  · rintro ⟨r, hr, e⟩
    rw [hc r hr] at e
    exact ⟨r, hr, hfold _ _ e⟩
  · rintro ⟨r, hr, rfl⟩
    exact ⟨r, hr, by rw [hc r hr]⟩

/-! ## What a reply acknowledges -/

theorem commonIds_append (a b : List Spec.Pkt) : Spec.commonIds (a ++ b) = Spec.commonIds a ++ Spec.commonIds b := by
  induction a with
  | nil => rfl
  | cons p a ih =>
    cases p with
    | flush => simp [Spec.commonIds, ih]
    | line l => simp only [List.cons_append, Spec.commonIds, ih]; split <;> simp

theorem commonIds_ackLine (id suf : Bytes) (h : id.length = 40) :
    Spec.commonIds [.line (ackLine id suf)] = if suf = ascii "common" then [id] else [] := by
  have e : ackLine id suf = ascii "ACK " ++ (id ++ (ascii " " ++ suf ++ ascii "\n")) := by
    simp [ackLine]
  have e4 : (ascii "ACK ").length = 4 := by decide
  have t1 : (ackLine id suf).take 4 = ascii "ACK " := by rw [e]; exact List.take_left' e4
  have t2 : (ackLine id suf).drop 4 = id ++ (ascii " " ++ suf ++ ascii "\n") := by rw [e]; exact List.drop_left' e4
  have t3 : (ackLine id suf).drop 44 = ascii " " ++ suf ++ ascii "\n" := by
    rw [show (44 : Nat) = 4 + 40 from rfl, ← List.drop_drop, t2, List.drop_left' h]
  have t4 : (ascii " " ++ suf ++ ascii "\n" = ascii " common\n") ↔ suf = ascii "common" := by
    rw [show ascii " common\n" = ascii " " ++ ascii "common" ++ ascii "\n" from by decide]
    constructor
    · intro h; exact List.append_cancel_left (List.append_cancel_right h)
    · rintro rfl; rfl
  simp only [Spec.commonIds, t1, t2, t3, t4, true_and, List.take_left' h]

theorem haveAcks_common (St : FetchStore) (hs : List Bytes) (hl : ∀ h ∈ hs, h.length = 40) (id : Bytes) :
    id ∈ Spec.commonIds ((haveAcks St hs).map .line) ↔ id ∈ hs ∧ St.known id = true := by
  induction hs with
  | nil => simp [haveAcks, Spec.commonIds]
  | cons h hs ih =>
    have ih := ih (fun x hx => hl x (by simp [hx]))
    have hh := hl h (by simp)
    rw [haveAcks, List.flatMap_cons, ← haveAcks, List.map_append, commonIds_append, List.mem_append, ih, List.mem_cons]
    split
    · rename_i hk
      rw [List.map_singleton, commonIds_ackLine h _ hh, if_pos rfl, List.mem_singleton]
      constructor
      · rintro (rfl | ⟨a, b⟩)
        · exact ⟨.inl rfl, hk⟩
        · exact ⟨.inr a, b⟩
      · rintro ⟨rfl | a, b⟩
        · exact .inl rfl
        · exact .inr ⟨a, b⟩
    · rename_i hk
      simp only [List.map_nil, Spec.commonIds, List.not_mem_nil, false_or]
      constructor
      · rintro ⟨a, b⟩; exact ⟨.inr a, b⟩
      · rintro ⟨rfl | a, b⟩
        · exact absurd b hk
        · exact ⟨a, b⟩

theorem wantAcks_common (St : FetchStore) (nd : Bool) (hs : List Bytes) (hl : ∀ h ∈ hs, h.length = 40) (id : Bytes) :
    id ∈ Spec.commonIds ((wantAcks St nd hs).map .line) ↔ id ∈ hs ∧ St.known id = true := by
  induction hs with
  | nil => simp [wantAcks, Spec.commonIds]
  | cons h hs ih =>
    have ih := ih (fun x hx => hl x (by simp [hx]))
    have hh := hl h (by simp)
    have ready : Spec.commonIds ((if nd = true then [ackLine h (ascii "ready")] else []).map .line) = [] := by
      split
      · rw [List.map_singleton, commonIds_ackLine h _ hh, if_neg (by decide)]
      · rfl
    rw [wantAcks, List.flatMap_cons, ← wantAcks, List.map_append, List.map_append, commonIds_append, commonIds_append, ready, List.append_nil, List.mem_append, ih, List.mem_cons]
    split
    · rename_i hk
      rw [List.map_singleton, commonIds_ackLine h _ hh, if_pos rfl, List.mem_singleton]
      constructor
      · rintro (rfl | ⟨a, b⟩)
        · exact ⟨.inl rfl, hk⟩
        · exact ⟨.inr a, b⟩
      · rintro ⟨rfl | a, b⟩
        · exact .inl rfl
        · exact .inr ⟨a, b⟩
    · rename_i hk
      simp only [List.map_nil, Spec.commonIds, List.not_mem_nil, false_or]
      constructor
      · rintro ⟨a, b⟩; exact ⟨.inr a, b⟩
      · rintro ⟨rfl | a, b⟩
        · exact absurd b hk
        · exact ⟨a, b⟩

/-- How a well-formed request is read. -/
theorem httpUploadPack_done (St : FetchStore) (ord : List Bytes → List Bytes) (cut : Bytes → List Bytes) (ls : List Spec.ReqLine) (h : ∀ l ∈ ls, l.Ok) (t rest : Bytes)
    (ht : t.length ≤ 65000) : ∃ s : FetchState, (∀ x, x ∈ s.want ↔ x ∈ Spec.wantIds ls) ∧ (∀ x, x ∈ s.have_ ↔ x ∈ Spec.haveIds ls) ∧
      s.caps = requestCaps ls ∧
      httpUploadPack St ord cut (doneBody ls t rest) =
        (fetchAnswer St s.caps (ord s.want) (ord s.have_) >>= fun r => Res.ok (r.2 ++ sendPack s.caps (cut r.1))) := by
  have hlen := doneBody_length ls t rest
  obtain ⟨k, hk⟩ : ∃ k, (doneBody ls t rest).length + 1 = ls.length + (k + 1) := ⟨(doneBody ls t rest).length - ls.length, by omega⟩
  obtain ⟨s, hs, hw, hh, hc⟩ := C19_fetch_negotiation ls h t rest ht
  have hs' := fetchLoop_done ls h t rest ht fetchInit 0
  rw [hs, Res.ok.injEq, Prod.mk.injEq] at hs'
  have e0 : ls.foldl reqStep { want := [], have_ := [], caps := [], firstLine := true } = s := hs'.1.symm
  refine ⟨s, hw, hh, hc, ?_⟩
  unfold httpUploadPack
  rw [hk, fetchLoop_done ls h t rest ht, Res.bind_ok, e0]
  rfl

/-- The lines of a reply. -/
theorem httpUploadPack_common {St : FetchStore} {ord : List Bytes → List Bytes} (hord : ∀ l x, x ∈ ord l ↔ x ∈ l) {cut : Bytes → List Bytes} {ls : List Spec.ReqLine} (h : ∀ l ∈ ls, l.Ok)
    {t rest : Bytes} (ht : t.length ≤ 65000) {out : Bytes} (hout : httpUploadPack St ord cut (doneBody ls t rest) = .ok out) :
    ∃ (pkts : List Spec.Pkt) (file : Bytes), out = Spec.stream pkts ++ sendPack (requestCaps ls) (cut file) ∧ (∀ p ∈ pkts, p.Fits) ∧
      (file = [] ∨ St.fullPack = .ok file ∨ ∃ w v, St.incPack w v = .ok file) ∧
      (Spec.haveIds ls = [] → pkts = [.line (ascii "NAK\n")]) ∧
      (∀ id, id ∈ Spec.commonIds pkts → id ∈ Spec.wantIds ls ++ Spec.haveIds ls ∧ St.known id = true) ∧
      (Spec.haveIds ls ≠ [] → Spec.Asks ls (ascii "multi_ack_detailed") → ∀ id, id ∈ Spec.wantIds ls ++ Spec.haveIds ls → St.known id = true → id ∈ Spec.commonIds pkts) := by
  obtain ⟨s, hw, hh, hc, e⟩ := httpUploadPack_done St ord cut ls h t rest ht
  rw [e] at hout
  simp only [Res.bind_eq_ok, Res.ok.injEq] at hout
  obtain ⟨⟨file, buf⟩, hr, rfl⟩ := hout
  rw [hc] at hr ⊢
  obtain ⟨lw, lh⟩ := reqIds_length ls h
  have hw' : ∀ x ∈ ord s.want, x.length = 40 := fun x hx => lw x ((hw x).1 ((hord _ x).1 hx))
  have hh' : ∀ x ∈ ord s.have_, x.length = 40 := fun x hx => lh x ((hh x).1 ((hord _ x).1 hx))
  have hack : (ackLine hardCodedAck []).length ≤ 65531 := ackLine_fits _ _ (by decide) (by decide)
  have none_iff : Spec.haveIds ls = [] ↔ ord s.have_ = [] := by
    rw [List.eq_nil_iff_forall_not_mem, List.eq_nil_iff_forall_not_mem]
    exact ⟨fun q x hx => q x ((hh x).1 ((hord _ x).1 hx)), fun q x hx => q x ((hord _ x).2 ((hh x).2 hx))⟩
  unfold fetchAnswer at hr
  split at hr
  · rename_i hn
    simp only [Res.bind_eq_ok, Res.pure_eq, Res.unwrap_eq_ok, Res.ok.injEq, Prod.mk.injEq] at hr
    obtain ⟨f, hf, rfl, rfl⟩ := hr
    refine ⟨[.line (ascii "NAK\n")], f, ?_, ?_, .inr (.inl hf), fun _ => rfl, ?_, fun q => absurd (none_iff.2 hn) q⟩
    · rw [addPktLine_frame _ _ (by decide)]
      simp [Spec.stream]
    · intro p hp
      rw [List.mem_singleton.1 hp]
      show (ascii "NAK\n").length ≤ 65531
      decide
    · intro id hid
      rw [show Spec.commonIds [.line (ascii "NAK\n")] = [] from by decide] at hid
      cases hid
  · rename_i hne
    split at hr
    · simp only [Res.bind_eq_ok, Res.pure_eq, Res.unwrap_eq_ok, Res.ok.injEq, Prod.mk.injEq] at hr
      obtain ⟨f, hf, rfl, rfl⟩ := hr
      obtain ⟨a1, _⟩ := haveAcks_ids St _ hh'
      obtain ⟨b1, _⟩ := wantAcks_ids St (decide (Capability.noDone ∈ requestCaps ls)) _ hw'
      have key : ∀ id, id ∈ Spec.commonIds ((haveAcks St (ord s.have_)).map .line ++ (wantAcks St (decide (Capability.noDone ∈ requestCaps ls)) (ord s.want)).map .line ++
          [.line (ackLine hardCodedAck [])]) ↔ id ∈ Spec.wantIds ls ++ Spec.haveIds ls ∧ St.known id = true := by
        intro id
        rw [commonIds_append, commonIds_append, commonIds_ackLine _ _ (by decide), if_neg (by decide), List.append_nil, List.mem_append, List.mem_append,
          haveAcks_common St _ hh', wantAcks_common St _ _ hw', hord, hord, hw, hh]
        tauto
      refine ⟨_, f, ?_, ?_, .inr (.inr ⟨_, _, hf⟩), fun q => absurd (none_iff.1 q) hne, fun id hid => (key id).1 hid, fun _ _ id h1 h2 => (key id).2 ⟨h1, h2⟩⟩
      · rw [hardCoded_line, addPktLine_frame _ _ hack, foldl_addPktLine _ _ b1, foldl_addPktLine _ _ a1, List.nil_append, stream_append, stream_append]
        simp [Spec.stream]
      · intro p hp
        simp only [List.mem_append, List.mem_map, List.mem_singleton] at hp
        rcases hp with (⟨l, hl, rfl⟩ | ⟨l, hl, rfl⟩) | rfl
        · exact a1 l hl
        · exact b1 l hl
        · exact hack
    · rename_i hcap
      simp only [Res.pure_eq, Res.ok.injEq, Prod.mk.injEq] at hr
      obtain ⟨rfl, rfl⟩ := hr
      refine ⟨[.line (ackLine hardCodedAck [])], [], ?_, ?_, .inl rfl, fun q => absurd (none_iff.1 q) hne, ?_, fun _ q => ?_⟩
      · rw [hardCoded_line, addPktLine_frame _ _ hack]
        simp [Spec.stream]
      · intro p hp
        rw [List.mem_singleton.1 hp]
        exact hack
      · intro id hid
        rw [commonIds_ackLine _ _ (by decide), if_neg (by decide)] at hid
        cases hid
      · obtain ⟨tail, words, q1, q2, q3⟩ := q
        exfalso
        apply hcap
        unfold requestCaps
        rw [q1]
        rcases q3 with q3 | q3
        · exact (C21_capabilities_iff _ _ q2 _).2 ⟨_, q3, [], [], .nil, .nil, by rfl⟩
        · exact (C21_capabilities_iff _ _ q2 _).2 ⟨_, q3, [], [10], .nil, .cons (.tab_to_cr 10 (by decide) (by decide)) .nil, by rfl⟩

/-- A served fetch is the answer of the handler. -/
theorem serve_fetch {P : ServerExt} {m : Moment} {s : ServerState} {r : HttpReq} {path out : Bytes} (hr : route r.method r.path r.service = .uploadPack path) :
    (serve P m s r).1 = .reply (.ok (.bytes out)) ↔ httpUploadPack (mysqlFetch P.X m.sql m.fuel s.db path) m.ord m.cut r.body = .ok out := by
  unfold serve
  rw [hr]
  dsimp only
  generalize httpUploadPack (mysqlFetch P.X m.sql m.fuel s.db path) m.ord m.cut r.body = z
  cases z <;> simp [Res.outcome]

/-- **C103 (partial)** The reply to a well-formed fetch request, after any history of requests, starts with packets in which the ids called common are ids that the client named and that are
ids of stored commits. If the client lists ids it has and asks for `multi_ack_detailed`, then they are exactly these; if it lists none, there is one line `NAK`. (Missing from the full claim:
ids that the client only wants are called common too, see `C103_wanted_false`, and commits of other repositories, see `C103_other_repository_false`.) -/
theorem C103_told_partial (P : ServerExt) (hfold : ∀ a b : Hash, P.D.fold (Hash.toPlainStr a) = P.D.fold (Hash.toPlainStr b) → a = b)
    (h : List (Moment × HttpReq)) (m : Moment) (hm : m.sql.fold = P.D.fold) (hord : ∀ l x, x ∈ m.ord l ↔ x ∈ l) {u g : Bytes} (hu : Spec.CleanUrl u) (hg : g = [] ∨ g = ascii ".git")
    (ls : List Spec.ReqLine) (hls : ∀ l ∈ ls, l.Ok) (t rest : Bytes) (ht : t.length ≤ 65000) (out : Bytes)
    (hout : (serve P m (runServer P .empty h) (Spec.fetchReq (u ++ g) (doneBody ls t rest))).1 = .reply (.ok (.bytes out))) :
    ∃ (pkts : List Spec.Pkt) (file : Bytes), out = Spec.stream pkts ++ sendPack (requestCaps ls) (m.cut file) ∧ (∀ p ∈ pkts, p.Fits) ∧
      (file = [] ∨ getFullPack P.X m.sql m.fuel (runServer P .empty h).db u = .ok file ∨ ∃ w v, getIncPack P.X m.sql m.fuel (runServer P .empty h).db u w v = .ok file) ∧
      (Spec.haveIds ls = [] → pkts = [.line (ascii "NAK\n")]) ∧
      (∀ id : Hash, Hash.toPlainStr id ∈ Spec.commonIds pkts → Hash.toPlainStr id ∈ Spec.wantIds ls ++ Spec.haveIds ls ∧ Spec.HasCommit P.X (runServer P .empty h).db id) ∧
      (Spec.haveIds ls ≠ [] → Spec.Asks ls (ascii "multi_ack_detailed") → ∀ id : Hash, Hash.toPlainStr id ∈ Spec.wantIds ls ++ Spec.haveIds ls →
        Spec.HasCommit P.X (runServer P .empty h).db id → Hash.toPlainStr id ∈ Spec.commonIds pkts) := by
  rw [← hm] at hfold
  have hc := run_commit_ids P h .empty empty_readable (by intro r hr; cases hr)
  obtain ⟨pkts, file, h1, h2, h0, h3, h4, h5⟩ := httpUploadPack_common hord hls ht ((serve_fetch (route_fetch hu hg)).1 hout)
  refine ⟨pkts, file, h1, h2, h0, h3, fun id hid => ?_, fun a b id h6 h7 => h5 a b _ h6 ((known_hash hfold hc _ _ _).2 h7)⟩
  obtain ⟨h6, h7⟩ := h4 _ hid
  exact ⟨h6, (known_hash hfold hc _ _ _).1 h7⟩

/-- **C103 (partial)** Every commit of a push that was answered is called common by every later fetch, of whatever repository, in which the client lists it among those it has and asks for
`multi_ack_detailed`. (Database accepting the inserts of commits.) -/
theorem C103_pushed_partial (P : ServerExt) (hfold : ∀ a b : Hash, P.D.fold (Hash.toPlainStr a) = P.D.fold (Hash.toPlainStr b) → a = b)
    (h : List (Moment × HttpReq)) {m0 : Moment} {v k : Bytes} (hv : Spec.CleanUrl v) (hk : k = [] ∨ k = ascii ".git") {c : Spec.PushCmd} (hc : c.Ok) {caps0 : Bytes}
    (hl : caps0.length ≤ 4000) (ha : ∀ x ∈ caps0, x.toNat < 128) {pack rep : Bytes} (hp : (ascii "PACK").isPrefixOf pack = true)
    (hac : ∀ n rows, m0.sql.acceptCommits n rows = true) (har : ∀ n rows, m0.sql.acceptRefs n rows = true)
    (hpush : (serve P m0 (runServer P .empty h) (Spec.pushReq (v ++ k) (Spec.pushBody c [] caps0 pack))).1 = .reply (.ok (.bytes rep)))
    (later : List (Moment × HttpReq)) (m : Moment) (hm : m.sql.fold = P.D.fold) (hord : ∀ l x, x ∈ m.ord l ↔ x ∈ l) {u g : Bytes} (hu : Spec.CleanUrl u) (hg : g = [] ∨ g = ascii ".git")
    (ls : List Spec.ReqLine) (hls : ∀ l ∈ ls, l.Ok) (t rest : Bytes) (ht : t.length ≤ 65000) (hasks : Spec.Asks ls (ascii "multi_ack_detailed")) (out : Bytes)
    (hout : (serve P m (runServer P .empty (h ++ (m0, Spec.pushReq (v ++ k) (Spec.pushBody c [] caps0 pack)) :: later)) (Spec.fetchReq (u ++ g) (doneBody ls t rest))).1 =
      .reply (.ok (.bytes out))) :
    ∃ p, decodePack P.X (getHashObject P.X m0.sql (runServer P .empty h).db) m0.fuel pack = .ok p ∧
      ∃ (pkts : List Spec.Pkt) (file : Bytes), out = Spec.stream pkts ++ sendPack (requestCaps ls) (m.cut file) ∧
        ∀ o, p.result.hashObject o.id = some o → o.t = .commit → Hash.toPlainStr o.id ∈ Spec.haveIds ls → Hash.toPlainStr o.id ∈ Spec.commonIds pkts := by
  have hroute : route (Spec.pushReq (v ++ k) (Spec.pushBody c [] caps0 pack)).method (Spec.pushReq (v ++ k) (Spec.pushBody c [] caps0 pack)).path
    (Spec.pushReq (v ++ k) (Spec.pushBody c [] caps0 pack)).service = .receivePack v := route_push hv hk
  obtain ⟨st', hrec⟩ : ∃ st', httpReceivePack (mysqlPush P.X m0.sql m0.fuel) { caps := [], commands := [], path := v, db := (runServer P .empty h).db }
      (Spec.pushBody c [] caps0 pack) = .ok (rep, st') := by
    unfold serve at hpush
    rw [hroute] at hpush
    dsimp only at hpush
    generalize e : httpReceivePack (mysqlPush P.X m0.sql m0.fuel) { caps := [], commands := [], path := v, db := (runServer P .empty h).db }
      (Spec.pushReq (v ++ k) (Spec.pushBody c [] caps0 pack)).body = z at hpush
    cases z with
    | ok q =>
      simp only [Res.outcome, Outcome.reply.injEq, Reply.ok.injEq, Payload.bytes.injEq] at hpush
      subst hpush
      exact ⟨q.2, e⟩
    | _ => simp [Res.outcome] at hpush
  have hdb : (runServer P .empty (h ++ [(m0, Spec.pushReq (v ++ k) (Spec.pushBody c [] caps0 pack))])).db = st'.db := by
    rw [runServer_concat, serve_db, hroute]
    exact httpReceiveDb_ok _ _ _ _ _ hrec
  obtain ⟨p, d1, d2, _⟩ := C26_durable_partial P.X m0.sql m0.fuel v (runServer P .empty h).db c hc caps0 hl ha pack hp hac har rep st' hrec
  obtain ⟨pkts, file, h1, _, _, _, _, h5⟩ := C103_told_partial P hfold _ m hm hord hu hg ls hls t rest ht out hout
  refine ⟨p, d1, pkts, file, h1, fun o ho hty hin => h5 (List.ne_nil_of_mem hin) hasks o.id (List.mem_append_right _ hin) ?_⟩
  obtain ⟨r, hr, e1, e2, _⟩ := d2 o ho hty
  have hin' : r ∈ (runServer P .empty (h ++ (m0, Spec.pushReq (v ++ k) (Spec.pushBody c [] caps0 pack)) :: later)).db.commits := by
    rw [show h ++ (m0, Spec.pushReq (v ++ k) (Spec.pushBody c [] caps0 pack)) :: later =
      (h ++ [(m0, Spec.pushReq (v ++ k) (Spec.pushBody c [] caps0 pack))]) ++ later from by simp, runServer_append]
    exact run_keeps_commits P later _ r (by rw [hdb]; exact hr)
  refine ⟨r, hin', Hash.toPlainStr_injective ?_⟩
  rw [← run_commit_ids P _ .empty empty_readable (by intro r hr; cases hr) r hin', e1]

end Gust

import Verif.Model.Fetching
import Verif.Props.IncOverlap
import Verif.Props.Acks

/-! # C108: fetches over HTTP that overlap with other requests -/

namespace Gust

open Spec (nodeObj StoreReach commitsAt InRepo)

/-- Not interrupted, it is what the server of `Model/Server.lean` does. -/
theorem httpUploadPackL_same (X : Ext) (E : SqlExt) (db : Db) (fuel : Nat) (path : Bytes) (ord : List Bytes → List Bytes) (cut : Bytes → List Bytes) (body : Bytes) :
    httpUploadPackL X ⟨fun _ => (E, db), fun _ => (E, db), fun _ => (E, db)⟩ fuel path ord cut body = httpUploadPack (mysqlFetch X E fuel db path) ord cut body := by
  have e : (FetchTimes.mk (fun _ => (E, db)) (fun _ => (E, db)) (fun _ => (E, db))).store X (fun _ => (E, db)) fuel path = mysqlFetch X E fuel db path := by
    unfold FetchTimes.store mysqlFetch
    simp only [getFullPack_const, getIncPack_const]
    rfl
  unfold httpUploadPackL httpUploadPack
  simp only [e]
  rfl

/-! ## Every stored commit is stored under its own id -/

/-- What the statement is going to store can be read, and commits are filed under their ids. -/
def ActReads (X : Ext) : Act → Prop
  | .nodes b => ∀ n ∈ b, ∃ h : Hash, n.gitId = Hash.toPlainStr h
  | .commits b => ∀ r ∈ b, (∃ c, Commit.decode r.data = .ok c) ∧ r.gitId = Hash.toPlainStr (idOf X (.commit, r.data))
  | .headRoot row _ _ _ => ∃ c, Commit.decode row.data = .ok c
  | _ => True

structure SysReads (X : Ext) (s : Sys) : Prop where
  db : Readable s.db
  ids : CommitIds X s.db
  tasks : ∀ as, some as ∈ s.tasks → ∀ a ∈ as, ActReads X a

theorem step_reads {X : Ext} {E : SqlExt} {db : Db} {a : Act} (h : Readable db) (hi : CommitIds X db) (ha : ActReads X a) :
    Readable (a.step X E db).2 ∧ CommitIds X (a.step X E db).2 ∧ ∀ more, (a.step X E db).1 = some more → ∀ b ∈ more, ActReads X b := by
  have none_ : ∀ more, (some [] : Option (List Act)) = some more → ∀ b ∈ more, ActReads X b := by
    intro more e b hb
    cases e
    cases hb
  cases a with
  | nodes b =>
    simp only [Act.step]
    split
    · refine ⟨⟨fun n hn => ?_, h.commits⟩, hi, none_⟩
      rcases List.mem_append.1 hn with hn | hn
      · exact h.nodes n hn
      · exact ha n hn
    · exact ⟨⟨h.nodes, h.commits⟩, hi, fun _ e => nomatch e⟩
  | commits b =>
    refine ⟨⟨h.nodes, fun r hr => ?_⟩, fun r hr => ?_, none_⟩
    · have hr : r ∈ if E.acceptCommits db.inserts b then db.commits ++ b else db.commits := hr
      split at hr
      · rcases List.mem_append.1 hr with hr | hr
        · exact h.commits r hr
        · exact (ha r hr).1
      · exact h.commits r hr
    · have hr : r ∈ if E.acceptCommits db.inserts b then db.commits ++ b else db.commits := hr
      split at hr
      · rcases List.mem_append.1 hr with hr | hr
        · exact hi r hr
        · exact (ha r hr).2
      · exact hi r hr
  | refs b => exact ⟨⟨h.nodes, h.commits⟩, hi, none_⟩
  | findRef cmd q =>
    simp only [Act.step]
    split
    · refine ⟨h, hi, fun more e b hb => ?_⟩
      cases e
      rw [List.mem_singleton.1 hb]
      trivial
    · exact ⟨h, hi, fun _ e => nomatch e⟩
  | setRef i id =>
    simp only [Act.step]
    split
    · exact ⟨⟨h.nodes, h.commits⟩, hi, none_⟩
    · exact ⟨h, hi, fun _ e => nomatch e⟩
  | headRefs q =>
    simp only [Act.step]
    split
    · exact ⟨h, hi, none_⟩
    · split
      · refine ⟨h, hi, fun more e b hb => ?_⟩
        cases e
        rw [List.mem_singleton.1 hb]
        trivial
      · exact ⟨h, hi, none_⟩
  | headCommit r q =>
    simp only [Act.step]
    split
    · exact ⟨h, hi, fun _ e => nomatch e⟩
    · rename_i row hrow
      refine ⟨h, hi, fun more e b hb => ?_⟩
      cases e
      rw [List.mem_singleton.1 hb]
      exact h.commits row (List.mem_filter.1 (order_head hrow)).1
  | headRoot row r q second =>
    simp only [Act.step]
    split
    · exact ⟨h, hi, fun _ e => nomatch e⟩
    · split
      · rename_i root hroot
        refine ⟨h, hi, fun more e b hb => ?_⟩
        cases e
        obtain ⟨c, hc⟩ := ha
        obtain ⟨t, ht⟩ := h.nodes root (List.mem_filter.1 (order_head hroot)).1
        obtain ⟨child, h1, h2, h3, _⟩ := C61_every X row root c t hc ht
        unfold childActs at hb
        rw [h1] at hb
        simp only [List.mem_cons, List.not_mem_nil, or_false] at hb
        rcases hb with rfl | rfl
        · intro r hr
          rw [List.mem_singleton.1 hr]
          have e := new_metaOf X (.commit, child.base.data) rfl
          rw [show MetaData.new X (ObjectType.commit, child.base.data).1 (ObjectType.commit, child.base.data).2 = .ok child.base from h3] at e
          refine ⟨⟨_, h2⟩, ?_⟩
          show Hash.toPlainStr child.base.id = Hash.toPlainStr (metaOf X (.commit, child.base.data)).id
          rw [← Res.ok.inj e]
        · trivial
      · split
        · exact ⟨h, hi, none_⟩
        · refine ⟨h, hi, fun more e b hb => ?_⟩
          cases e
          rw [List.mem_singleton.1 hb]
          exact ha
  | fail => exact ⟨h, hi, fun _ e => nomatch e⟩

theorem push_reads {X : Ext} {St : ObjectSource} {fuel0 : Nat} {file : Bytes} {p : Pack} (hdec : decodePack X St fuel0 file = .ok p) (E : SqlExt) (fuel : Nat) (q : Bytes)
    (cmd : RefCommand) : ∀ a ∈ pushActs E.pool fuel p q cmd, ActReads X a := by
  unfold pushActs
  cases hp : E.pool p.result with
  | ok D =>
    simp only
    cases hb : buildNodeTree fuel D with
    | ok rows =>
      obtain ⟨k1, _, k3, _⟩ := pack_rows hdec (by have := E.pool_outcome p.result; rwa [hp] at this) hb
      have hfl : (nodeBatches 0 [] rows).flatten = rows := by simpa using nodeBatches_flatten rows 0 []
      intro a ha
      simp only [List.mem_append, List.mem_map] at ha
      rcases ha with (⟨b, hb, rfl⟩ | ⟨b, hb, rfl⟩) | ha
      · intro n hn
        obtain ⟨o, _, _, e, _⟩ := k1 n (by rw [← hfl]; exact List.mem_flatten.2 ⟨b, hb, hn⟩)
        exact ⟨_, e⟩
      · intro r hr
        have hr : r ∈ (chunks 100 D.commits.length (D.commits.map (fun c => c.row q))).flatten := List.mem_flatten.2 ⟨b, hb, hr⟩
        rw [chunks_flatten 100 (by simp) _ _ (by simp)] at hr
        obtain ⟨co, hco, rfl⟩ := List.mem_map.1 hr
        obtain ⟨_, g2, _, g3, _⟩ := k3 co hco
        refine ⟨⟨_, g3⟩, ?_⟩
        show Hash.toPlainStr co.base.id = Hash.toPlainStr (metaOf X (.commit, co.base.data)).id
        rw [← g2]
      · unfold refActs at ha
        split at ha <;> (rw [List.mem_singleton.1 ha]; trivial)
    | _ =>
      intro a ha
      rw [List.mem_singleton.1 ha]
      trivial
  | _ =>
    intro a ha
    rw [List.mem_singleton.1 ha]
    trivial

theorem sysRun_reads {X : Ext} {Q : SqlExt → Prop} {R : Bytes → Prop} {W : Pack → RefCommand → Prop} {s t : Sys} (h : SysReads X s) (hs : SysRun X Q R W s t) : SysReads X t := by
  induction hs with
  | refl => exact h
  | step t u _ hs ih =>
    cases hs with
    | push St fuel0 file p E fuel q cmd hdec hq hw =>
      refine ⟨ih.db, ih.ids, fun as ha => ?_⟩
      rcases List.mem_append.1 ha with ha | ha
      · exact ih.tasks as ha
      · cases List.mem_singleton.1 ha
        exact push_reads hdec E fuel q cmd
    | head q hq =>
      refine ⟨ih.db, ih.ids, fun as ha => ?_⟩
      rcases List.mem_append.1 ha with ha | ha
      · exact ih.tasks as ha
      · cases List.mem_singleton.1 ha
        intro a ha
        rw [List.mem_singleton.1 ha]
        trivial
    | act i a as E hi hE =>
      have hall := ih.tasks _ (List.mem_of_getElem? hi)
      obtain ⟨h1, h2, h3⟩ := step_reads (E := E) ih.db ih.ids (hall a (.head _))
      refine ⟨h1, h2, fun as' ha => ?_⟩
      rcases mem_set_task ha with ha | ha
      · exact ih.tasks as' ha
      · obtain ⟨more, e1, e2⟩ := Option.map_eq_some_iff.1 ha.symm
        rw [← e2]
        intro b hb
        rcases List.mem_append.1 hb with hb | hb
        · exact h3 more e1 b hb
        · exact hall b (.tail _ hb)

theorem sysReads_empty (X : Ext) : SysReads X Sys.empty :=
  ⟨⟨(by intro _ h; cases h), (by intro _ h; cases h)⟩, (by intro _ h; cases h), (by intro _ h; cases h)⟩

/-! ## How a well-formed request is read -/

theorem httpUploadPackL_done (X : Ext) (T : FetchTimes) (fuel : Nat) (path : Bytes) (ord : List Bytes → List Bytes) (cut : Bytes → List Bytes) (ls : List Spec.ReqLine)
    (h : ∀ l ∈ ls, l.Ok) (t rest : Bytes) (ht : t.length ≤ 65000) :
    ∃ s : FetchState, (∀ x, x ∈ s.want ↔ x ∈ Spec.wantIds ls) ∧ (∀ x, x ∈ s.have_ ↔ x ∈ Spec.haveIds ls) ∧ s.caps = requestCaps ls ∧
      httpUploadPackL X T fuel path ord cut (doneBody ls t rest) =
        (fetchAnswer2 (T.store X T.haves fuel path) (T.store X T.wants fuel path) s.caps (ord s.want) (ord s.have_) >>= fun r => Res.ok (r.2 ++ sendPack s.caps (cut r.1))) ∧
      ∀ St, httpUploadPack St ord cut (doneBody ls t rest) = (fetchAnswer St s.caps (ord s.want) (ord s.have_) >>= fun r => Res.ok (r.2 ++ sendPack s.caps (cut r.1))) := by
  have hlen := doneBody_length ls t rest
  obtain ⟨k, hk⟩ : ∃ k, (doneBody ls t rest).length + 1 = ls.length + (k + 1) := ⟨(doneBody ls t rest).length - ls.length, by omega⟩
  obtain ⟨s, hs, hw, hh, hc⟩ := C19_fetch_negotiation ls h t rest ht
  have hs' := fetchLoop_done ls h t rest ht fetchInit 0
  rw [hs, Res.ok.injEq, Prod.mk.injEq] at hs'
  have e0 : ls.foldl reqStep { want := [], have_ := [], caps := [], firstLine := true } = s := hs'.1.symm
  refine ⟨s, hw, hh, hc, ?_, fun St => ?_⟩
  · unfold httpUploadPackL
    rw [hk, fetchLoop_done ls h t rest ht, Res.bind_ok, e0]
    rfl
  · unfold httpUploadPack
    rw [hk, fetchLoop_done ls h t rest ht, Res.bind_ok, e0]
    rfl

/-- A clone looks up no commits. -/
theorem httpUploadPackL_clone {X : Ext} {T : FetchTimes} {fuel : Nat} {path : Bytes} {ord : List Bytes → List Bytes} (hord : ∀ l x, x ∈ ord l ↔ x ∈ l) {cut : Bytes → List Bytes}
    {ls : List Spec.ReqLine} {t rest : Bytes} (hr : Spec.CloneReq ls t) :
    httpUploadPackL X T fuel path ord cut (doneBody ls t rest) = httpUploadPack (T.store X T.wants fuel path) ord cut (doneBody ls t rest) := by
  obtain ⟨s, _, hh, _, e1, e2⟩ := httpUploadPackL_done X T fuel path ord cut ls hr.ok t rest hr.short
  have hno : ord s.have_ = [] := by
    rw [List.eq_nil_iff_forall_not_mem]
    intro x hx
    have := (hh x).1 ((hord _ x).1 hx)
    rw [hr.none] at this
    cases this
  rw [e1, e2, hno]
  unfold fetchAnswer2 fetchAnswer
  rw [if_pos rfl, if_pos rfl]

/-- What is listed in the acknowledgements, before `ord`. -/
theorem fetchAnswer2_common {SH SW : FetchStore} {caps : List Capability} {wants haves : List Bytes} (hw : ∀ x ∈ wants, x.length = 40) (hh : ∀ x ∈ haves, x.length = 40) (hne : haves ≠ [])
    {file buf : Bytes} (h : fetchAnswer2 SH SW caps wants haves = .ok (file, buf)) :
    ∃ pkts : List Spec.Pkt, buf = Spec.stream pkts ∧ (∀ p ∈ pkts, p.Fits) ∧
      (Capability.multiAckDetailed ∈ caps → SW.incPack wants haves = .ok file) ∧ (Capability.multiAckDetailed ∉ caps → file = []) ∧
      (∀ id, id ∈ Spec.commonIds pkts → (id ∈ haves ∧ SH.known id = true) ∨ (id ∈ wants ∧ SW.known id = true)) ∧
      (Capability.multiAckDetailed ∈ caps → ∀ id, (id ∈ haves ∧ SH.known id = true) ∨ (id ∈ wants ∧ SW.known id = true) → id ∈ Spec.commonIds pkts) := by
  have hack : (ackLine hardCodedAck []).length ≤ 65531 := ackLine_fits _ _ (by decide) (by decide)
  unfold fetchAnswer2 at h
  rw [if_neg hne] at h
  split at h
  · rename_i hcap
    simp only [Res.bind_eq_ok, Res.pure_eq, Res.unwrap_eq_ok, Res.ok.injEq, Prod.mk.injEq] at h
    obtain ⟨f, hf, rfl, rfl⟩ := h
    obtain ⟨a1, _⟩ := haveAcks_ids SH _ hh
    obtain ⟨b1, _⟩ := wantAcks_ids SW (decide (Capability.noDone ∈ caps)) _ hw
    have key : ∀ id, id ∈ Spec.commonIds ((haveAcks SH haves).map .line ++ (wantAcks SW (decide (Capability.noDone ∈ caps)) wants).map .line ++
        [.line (ackLine hardCodedAck [])]) ↔ (id ∈ haves ∧ SH.known id = true) ∨ (id ∈ wants ∧ SW.known id = true) := by
      intro id
      rw [commonIds_append, commonIds_append, commonIds_ackLine _ _ (by decide), if_neg (by decide), List.append_nil, List.mem_append,
        haveAcks_common SH _ hh, wantAcks_common SW _ _ hw]
    refine ⟨_, ?_, ?_, fun _ => hf, fun q => absurd hcap q, fun id => (key id).1, fun _ id => (key id).2⟩
    · rw [hardCoded_line, addPktLine_frame _ _ hack, foldl_addPktLine _ _ b1, foldl_addPktLine _ _ a1, List.nil_append, stream_append, stream_append]
      simp [Spec.stream]
    · intro p hp
      simp only [List.mem_append, List.mem_map, List.mem_singleton] at hp
      rcases hp with (⟨l, hl, rfl⟩ | ⟨l, hl, rfl⟩) | rfl
      · exact a1 l hl
      · exact b1 l hl
      · exact hack
  · rename_i hcap
    simp only [Res.pure_eq, Res.ok.injEq, Prod.mk.injEq] at h
    obtain ⟨rfl, rfl⟩ := h
    refine ⟨[.line (ackLine hardCodedAck [])], ?_, ?_, fun q => absurd q hcap, fun _ => rfl, ?_, fun q => absurd q hcap⟩
    · rw [hardCoded_line, addPktLine_frame _ _ hack]
      simp [Spec.stream]
    · intro p hp
      rw [List.mem_singleton.1 hp]
      exact hack
    · intro id hid
      rw [commonIds_ackLine _ _ (by decide), if_neg (by decide)] at hid
      cases hid

/-! ## C108 -/

/-- When the queries of a fetch are answered, as states of the system of tasks. -/
structure Spec.FetchMoments where
  haves : Bytes → SqlExt × Sys
  pack : Nat → SqlExt × Sys
  wants : Bytes → SqlExt × Sys

/-- The database at these moments. -/
def Spec.FetchMoments.times (T : Spec.FetchMoments) : FetchTimes :=
  ⟨fun h => ((T.haves h).1, (T.haves h).2.db), fun k => ((T.pack k).1, (T.pack k).2.db), fun h => ((T.wants h).1, (T.wants h).2.db)⟩

/-- The request begins in state `first` and is answered in state `last`; in between other requests take their turns as they like. -/
structure Spec.FetchDuring (X : Ext) (fold : Bytes → Bytes) (R : Bytes → Prop) (W : Pack → RefCommand → Prop) (first : Sys) (T : Spec.FetchMoments) (last : Sys) : Prop where
  begin_ : SysRun X (fun E => E.fold = fold) R W Sys.empty first
  haves : ∀ h, SysRun X (fun E => E.fold = fold) R W first (T.haves h).2
  pack0 : ∀ h, SysRun X (fun E => E.fold = fold) R W (T.haves h).2 (T.pack 0).2
  pack : ∀ k, SysRun X (fun E => E.fold = fold) R W (T.pack k).2 (T.pack (k + 1)).2
  wants : ∀ k h, SysRun X (fun E => E.fold = fold) R W (T.pack k).2 (T.wants h).2
  last : ∀ h, SysRun X (fun E => E.fold = fold) R W (T.wants h).2 last
  fold : (∀ h, (T.haves h).1.fold = fold) ∧ (∀ k, (T.pack k).1.fold = fold) ∧ ∀ h, (T.wants h).1.fold = fold

theorem Spec.FetchDuring.at_pack {X : Ext} {fold : Bytes → Bytes} {R : Bytes → Prop} {W : Pack → RefCommand → Prop} {first last : Sys} {T : Spec.FetchMoments}
    (h : Spec.FetchDuring X fold R W first T last) : SysRun X (fun E => E.fold = fold) R W Sys.empty (T.pack 0).2 ∧ SysRun X (fun E => E.fold = fold) R W first (T.pack 0).2 ∧
      ∀ k, SysRun X (fun E => E.fold = fold) R W (T.pack k).2 last :=
  ⟨(h.begin_.trans (h.haves [])).trans (h.pack0 []), (h.haves []).trans (h.pack0 []), fun k => (h.wants k []).trans (h.last [])⟩

/-- What a lookup says, in terms of what is stored. -/
theorem store_known {X : Ext} {fold : Bytes → Bytes} (hfold : ∀ a b : Hash, fold (Hash.toPlainStr a) = fold (Hash.toPlainStr b) → a = b) (T : FetchTimes)
    (look : Bytes → SqlExt × Db) (fuel : Nat) (path : Bytes) (id : Hash) (hf : (look (Hash.toPlainStr id)).1.fold = fold) (hc : CommitIds X (look (Hash.toPlainStr id)).2) :
    (T.store X look fuel path).known (Hash.toPlainStr id) = true ↔ Spec.HasCommit X (look (Hash.toPlainStr id)).2 id := by
  have e : (T.store X look fuel path).known (Hash.toPlainStr id) =
      (mysqlFetch X (look (Hash.toPlainStr id)).1 fuel (look (Hash.toPlainStr id)).2 path).known (Hash.toPlainStr id) := rfl
  rw [e]
  exact known_hash (by rw [hf]; exact hfold) hc fuel path id

theorem HasCommit.mono {X : Ext} {db db' : Db} {id : Hash} (h : Spec.HasCommit X db id) (ext : Extends db db') : Spec.HasCommit X db' id := by
  obtain ⟨r, hr, e⟩ := h
  exact ⟨r, ext.commits r hr, e⟩

/-- **C108 (partial)** A clone request over HTTP that overlaps with any number of pushes and discoveries, of this and other repositories, in any interleaving, is answered, and the pack in
the reply has exactly the objects the repository had at the moment of the first query. `hR`: no request names a directory above the path (see C55). `hfuel`: the stack has room for as
many calls as there are rows. (Missing from the full claim: a path without commits, see C49.) -/
theorem C108_clone_partial (X : Ext) (fold : Bytes → Bytes) (hfold : ∀ a b : Hash, fold (Hash.toPlainStr a) = fold (Hash.toPlainStr b) → a = b)
    (R : Bytes → Prop) (W : Pack → RefCommand → Prop) (path : Bytes) (hR : ∀ a q, R a → R q → fold q = fold path → pathStartsWith q a = true → a = q)
    (first last : Sys) (T : Spec.FetchMoments) (hT : Spec.FetchDuring X fold R W first T last)
    (hu : UniqueIds X last.db) (hfit : FitsPack X last.db) (fuel : Nat) (hfuel : last.db.nodes.length ≤ fuel) (hne : commitsAt fold first.db.commits path ≠ [])
    (ord : List Bytes → List Bytes) (hord : ∀ l x, x ∈ ord l ↔ x ∈ l) (cut : Bytes → List Bytes) (hcut : Spec.CutOk cut)
    (ls : List Spec.ReqLine) (t rest : Bytes) (hr : Spec.CloneReq ls t) :
    ∃ out file ms, httpUploadPackL X T.times fuel path ord cut (doneBody ls t rest) = .ok out ∧ Spec.readClone out = some file ∧ PackHas X file ms ∧
      ∀ m, m ∈ ms ↔ ∃ o, InRepo fold (T.pack 0).2.db path o ∧ m = metaOf X o := by
  obtain ⟨h0, h1, h2⟩ := hT.at_pack
  obtain ⟨r, hrm⟩ := List.exists_mem_of_ne_nil _ hne
  obtain ⟨q1, q2⟩ := commitsAt_mem.1 hrm
  obtain ⟨file, ms, c1, c2, c3⟩ := C81_snapshot_stack_partial X fold hfold R W path hR T.pack last hT.fold.2.1 h0 hT.pack h2 hu hfit fuel hfuel
    (List.ne_nil_of_mem (commitsAt_mem.2 ⟨(sysRun_extends h1).commits r q1, q2⟩))
  rw [httpUploadPackL_clone hord hr]
  have hf : (T.times.store X T.times.wants fuel path).fullPack = .ok file := c1
  obtain ⟨out, ho⟩ := httpUploadPack_ok (cut := cut) (rest := rest) hord hr hf
  obtain ⟨file', e1, e2⟩ := httpUploadPack_clone hord hcut hr ho
  rw [hf, Res.ok.injEq] at e1
  subst e1
  exact ⟨out, file, ms, ho, e2, c2, c3⟩

/-- **C108 (partial)** What a fetch is told when requests overlap: a reply to a request that lists commits the client has consists of lines and a pack. The lines call common only ids
the client listed and of which some repository has a commit by the end; if the client asked for `multi_ack_detailed`, all listed ids of which some repository had a commit when the
request began are called common. (Missing from the full claim: commits of this repository only, see `C103_other_repository_false`; the last line, see C19.) -/
theorem C108_told_partial (X : Ext) (fold : Bytes → Bytes) (hfold : ∀ a b : Hash, fold (Hash.toPlainStr a) = fold (Hash.toPlainStr b) → a = b)
    (R : Bytes → Prop) (W : Pack → RefCommand → Prop) (path : Bytes) (first last : Sys) (T : Spec.FetchMoments) (hT : Spec.FetchDuring X fold R W first T last) (fuel : Nat)
    (ord : List Bytes → List Bytes) (hord : ∀ l x, x ∈ ord l ↔ x ∈ l) (cut : Bytes → List Bytes) (ls : List Spec.ReqLine) (hls : ∀ l ∈ ls, l.Ok) (t rest : Bytes) (ht : t.length ≤ 65000)
    (hne : Spec.haveIds ls ≠ []) (out : Bytes) (hout : httpUploadPackL X T.times fuel path ord cut (doneBody ls t rest) = .ok out) :
    ∃ (pkts : List Spec.Pkt) (file : Bytes), out = Spec.stream pkts ++ sendPack (requestCaps ls) (cut file) ∧ (∀ p ∈ pkts, p.Fits) ∧
      (∀ id : Hash, Hash.toPlainStr id ∈ Spec.commonIds pkts → Hash.toPlainStr id ∈ Spec.wantIds ls ++ Spec.haveIds ls ∧ Spec.HasCommit X last.db id) ∧
      (Spec.Asks ls (ascii "multi_ack_detailed") → ∀ id : Hash, Hash.toPlainStr id ∈ Spec.wantIds ls ++ Spec.haveIds ls → Spec.HasCommit X first.db id →
        Hash.toPlainStr id ∈ Spec.commonIds pkts) := by
  obtain ⟨s, hw, hh, hc, e, _⟩ := httpUploadPackL_done X T.times fuel path ord cut ls hls t rest ht
  rw [e] at hout
  simp only [Res.bind_eq_ok, Res.ok.injEq] at hout
  obtain ⟨⟨file, buf⟩, hr, rfl⟩ := hout
  rw [hc] at hr ⊢
  obtain ⟨lw, lh⟩ := reqIds_length ls hls
  have hne' : ord s.have_ ≠ [] := by
    obtain ⟨x, hx⟩ := List.exists_mem_of_ne_nil _ hne
    exact List.ne_nil_of_mem ((hord _ x).2 ((hh x).2 hx))
  obtain ⟨pkts, rfl, k2, k3, k4, k5, k6⟩ := fetchAnswer2_common (fun x hx => lw x ((hw x).1 ((hord _ x).1 hx))) (fun x hx => lh x ((hh x).1 ((hord _ x).1 hx))) hne' hr
  have reads0 := sysRun_reads (sysReads_empty X) hT.begin_
  have readsH := fun h => sysRun_reads reads0 (hT.haves h)
  obtain ⟨g0, g1, g2⟩ := hT.at_pack
  have readsW := fun h => sysRun_reads (sysRun_reads (sysReads_empty X) g0) (hT.wants 0 h)
  have kh := fun id : Hash => store_known (path := path) hfold T.times T.times.haves fuel id (hT.fold.1 _) (readsH _).ids
  have kw := fun id : Hash => store_known (path := path) hfold T.times T.times.wants fuel id (hT.fold.2.2 _) (readsW _).ids
  refine ⟨pkts, file, rfl, k2, fun id hid => ?_, fun hasks id hin hc0 => ?_⟩
  · rcases k5 _ hid with ⟨q1, q2⟩ | ⟨q1, q2⟩
    · refine ⟨List.mem_append_right _ ((hh _).1 ((hord _ _).1 q1)), ?_⟩
      exact HasCommit.mono ((kh id).1 q2) (sysRun_extends ((hT.pack0 _).trans (g2 0)))
    · exact ⟨List.mem_append_left _ ((hw _).1 ((hord _ _).1 q1)), HasCommit.mono ((kw id).1 q2) (sysRun_extends (hT.last _))⟩
  · have hcap : Capability.multiAckDetailed ∈ requestCaps ls := by
      obtain ⟨tail, words, b1, b2, b3⟩ := hasks
      unfold requestCaps
      rw [b1]
      rcases b3 with b3 | b3
      · exact (C21_capabilities_iff _ _ b2 _).2 ⟨_, b3, [], [], .nil, .nil, by rfl⟩
      · exact (C21_capabilities_iff _ _ b2 _).2 ⟨_, b3, [], [10], .nil, .cons (.tab_to_cr 10 (by decide) (by decide)) .nil, by rfl⟩
    refine k6 hcap _ ?_
    rcases List.mem_append.1 hin with hin | hin
    · exact .inr ⟨(hord _ _).2 ((hw _).2 hin), (kw id).2 (HasCommit.mono hc0 (sysRun_extends (g1.trans (hT.wants 0 _))))⟩
    · exact .inl ⟨(hord _ _).2 ((hh _).2 hin), (kh id).2 (HasCommit.mono hc0 (sysRun_extends (hT.haves _)))⟩

/-- **C108 (partial)** A fetch over HTTP of a commit the repository had when the request began, by a client that has some commits and asks for `multi_ack_detailed`, is answered however
requests overlap, and the pack in the reply has exactly what was reachable from the trees of the wanted commits at the first query for the pack. (Missing from the full claim: the
wanted commits, see `C107_no_commit_false`.) -/
theorem C108_fetch_partial (X : Ext) (fold : Bytes → Bytes) (hfold : ∀ a b : Hash, fold (Hash.toPlainStr a) = fold (Hash.toPlainStr b) → a = b)
    (R : Bytes → Prop) (W : Pack → RefCommand → Prop) (path : Bytes) (hR : ∀ a q, R a → R q → fold q = fold path → pathStartsWith q a = true → a = q)
    (first last : Sys) (T : Spec.FetchMoments) (hT : Spec.FetchDuring X fold R W first T last)
    (hu : UniqueIds X last.db) (hfit : FitsPack X last.db) (fuel : Nat) (hfuel : last.db.nodes.length ≤ fuel)
    (ord : List Bytes → List Bytes) (hord : ∀ l x, x ∈ ord l ↔ x ∈ l) (cut : Bytes → List Bytes) (ls : List Spec.ReqLine) (hls : ∀ l ∈ ls, l.Ok) (t rest : Bytes) (ht : t.length ≤ 65000)
    (hne : Spec.haveIds ls ≠ []) (hasks : Spec.Asks ls (ascii "multi_ack_detailed"))
    (r : CommitRow) (hr : r ∈ commitsAt fold first.db.commits path) (hw : Hash.toPlainStr (idOf X (.commit, r.data)) ∈ Spec.wantIds ls) :
    ∃ (pkts : List Spec.Pkt) (file : Bytes) (ms : List MetaData),
      httpUploadPackL X T.times fuel path ord cut (doneBody ls t rest) = .ok (Spec.stream pkts ++ sendPack (requestCaps ls) (cut file)) ∧ (∀ p ∈ pkts, p.Fits) ∧
      PackHas X file ms ∧ ∀ m, m ∈ ms ↔ ∃ o, BelowWanted X fold (T.pack 0).2.db path (Spec.wantIds ls) o ∧ m = metaOf X o := by
  obtain ⟨h0, h1, h2⟩ := hT.at_pack
  obtain ⟨s, hws, hh, hc, e, _⟩ := httpUploadPackL_done X T.times fuel path ord cut ls hls t rest ht
  obtain ⟨q1, q2⟩ := commitsAt_mem.1 hr
  have hmem : ∀ x, x ∈ ord s.want ↔ x ∈ Spec.wantIds ls := fun x => (hord _ x).trans (hws x)
  obtain ⟨file, ms, c1, c2, c3⟩ := C107_snapshot_partial X fold hfold R W path hR T.pack last hT.fold.2.1 h0 hT.pack h2 hu hfit fuel hfuel (ord s.want) (ord s.have_) r
    (commitsAt_mem.2 ⟨(sysRun_extends h1).commits r q1, q2⟩) ((hmem _).2 hw)
  obtain ⟨lw, lh⟩ := reqIds_length ls hls
  have hne' : ord s.have_ ≠ [] := by
    obtain ⟨x, hx⟩ := List.exists_mem_of_ne_nil _ hne
    exact List.ne_nil_of_mem ((hord _ x).2 ((hh x).2 hx))
  have hcap : Capability.multiAckDetailed ∈ requestCaps ls := by
    obtain ⟨tail, words, b1, b2, b3⟩ := hasks
    unfold requestCaps
    rw [b1]
    rcases b3 with b3 | b3
    · exact (C21_capabilities_iff _ _ b2 _).2 ⟨_, b3, [], [], .nil, .nil, by rfl⟩
    · exact (C21_capabilities_iff _ _ b2 _).2 ⟨_, b3, [], [10], .nil, .cons (.tab_to_cr 10 (by decide) (by decide)) .nil, by rfl⟩
  have c1' : (T.times.store X T.times.wants fuel path).incPack (ord s.want) (ord s.have_) = .ok file := c1
  obtain ⟨buf, ha⟩ : ∃ buf, fetchAnswer2 (T.times.store X T.times.haves fuel path) (T.times.store X T.times.wants fuel path) (requestCaps ls) (ord s.want) (ord s.have_) = .ok (file, buf) := by
    unfold fetchAnswer2
    rw [if_neg hne', if_pos hcap, c1']
    exact ⟨_, rfl⟩
  obtain ⟨pkts, rfl, k2, _⟩ := fetchAnswer2_common (fun x hx => lw x ((hmem x).1 hx)) (fun x hx => lh x ((hh x).1 ((hord _ x).1 hx))) hne' ha
  refine ⟨pkts, file, ms, ?_, k2, c2, fun m => ?_⟩
  · rw [e, hc, ha]
    rfl
  · rw [c3]
    constructor
    · rintro ⟨o, ⟨r, c, h, n, a1, a2, a3, a4, a5, a6⟩, rfl⟩
      exact ⟨_, .node r c h n a1 ((hmem _).1 a2) a3 a4 a5 a6, rfl⟩
    · rintro ⟨o, ⟨r, c, h, n, a1, a2, a3, a4, a5, a6⟩, rfl⟩
      exact ⟨_, .node r c h n a1 ((hmem _).2 a2) a3 a4 a5 a6, rfl⟩

end Gust

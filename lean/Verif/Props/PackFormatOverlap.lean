import Verif.Props.PackFormat
import Verif.Props.FetchOverlapExamples

/-! # C161 while other requests are worked on -/

namespace Gust

theorem childLoopL_gathered {X : Ext} {db : Db} {rec : NodeRow → HashMeta → Nat → Res (HashMeta × Nat)}
    (hrec : ∀ c ∈ db.nodes, ∀ hm k hm' k', Gathered X db hm → rec c hm k = .ok (hm', k') → Gathered X db hm') :
    ∀ (cs : List NodeRow) (hm : HashMeta) (k : Nat) (hm' : HashMeta) (k' : Nat), (∀ c ∈ cs, c ∈ db.nodes) → Gathered X db hm → childLoopL X rec cs hm k = .ok (hm', k') → Gathered X db hm'
  | [], hm, k, hm', k', _, h, e => by
    simp only [childLoopL, Res.ok.injEq, Prod.mk.injEq] at e
    rw [← e.1]
    exact h
  | c :: cs, hm, k, hm', k', hc, h, e => by
    simp only [childLoopL, Res.bind_eq_ok] at e
    obtain ⟨⟨hm1, k1⟩, e1, e2⟩ := e
    refine childLoopL_gathered hrec cs hm1 k1 hm' k' (fun x hx => hc x (List.mem_cons_of_mem _ hx)) ?_ e2
    unfold childOneL at e1
    split at e1
    · exact hrec c (hc c List.mem_cons_self) _ _ _ _ h e1
    · simp only [Res.bind_eq_ok, Res.pure_eq, Res.ok.injEq, Prod.mk.injEq] at e1
      obtain ⟨m, e3, rfl, _⟩ := e1
      exact gathered_insert h e3 (.inl ⟨c, hc c List.mem_cons_self, rfl⟩)

theorem getChildTreesL_gathered {X : Ext} {V : Nat → SqlExt × Db} {db : Db} (hV : ∀ k, Extends (V k).2 db) : ∀ (fuel : Nat) (root : NodeRow), root ∈ db.nodes → ∀ hm k hm' k', Gathered X db hm →
    getChildTreesL X V fuel root hm k = .ok (hm', k') → Gathered X db hm'
  | 0, _, _, _, _, _, _, _, e => by simp [getChildTreesL] at e
  | fuel + 1, root, hroot, hm, k, hm', k', h, e => by
    simp only [getChildTreesL, Res.bind_eq_ok, Res.pure_eq, Res.ok.injEq] at e
    obtain ⟨m, e1, items, _, ⟨hm1, k1⟩, e3, e4⟩ := e
    simp only [Prod.mk.injEq] at e4
    obtain ⟨rfl, _⟩ := e4
    refine gathered_insert (childLoopL_gathered (fun c hc a b a' b' => getChildTreesL_gathered hV fuel c hc a b a' b') _ _ _ _ _ (fun c hc => ?_) h e3) e1 (.inl ⟨root, hroot, rfl⟩)
    unfold childRows at hc
    exact (hV k).nodes _ (List.mem_of_mem_filter (((V k).1.order_perm _).mem_iff.1 hc))

theorem fullLoopL_gathered {X : Ext} {V : Nat → SqlExt × Db} {db : Db} (hV : ∀ k, Extends (V k).2 db) {fuel : Nat} {trees : Hash → Option NodeRow} (htrees : ∀ h n, trees h = some n → n ∈ db.nodes) :
    ∀ (cs : List CommitObj) (hm : HashMeta) (k : Nat) (hm' : HashMeta) (k' : Nat), (∀ c ∈ cs, ∃ r ∈ db.commits, MetaData.new X .commit r.data = .ok c.base) → Gathered X db hm →
      fullLoopL X V fuel trees cs hm k = .ok (hm', k') → Gathered X db hm'
  | [], hm, k, hm', k', _, h, e => by
    simp only [fullLoopL, Res.ok.injEq, Prod.mk.injEq] at e
    rw [← e.1]
    exact h
  | c :: cs, hm, k, hm', k', hc, h, e => by
    simp only [fullLoopL] at e
    split at e
    · rename_i root hr
      simp only [Res.bind_eq_ok] at e
      obtain ⟨⟨hm1, k1⟩, e1, e2⟩ := e
      obtain ⟨r, r1, r2⟩ := hc c List.mem_cons_self
      exact fullLoopL_gathered hV htrees cs hm1 k1 hm' k' (fun x hx => hc x (List.mem_cons_of_mem _ hx))
        (getChildTreesL_gathered hV fuel root (htrees _ _ hr) _ _ _ _ (gathered_insert h r2 (.inr ⟨r, r1, rfl⟩)) e1) e2
    · cases e

theorem fullObjectsL_gathered {X : Ext} {V : Nat → SqlExt × Db} {db : Db} (hV : ∀ k, Extends (V k).2 db) {fuel : Nat} {path : Bytes} {hm : HashMeta} {k : Nat}
    (e : fullObjectsL X V fuel path = .ok (hm, k)) : Gathered X db hm := by
  simp only [fullObjectsL, Res.bind_eq_ok] at e
  obtain ⟨cs, e1, trees, e2, e3⟩ := e
  refine fullLoopL_gathered hV ?_ cs _ _ _ _ ?_ (gathered_nil X db) e3
  · intro h n hn
    unfold nodesByIds at e2
    simp only at e2
    split at e2
    · simp only [Res.ok.injEq] at e2
      rw [← e2] at hn
      have := List.mem_reverse.1 (List.mem_of_find?_eq_some hn)
      exact (hV 1).nodes _ (List.mem_of_mem_filter (((V 1).1.order_perm _).mem_iff.1 this))
    · cases e2
  · intro c hc
    obtain ⟨r, h1, h2⟩ := loadCommits_rows _ _ e1 c hc
    exact ⟨r, (hV 0).commits _ (List.mem_of_mem_filter (((V 0).1.order_perm _).mem_iff.1 h1)), h2⟩

theorem incLoopL_gathered {X : Ext} {V : Nat → SqlExt × Db} {db : Db} (hV : ∀ k, Extends (V k).2 db) {fuel : Nat} {want : List Bytes} :
    ∀ (rs : List CommitRow) (hm : HashMeta) (k : Nat) (hm' : HashMeta) (k' : Nat), Gathered X db hm → incLoopL X V fuel want rs hm k = .ok (hm', k') → Gathered X db hm'
  | [], hm, k, hm', k', h, e => by
    simp only [incLoopL, Res.ok.injEq, Prod.mk.injEq] at e
    rw [← e.1]
    exact h
  | r :: rs, hm, k, hm', k', h, e => by
    simp only [incLoopL, Res.bind_eq_ok] at e
    obtain ⟨m, _, e⟩ := e
    split at e
    · simp only [Res.bind_eq_ok] at e
      obtain ⟨c, _, e⟩ := e
      split at e
      · rename_i root hr
        simp only [Res.bind_eq_ok] at e
        obtain ⟨⟨hm1, k1⟩, e1, e2⟩ := e
        refine incLoopL_gathered hV rs hm1 k1 hm' k' (getChildTreesL_gathered hV fuel root ?_ _ _ _ _ h e1) e2
        unfold getNodeById at hr
        exact (hV k).nodes _ (List.mem_of_mem_filter (((V k).1.order_perm _).mem_iff.1 (List.mem_of_mem_head? hr)))
      · cases e
    · exact incLoopL_gathered hV rs hm k hm' k' h e

theorem fullPackL_plain {X : Ext} {V : Nat → SqlExt × Db} {db : Db} (hV : ∀ k, Extends (V k).2 db) {fuel : Nat} {path file : Bytes} (hs : Spec.Storable db)
    (e : getFullPackL X V fuel path = .ok file) : ∃ os, Spec.PlainPack X file os := by
  simp only [getFullPackL, Res.bind_eq_ok] at e
  obtain ⟨⟨hm, k⟩, e1, e2⟩ := e
  exact packOf_plain hs (fullObjectsL_gathered hV e1) e2

theorem incPackL_plain {X : Ext} {V : Nat → SqlExt × Db} {db : Db} (hV : ∀ k, Extends (V k).2 db) {fuel : Nat} {path file : Bytes} {w v : List Bytes} (hs : Spec.Storable db)
    (e : getIncPackL X V fuel path w v = .ok file) : ∃ os, Spec.PlainPack X file os := by
  simp only [getIncPackL, Res.bind_eq_ok] at e
  obtain ⟨⟨hm, k⟩, e1, e2⟩ := e
  exact packOf_plain hs (incLoopL_gathered hV _ _ _ _ _ (gathered_nil X db) e1) e2

/-- **C161** The same while any number of pushes and discoveries, to this and other paths, are worked on in any interleaving with the queries of the clone or fetch: what a client that asked for a
side-band reads in the reply is a pack by the format, or nothing if it has commits and did not ask for `multi_ack_detailed`. -/
theorem C161_overlapping (X : Ext) (fold : Bytes → Bytes) (R : Bytes → Prop) (W : Pack → RefCommand → Prop) (path : Bytes)
    (first last : Sys) (T : Spec.FetchMoments) (hT : Spec.FetchDuring X fold R W first T last) (hs : Spec.Storable last.db) (fuel : Nat)
    (ord : List Bytes → List Bytes) (hord : ∀ l x, x ∈ ord l ↔ x ∈ l) (cut : Bytes → List Bytes) (hcut : Spec.CutOk cut)
    (ls : List Spec.ReqLine) (hls : ∀ l ∈ ls, l.Ok) (t rest : Bytes) (ht : t.length ≤ 65000) (hband : Spec.AsksBand (Spec.askedFor ls)) (out : Bytes)
    (hout : httpUploadPackL X T.times fuel path ord cut (doneBody ls t rest) = .ok out) :
    (Spec.haveIds ls = [] ∧ ∃ file os, Spec.readClone out = some file ∧ Spec.PlainPack X file os) ∨
    (Spec.haveIds ls ≠ [] ∧ ∃ ids file, Spec.readFetch out = some (ids, file) ∧ (file = [] ∧ ¬ Spec.Asks ls (ascii "multi_ack_detailed") ∨ ∃ os, Spec.PlainPack X file os)) := by
  have hV : ∀ k, Extends (T.times.pack k).2 last.db := fun k => sysRun_extends (hT.at_pack.2.2 k)
  by_cases hh : Spec.haveIds ls = []
  · refine .inl ⟨hh, ?_⟩
    have e0 : httpUploadPackL X T.times fuel path ord cut (doneBody ls t rest) = httpUploadPack (T.times.store X T.times.wants fuel path) ord cut (doneBody ls t rest) := by
      obtain ⟨s, _, hv, _, e1, e2⟩ := httpUploadPackL_done X T.times fuel path ord cut ls hls t rest ht
      have hno : ord s.have_ = [] := by
        rw [List.eq_nil_iff_forall_not_mem]
        intro x hx
        have := (hv x).1 ((hord _ x).1 hx)
        rw [hh] at this
        cases this
      rw [e1, e2, hno]
      unfold fetchAnswer2 fetchAnswer
      rw [if_pos rfl, if_pos rfl]
    rw [e0] at hout
    rcases httpUploadPack_noHave (St := T.times.store X T.times.wants fuel path) hord hcut hls ht rest hh with ⟨file, out', e1, e2, e3⟩ | ⟨_, e1, e2⟩
    · rw [hout, Res.ok.injEq] at e2
      subst e2
      obtain ⟨os, ho⟩ := fullPackL_plain hV hs e1
      exact ⟨file, os, e3.1 hband, ho⟩
    · by_cases hspin : (T.times.store X T.times.wants fuel path).fullPack = .spin
      · rw [e2 hspin] at hout
        cases hout
      · rw [e1 hspin] at hout
        cases hout
  · refine .inr ⟨hh, ?_⟩
    obtain ⟨s, hw, hv, hc, e, _⟩ := httpUploadPackL_done X T.times fuel path ord cut ls hls t rest ht
    have hne : ord s.have_ ≠ [] := by
      intro e0
      apply hh
      rw [List.eq_nil_iff_forall_not_mem] at e0 ⊢
      exact fun x hx => e0 x ((hord _ x).2 ((hv x).2 hx))
    have hack : (ackLine hardCodedAck []).length ≤ 65531 := ackLine_fits _ _ (by decide) (by decide)
    have hb := (asksBand_iff _).1 hband
    rw [← requestCaps_asked, ← hc] at hb
    rw [hout] at e
    by_cases hcap : Capability.multiAckDetailed ∈ s.caps
    · obtain ⟨lw, lh⟩ := reqIds_length ls hls
      have hw' : ∀ x ∈ ord s.want, x.length = 40 := fun x hx => lw x ((hw x).1 ((hord _ x).1 hx))
      have hh' : ∀ x ∈ ord s.have_, x.length = 40 := fun x hx => lh x ((hv x).1 ((hord _ x).1 hx))
      generalize T.times.store X T.times.haves fuel path = SH at e
      have hstore : (T.times.store X T.times.wants fuel path).incPack = getIncPackL X T.times.pack fuel path := rfl
      generalize T.times.store X T.times.wants fuel path = SW at e hstore
      obtain ⟨a1, _⟩ := haveAcks_ids SH _ hh'
      obtain ⟨b1, _⟩ := wantAcks_ids SW (decide (Capability.noDone ∈ s.caps)) _ hw'
      have e' := e.symm
      simp only [fetchAnswer2, if_neg hne, if_pos hcap, Res.bind_eq_ok, Res.unwrap_eq_ok, Res.pure_eq, Res.ok.injEq] at e'
      obtain ⟨_, ⟨file, hf, rfl⟩, e'⟩ := e'
      obtain ⟨dm, _⟩ := C17_sideband s.caps hb file (cut file) (hcut file).1 (hcut file).2
      rw [hstore] at hf
      have eq : out = Spec.stream ((haveAcks SH (ord s.have_) ++ wantAcks SW (decide (Capability.noDone ∈ s.caps)) (ord s.want)).map .line) ++
          (Spec.frame (.line (ackLine hardCodedAck [])) ++ sendPack s.caps (cut file)) := by
        rw [← e', hardCoded_line, addPktLine_frame _ _ hack, foldl_addPktLine _ _ b1, foldl_addPktLine _ _ a1, List.nil_append, List.map_append, stream_append]
        simp
      rw [eq]
      refine ⟨_, file, readFetchFuel_stream ⟨hardCodedAck, by decide, rfl⟩ dm _ _ ?_ ?_, .inr (incPackL_plain hV hs hf)⟩
      · have := stream_length ((haveAcks SH (ord s.have_) ++ wantAcks SW (decide (Capability.noDone ∈ s.caps)) (ord s.want)).map .line)
        simp only [List.length_map, List.length_append] at this ⊢
        omega
      · intro l hl
        rcases List.mem_append.1 hl with hl | hl
        · exact haveAcks_goOn SH hh' l hl
        · exact wantAcks_goOn SW _ hw' l hl
    · rw [fetchAnswer2, if_neg hne, if_neg hcap, Res.pure_eq, Res.bind_ok, Res.ok.injEq] at e
      obtain ⟨dm, _⟩ := C17_sideband s.caps hb [] (cut []) (hcut []).1 (hcut []).2
      refine ⟨[], [], ?_, .inl ⟨rfl, fun hask => hcap (by rw [hc]; exact asks_multi hask)⟩⟩
      rw [e, hardCoded_line, addPktLine_frame _ _ hack, List.nil_append]
      have := readFetchFuel_stream ⟨hardCodedAck, by decide, rfl⟩ dm [] ((Spec.frame (.line (ackLine hardCodedAck [])) ++ sendPack s.caps (cut [])).length + 1) (Nat.succ_pos _) (fun _ h => nomatch h)
      rw [List.map_nil, Spec.stream, List.flatMap_nil, List.nil_append] at this
      exact this

/-- C161: the clone of `/app` while a push to `/other` goes on is answered with a pack by the format. -/
example : ∃ (first last : Sys) (T : Spec.FetchMoments) (fuel : Nat) (out file : Bytes) (os : List Spec.Obj), Spec.FetchDuring polyExt demoFold AppPaths OwnCommit first T last ∧
    (T.pack 1).2.tasks = [some [], some (refActs appCreate (ascii "/other"))] ∧
    httpUploadPackL polyExt T.times fuel (ascii "/app") id demoCut (doneBody cloneLines (ascii "\n") []) = .ok out ∧ Spec.readClone out = some file ∧ Spec.PlainPack polyExt file os := by
  obtain ⟨first, last, T, r, _, hT, _, h2, objs, hr, e⟩ := app_moments
  obtain ⟨out, _, _, c1, _⟩ := C108_clone_partial polyExt demoFold demoFold_hash AppPaths OwnCommit (ascii "/app") (appPaths_above _) first last T hT (app_unique objs) (app_fits objs)
    _ (Nat.le_refl _) (List.ne_nil_of_mem hr) id (fun _ _ => .rfl) demoCut demoCut_ok cloneLines (ascii "\n") [] cloneLines_ok
  rcases C161_overlapping polyExt demoFold AppPaths OwnCommit (ascii "/app") first last T hT (storable_of_fits (app_fits objs)) _ id (fun _ _ => .rfl) demoCut demoCut_ok cloneLines cloneLines_ok.ok
    (ascii "\n") [] (by decide) update_band out c1 with ⟨_, file, os, g1, g2⟩ | ⟨g, _⟩
  · exact ⟨first, last, T, _, out, file, os, hT, h2, c1, g1, g2⟩
  · exact absurd cloneLines_ok.none g

end Gust

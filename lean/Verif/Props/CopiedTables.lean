import Verif.Props.Copied
import Verif.Props.RefinedTables

/-! # C153 with the tables of the dump -/

namespace Gust

/-- What has been published fits the columns. -/
theorem publishedFit_room {P : ServerExt} {u : Bytes} {h : BothHist} {ps : List (List (Nat × Spec.Obj))} {rs : List (Bytes × Bytes)} (hp : Spec.PublishedFit P u h ps rs) :
    ∀ os ∈ ps, Spec.Roomy (Spec.found P.X os) ∧ ∀ x, Spec.found P.X os x.id = some x → x.t = .commit → x.data.length ≤ 65535 := by
  induction hp with
  | nothing => exact fun _ h => nomatch h
  | others _ _ _ _ _ _ ih => exact ih
  | push _ _ _ _ _ _ _ _ _ os _ hpub _ ih =>
    intro x hx
    rcases List.mem_cons.1 hx with rfl | hx
    · refine ⟨hpub.room, fun y hy ht => ?_⟩
      obtain ⟨q, hq, e, _⟩ := (found_iff hpub.packed.ids _ _).1 hy
      rw [← e] at ht ⊢
      exact hpub.commits q hq ht
    · exact ih x hx
  | fails _ _ _ _ _ _ _ _ _ _ _ _ ih => exact ih
  | stale _ _ _ _ _ _ _ _ os _ hpub _ ih =>
    intro x hx
    rcases List.mem_cons.1 hx with rfl | hx
    · refine ⟨hpub.room, fun y hy ht => ?_⟩
      obtain ⟨q, hq, e, _⟩ := (found_iff hpub.packed.ids _ _).1 hy
      rw [← e] at ht ⊢
      exact hpub.commits q hq ht
    · exact ih x hx

/-- **C153 (partial)** With the tables of the dump, repositories can be copied: a client clones a repository to which projects that fit the columns have been published, over HTTP or SSH, and pushes the objects it
got, packed in whatever way, to a path of at most 64 characters to which nothing has been pushed so far, of the same server or of another one, creating a branch with a name of at most 31. No object of the copy is
too big for the tables: the push is answered with `ok`; and whatever anybody does after that, except pushing to the copy, every clone of the copy has exactly the objects of the first clone. (Missing from the full
claim: as for `C152_tables_exact_partial`.) -/
theorem C153_tables_partial (P : ServerExt) (hfold : ∀ a b : Hash, P.D.fold (Hash.toPlainStr a) = P.D.fold (Hash.toPlainStr b) → a = b)
    (u : Bytes) (h : BothHist) (ps : List (List (Nat × Spec.Obj))) (rs : List (Bytes × Bytes)) (hp : Spec.PublishedFit P u h ps rs)
    (hf : Spec.SameFoldAny P.D.fold h) (hab : Spec.NoneAboveAny P.D.fold u h) (hu : UniqueIds P.X (runBoth P .empty h).web.db) (hfit : FitsPack P.X (runBoth P .empty h).web.db)
    (m : Moment) (hm : m.sql.fold = P.D.fold) (hord : ∀ l x, x ∈ m.ord l ↔ x ∈ l) (hcut : Spec.CutOk m.cut)
    (ls : List Spec.ReqLine) (t rest out : Bytes) (hr : Spec.CloneReq ls t) (hfe : Spec.FetchedAny P u (doneBody ls t rest) out m h) :
    ∃ file ms, Spec.readClone out = some file ∧ PackHas P.X file ms ∧ (∀ x, x ∈ ms ↔ ∃ os ∈ ps, Spec.Given P.X os x) ∧
      ∀ (u' : Bytes) (k k' k2 : BothHist) (m' : Moment) (c : Spec.PushCmd) (caps pack : Bytes) (os : List (Nat × Spec.Obj)),
        (∀ x, x ∈ ms ↔ ∃ q ∈ os, metaOf P.X q.2 = x) → Spec.NoPack P u' .empty k → c.Ok → c.old = zeroId → c.new ≠ zeroId → caps.length ≤ 4000 → (∀ x ∈ caps, x.toNat < 128) →
        Spec.SchemaOnly m'.sql → c.name.length ≤ 31 → chars u' ≤ 64 →
        Spec.PackOf P.X P.D.fold (runBoth P .empty k).web.db pack os → os.length < m'.fuel → Spec.SentAny P u' c caps pack m' k k' →
        Spec.NoPack P u' (runBoth P .empty k') k2 → Spec.SameFoldAny P.D.fold (k' ++ k2) → Spec.NoneAboveAny P.D.fold u' (k' ++ k2) →
        UniqueIds P.X (runBoth P .empty (k' ++ k2)).web.db → FitsPack P.X (runBoth P .empty (k' ++ k2)).web.db →
        (∃ rep, Spec.PushedAny P u' c caps pack rep m' k k' ∧
          Spec.reportLines (decide (.sideBand ∈ parseCapabilities caps ∨ .sideBand64k ∈ parseCapabilities caps)) rep =
            some [ascii "unpack ok\n", Spec.statusLine (c.name ++ [0]) none]) ∧
        ∀ (m2 : Moment) (ls' : List Spec.ReqLine) (t' rest' : Bytes), m2.sql.fold = P.D.fold → (runBoth P .empty (k' ++ k2)).web.db.nodes.length ≤ m2.fuel →
          (∀ l x, x ∈ m2.ord l ↔ x ∈ l) → Spec.CutOk m2.cut → Spec.CloneReq ls' t' →
          ∃ out' file' ms', (∀ g, Spec.CleanUrl u' → (g = [] ∨ g = ascii ".git") →
              (serve P m2 (runBoth P .empty (k' ++ k2)).web (Spec.fetchReq (u' ++ g) (doneBody ls' t' rest'))).1 = .reply (.ok (.bytes out'))) ∧
            (∀ i ch, Spec.Opened P u' i (k' ++ k2) → (sshStep P.X m2 (runBoth P .empty (k' ++ k2)).ssh i (.data ch (doneBody ls' t' rest'))).1 = [(ch, out')]) ∧
            Spec.readClone out' = some file' ∧ PackHas P.X file' ms' ∧ ms.Perm ms' := by
  obtain ⟨h0, s0, e0, hp0⟩ := publishedFit_same hfold hp hf hab hu
  have hfe0 := s0.fetched e0 hfe
  obtain ⟨file, ms, f1, f2, f3, key⟩ := C153_copied_partial P hfold u h0 ps rs hp0 (s0.sameFold hf) (s0.noneAbove hab) (by rw [e0]; exact hu) (by rw [e0]; exact hfit) m hm hord hcut ls t rest out hr hfe0
  refine ⟨file, ms, f1, f2, f3, ?_⟩
  intro u' k k' k2 m' c caps pack os hos hno hc hcreate hnew hcaps hascii hE hname hpath hpack hfuel hsent hno2 hf2 hab2 hu2 hfit2
  obtain ⟨v, rfl⟩ := sentAny_ends hsent
  have hfound : ∀ x, Spec.found P.X os x.id = some x ↔ ∃ os ∈ ps, Spec.Given P.X os x := fun x => by
    rw [found_iff hpack.ids, ← f3, hos]
    simp
  have hproj : Spec.Project P.X os := union_project (published_projects hp0) hfound
  have room := publishedFit_room hp
  have hroom : Spec.Roomy (Spec.found P.X os) := by
    refine ⟨fun o ho ht => ?_, fun o ho ht => ?_, fun o items i ho ht hd hi => ?_⟩
    · obtain ⟨q, h1, h2⟩ := (hfound o).1 ho
      exact (room q h1).1.size o h2.1 ht
    · obtain ⟨q, h1, h2⟩ := (hfound o).1 ho
      exact (room q h1).1.dir o h2.1 ht
    · obtain ⟨q, h1, h2⟩ := (hfound o).1 ho
      exact (room q h1).1.entry o items i h2.1 ht hd hi
  have hsmall : ∀ p ∈ os, p.2.1 = .commit → p.2.2.length ≤ 65535 := by
    intro p hp' ht
    have : Spec.found P.X os (metaOf P.X p.2).id = some (metaOf P.X p.2) := (found_iff hpack.ids _ _).2 ⟨p, hp', rfl, rfl⟩
    obtain ⟨q, h1, h2⟩ := (hfound _).1 this
    exact (room q h1).2 _ h2.1 ht
  have ext : Extends (runBoth P .empty k).web.db (runBoth P .empty (k ++ [(m', v)] ++ k2)).web.db := by
    rw [List.append_assoc, runBoth_append]
    exact runBoth_extends P _ _
  obtain ⟨acc, same⟩ := publishesFit_same hfold ⟨hc, hcaps, hascii, hE, hroom, hsmall, hname, hpath, hpack, hproj, hfuel, hsent⟩ (ext.unique hu2) (hf2 (m', v) (by simp)) (.inl hcreate)
  have s1 : SameVisits (k ++ [(m', v)] ++ k2) (k ++ [(m'.unlimited, v)] ++ k2) := ((show SameVisits k k from rfl).append (show SameVisits [(m', v)] [(m'.unlimited, v)] from rfl)).append rfl
  have e1 : runBoth P .empty (k ++ [(m'.unlimited, v)] ++ k2) = runBoth P .empty (k ++ [(m', v)] ++ k2) := by rw [runBoth_append, same, ← runBoth_append]
  have s : SameVisits k k := rfl
  obtain ⟨_, clone⟩ := key u' k (k ++ [(m'.unlimited, v)]) k2 m'.unlimited c caps pack os hos hno hc hcreate hnew hcaps hascii (unlimited_accepts _) hpack hfuel (s.sent rfl hsent _) (by rw [same]; exact hno2)
    (s1.sameFold hf2) (s1.noneAbove hab2) (by rw [e1]; exact hu2) (by rw [e1]; exact hfit2)
  refine ⟨acc, ?_⟩
  intro m2 ls' t' rest' hm2 hfuel2 hord2 hcut2 hr2
  have final := clone m2 ls' t' rest' hm2 (by rw [e1]; exact hfuel2) hord2 hcut2 hr2
  rw [e1] at final
  obtain ⟨out', file', ms', o1, o2, o3⟩ := final
  exact ⟨out', file', ms', o1, fun i ch ho => o2 i ch (s1.opened e1 ho), o3⟩

theorem app_all_given : ∀ m ∈ appObjects, Spec.Given polyExt appEntries m := by
  have find : ∀ m ∈ appObjects, Spec.found polyExt appEntries m.id = some m := fun m hm => (app_found _ _).2 ⟨hm, rfl⟩
  have r1 : Spec.PackReach (Spec.found polyExt appEntries) appCommit.treeId :=
    .commit (metaOf polyExt (.commit, appCommit.encode)) appCommit (find _ (by simp [appObjects, appThin])) rfl appCommit_decode
  have at1 : ∀ i ∈ appItems, Spec.PackReach (Spec.found polyExt appEntries) i.id := fun i hi =>
    .item (metaOf polyExt (.tree, encodeTree appItems)) appItems i r1 (find _ (by simp [appObjects, appThin])) rfl appItems_decode hi
  have r2 : Spec.PackReach (Spec.found polyExt appEntries) (metaOf polyExt (.tree, encodeTree srcA)).id := at1 _ (.tail _ (.head _))
  have at2 : ∀ i ∈ srcA, Spec.PackReach (Spec.found polyExt appEntries) i.id := fun i hi =>
    .item (metaOf polyExt (.tree, encodeTree srcA)) srcA i r2 (find _ (by simp [appObjects, appThin])) rfl srcA_decode hi
  intro m hm
  refine ⟨find m hm, ?_⟩
  have : m = metaOf polyExt (.commit, appCommit.encode) ∨ m = metaOf polyExt (.tree, encodeTree appItems) ∨
      m = metaOf polyExt (.tree, encodeTree srcA) ∨ m = libBlob ∨ m = appBlob := by
    simpa [appObjects, appThin, libBlob, or_assoc] using hm
  rcases this with rfl | rfl | rfl | rfl | rfl
  · exact .inl rfl
  · exact .inr r1
  · exact .inr r2
  · exact .inr (at1 _ (.head _))
  · exact .inr (at2 _ (.head _))

/-- C153 with the tables of the dump: the five objects have been published to `/app`; they are cloned over HTTP and pushed over SSH to another server that is empty so far, where clones have them then. -/
example : ∃ (pack pack' : Bytes) (m m2 : Moment) (out rep out' file file' : Bytes) (ms ms' : List MetaData),
    (serve demoServer m (runBoth demoServer .empty (bothBefore ++ [(dumpMoment, .ssh 0 (.data 0 pack))])).web (Spec.fetchReq (ascii "/app" ++ []) (doneBody cloneLines (ascii "\n") []))).1 =
      .reply (.ok (.bytes out)) ∧
    Spec.readClone out = some file ∧ PackHas polyExt file ms ∧ (∀ x, x ∈ ms ↔ x ∈ appObjects) ∧
    Spec.PushedAny demoServer (ascii "/app") appCmd (ascii "report-status") pack' rep dumpMoment bothBefore (bothBefore ++ [(dumpMoment, .ssh 0 (.data 0 pack'))]) ∧
    (serve demoServer m2 (runBoth demoServer .empty (bothBefore ++ [(dumpMoment, .ssh 0 (.data 0 pack'))])).web (Spec.fetchReq (ascii "/app" ++ []) (doneBody cloneLines (ascii "\n") []))).1 =
      .reply (.ok (.bytes out')) ∧
    Spec.readClone out' = some file' ∧ PackHas polyExt file' ms' ∧ ms.Perm ms' := by
  obtain ⟨pack, hpack⟩ := app_packOf demoServer.D.fold (runBoth demoServer .empty bothBefore).web.db
  have before : Spec.PublishedFit demoServer (ascii "/app") bothBefore [] [] := .others [] bothBefore [] [] .nothing bothBefore_noPack
  have after := Spec.PublishedFit.push bothBefore _ [] [] _ dumpMoment appCmd (ascii "report-status") pack appEntries before (dump_publishes hpack) dump_moved
  have names : ∀ x ∈ bothBefore ++ [(dumpMoment, Visit.ssh 0 (.data 0 pack))], x.1.sql.fold = demoFold ∧ ∀ a, x.2.repo = some a → a = ascii "/app" := by
    intro x hx
    rcases List.mem_append.1 hx with hx | hx
    · exact bothBefore_names x hx
    · cases List.mem_singleton.1 hx
      exact ⟨rfl, fun _ e => nomatch e⟩
  have hf : Spec.SameFoldAny demoServer.D.fold (bothBefore ++ [(dumpMoment, Visit.ssh 0 (.data 0 pack))]) := fun x hx => (names x hx).1
  have hab : Spec.NoneAboveAny demoServer.D.fold (ascii "/app") (bothBefore ++ [(dumpMoment, Visit.ssh 0 (.data 0 pack))]) :=
    fun a ha b hb x y hx hy _ _ => by rw [(names a ha).2 x hx, (names b hb).2 y hy]
  obtain ⟨rep, r1, _⟩ := C152_tables_accepted_partial demoServer demoFold_hash (ascii "/app") bothBefore _ _ _ _ before hf hab bothBefore_unique dumpMoment appCmd (ascii "report-status") pack appEntries
    (dump_publishes hpack) dump_moved
  have objs := dump_objs hpack r1
  obtain ⟨m2, hm2⟩ : ∃ m2 : Moment, m2 = { demoMoment with fuel := (runBoth demoServer .empty (bothBefore ++ [(dumpMoment, .ssh 0 (.data 0 pack))])).web.db.nodes.length } := ⟨_, rfl⟩
  obtain ⟨out, _, _, k1, _⟩ := C152_tables_exact_partial demoServer demoFold_hash (ascii "/app") _ _ _ after hf hab (app_unique objs) (app_fits objs)
    ⟨appEntries, by simp, _, app_all_given _ (.head _)⟩ m2
    (by rw [hm2]; rfl) (by rw [hm2]) (by rw [hm2]; exact fun _ _ => .rfl) (by rw [hm2]; exact demoCut_ok) cloneLines (ascii "\n") [] cloneLines_ok
  have q1 := k1 [] app_clean_url (.inl rfl)
  obtain ⟨file, ms, f1, f2, f3, key⟩ := C153_tables_partial demoServer demoFold_hash (ascii "/app") _ _ _ after hf hab (app_unique objs) (app_fits objs) m2 (by rw [hm2]; rfl)
    (by rw [hm2]; exact fun _ _ => .rfl) (by rw [hm2]; exact demoCut_ok) cloneLines (ascii "\n") [] out cloneLines_ok (.http [] app_clean_url (.inl rfl) q1)
  have hall : ∀ x, x ∈ ms ↔ x ∈ appObjects := by
    intro x
    rw [f3]
    simp only [List.mem_singleton, exists_eq_left]
    exact ⟨fun h => ((app_found _ _).1 h.1).1, app_all_given x⟩
  have hms : ∀ x, x ∈ ms ↔ ∃ q ∈ appEntries, metaOf polyExt q.2 = x := by
    intro x
    have := app_found x.id x
    rw [found_iff appEntries_ids] at this
    rw [hall]
    simpa using this.symm
  have nil : bothBefore ++ [(dumpMoment, Visit.ssh 0 (.data 0 pack))] ++ [] = bothBefore ++ [(dumpMoment, Visit.ssh 0 (.data 0 pack))] := List.append_nil _
  have copy := key (ascii "/app") bothBefore _ [] dumpMoment appCmd (ascii "report-status") pack appEntries hms bothBefore_noPack appCmd_ok rfl (by decide +kernel) (by decide) (by decide) dumpSql_schema
    (by decide) (by decide) hpack (dump_publishes hpack).fuel (bothBefore_sent _ _) trivial
  rw [nil] at copy
  obtain ⟨⟨rep', c1, _⟩, c2⟩ := copy hf hab (app_unique objs) (app_fits objs)
  obtain ⟨out', file', ms', o1, _, o3, o4, o5⟩ := c2 m2 cloneLines (ascii "\n") [] (by rw [hm2]; rfl) (by rw [hm2]) (by rw [hm2]; exact fun _ _ => .rfl) (by rw [hm2]; exact demoCut_ok) cloneLines_ok
  exact ⟨pack, pack, m2, m2, out, rep', out', file, file', ms, ms', q1, f1, f2, hall, c1, o1 [] app_clean_url (.inl rfl), o3, o4, o5⟩

end Gust

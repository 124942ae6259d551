import Verif.Props.CommonStays

/-! # C161: every pack that is sent is one by the format of git -/

namespace Gust

/-- A pack file as git documents the format, in its plainest form: signature, version and number of entries; the entries, each a whole object (no deltas); and at the end the SHA-1 of all that. It has at
least one object and none twice. -/
structure Spec.PlainPack (X : Ext) (file : Bytes) (os : List Spec.Obj) : Prop where
  nonempty : os ≠ []
  format : ∃ body es, file = body ++ (X.sha1 body).1 ∧ Spec.PackFile X.inflate file es (X.sha1 body) ∧
    List.Forall₂ (fun (e : Nat × Spec.Entry) (o : Spec.Obj) => ∃ k, e.2 = .whole k o.2 ∧ Spec.kindOf k = some o.1) es os
  distinct : (os.map (idOf X)).Nodup

/-! ## What is collected for a pack -/

/-- Whatever is stored, each object collected stands under its own id and is made from the content of a row. -/
def Gathered (X : Ext) (db : Db) (hm : HashMeta) : Prop :=
  (hm.map Prod.fst).Nodup ∧ ∀ p ∈ hm, p.1 = Hash.toPlainStr p.2.id ∧ MetaData.new X p.2.t p.2.data = .ok p.2 ∧
    ((∃ n ∈ db.nodes, n.data = p.2.data) ∨ ∃ c ∈ db.commits, c.data = p.2.data)

theorem gathered_nil (X : Ext) (db : Db) : Gathered X db [] := ⟨List.nodup_nil, fun _ h => nomatch h⟩

theorem gathered_insert {X : Ext} {db : Db} {hm : HashMeta} (h : Gathered X db hm) {t : ObjectType} {data : Bytes} {m : MetaData} (hn : MetaData.new X t data = .ok m)
    (hd : (∃ n ∈ db.nodes, n.data = data) ∨ ∃ c ∈ db.commits, c.data = data) : Gathered X db (entryInsert hm (Hash.toPlainStr m.id) m) := by
  refine ⟨?_, fun p hp => ?_⟩
  · rw [entryInsert_keys]
    split
    · exact h.1
    · rename_i hk
      rw [List.nodup_append]
      exact ⟨h.1, List.nodup_singleton _, fun a ha b hb e => hk (by rw [List.mem_singleton] at hb; rw [← hb, ← e]; exact ha)⟩
  · rcases (mem_entryInsert _ _ _ _).1 hp with rfl | ⟨hp, _⟩
    · obtain ⟨_, ht, hdat, _⟩ := new_ok hn
      refine ⟨rfl, ?_, ?_⟩
      · show MetaData.new X m.t m.data = .ok m
        rw [ht, hdat]
        exact hn
      · show (∃ n ∈ db.nodes, n.data = m.data) ∨ ∃ c ∈ db.commits, c.data = m.data
        rw [hdat]
        exact hd
    · exact h.2 p hp

theorem childLoop_gathered {X : Ext} {db : Db} {rec : NodeRow → HashMeta → Res HashMeta}
    (hrec : ∀ c ∈ db.nodes, ∀ hm hm', Gathered X db hm → rec c hm = .ok hm' → Gathered X db hm') :
    ∀ (cs : List NodeRow) (hm hm' : HashMeta), (∀ c ∈ cs, c ∈ db.nodes) → Gathered X db hm → childLoop X rec cs hm = .ok hm' → Gathered X db hm'
  | [], hm, hm', _, h, e => by
    simp only [childLoop, Res.ok.injEq] at e
    rw [← e]
    exact h
  | c :: cs, hm, hm', hc, h, e => by
    simp only [childLoop, Res.bind_eq_ok] at e
    obtain ⟨hm1, e1, e2⟩ := e
    refine childLoop_gathered hrec cs hm1 hm' (fun x hx => hc x (List.mem_cons_of_mem _ hx)) ?_ e2
    unfold childOne at e1
    split at e1
    · exact hrec c (hc c List.mem_cons_self) _ _ h e1
    · simp only [Res.bind_eq_ok, Res.pure_eq, Res.ok.injEq] at e1
      obtain ⟨m, e3, rfl⟩ := e1
      exact gathered_insert h e3 (.inl ⟨c, hc c List.mem_cons_self, rfl⟩)

theorem getChildTrees_gathered {X : Ext} {E : SqlExt} {db : Db} : ∀ (fuel : Nat) (root : NodeRow), root ∈ db.nodes → ∀ hm hm', Gathered X db hm →
    getChildTrees X E db fuel root hm = .ok hm' → Gathered X db hm'
  | 0, _, _, _, _, _, e => by simp [getChildTrees] at e
  | fuel + 1, root, hroot, hm, hm', h, e => by
    simp only [getChildTrees, Res.bind_eq_ok, Res.pure_eq, Res.ok.injEq] at e
    obtain ⟨m, e1, items, _, hm1, e3, rfl⟩ := e
    refine gathered_insert (childLoop_gathered (fun c hc a b => getChildTrees_gathered fuel c hc a b) _ _ _ (fun c hc => ?_) h e3) e1 (.inl ⟨root, hroot, rfl⟩)
    unfold childRows at hc
    exact List.mem_of_mem_filter ((E.order_perm _).mem_iff.1 hc)

theorem loadCommits_rows {X : Ext} : ∀ (rs : List CommitRow) (cs : List CommitObj), loadCommits X rs = .ok cs →
    ∀ c ∈ cs, ∃ r ∈ rs, MetaData.new X .commit r.data = .ok c.base
  | [], cs, e => by
    simp only [loadCommits, Res.ok.injEq] at e
    rw [← e]
    exact fun _ h => nomatch h
  | r :: rs, cs, e => by
    simp only [loadCommits, Res.bind_eq_ok, Res.pure_eq, Res.ok.injEq] at e
    obtain ⟨m, e1, c, _, cs', e3, rfl⟩ := e
    intro x hx
    rcases List.mem_cons.1 hx with rfl | hx
    · exact ⟨r, List.mem_cons_self, e1⟩
    · obtain ⟨r', h1, h2⟩ := loadCommits_rows rs cs' e3 x hx
      exact ⟨r', List.mem_cons_of_mem _ h1, h2⟩

theorem fullLoop_gathered {X : Ext} {E : SqlExt} {db : Db} {fuel : Nat} {trees : Hash → Option NodeRow} (htrees : ∀ h n, trees h = some n → n ∈ db.nodes) :
    ∀ (cs : List CommitObj) (hm hm' : HashMeta), (∀ c ∈ cs, ∃ r ∈ db.commits, MetaData.new X .commit r.data = .ok c.base) → Gathered X db hm →
      fullLoop X E db fuel trees cs hm = .ok hm' → Gathered X db hm'
  | [], hm, hm', _, h, e => by
    simp only [fullLoop, Res.ok.injEq] at e
    rw [← e]
    exact h
  | c :: cs, hm, hm', hc, h, e => by
    simp only [fullLoop] at e
    split at e
    · rename_i root hr
      simp only [Res.bind_eq_ok] at e
      obtain ⟨hm1, e1, e2⟩ := e
      obtain ⟨r, r1, r2⟩ := hc c List.mem_cons_self
      exact fullLoop_gathered htrees cs hm1 hm' (fun x hx => hc x (List.mem_cons_of_mem _ hx))
        (getChildTrees_gathered fuel root (htrees _ _ hr) _ _ (gathered_insert h r2 (.inr ⟨r, r1, rfl⟩)) e1) e2
    · cases e

theorem fullObjects_gathered {X : Ext} {E : SqlExt} {db : Db} {fuel : Nat} {path : Bytes} {hm : HashMeta} (e : fullObjects X E fuel db path = .ok hm) : Gathered X db hm := by
  simp only [fullObjects, Res.bind_eq_ok] at e
  obtain ⟨cs, e1, trees, e2, e3⟩ := e
  refine fullLoop_gathered ?_ cs _ _ ?_ (gathered_nil X db) e3
  · intro h n hn
    unfold nodesByIds at e2
    simp only at e2
    split at e2
    · simp only [Res.ok.injEq] at e2
      rw [← e2] at hn
      have := List.mem_reverse.1 (List.mem_of_find?_eq_some hn)
      exact List.mem_of_mem_filter ((E.order_perm _).mem_iff.1 this)
    · cases e2
  · intro c hc
    obtain ⟨r, h1, h2⟩ := loadCommits_rows _ _ e1 c hc
    exact ⟨r, List.mem_of_mem_filter ((E.order_perm _).mem_iff.1 h1), h2⟩

theorem incLoop_gathered {X : Ext} {E : SqlExt} {db : Db} {fuel : Nat} {want : List Bytes} : ∀ (rs : List CommitRow) (hm hm' : HashMeta), Gathered X db hm →
    incLoop X E db fuel want rs hm = .ok hm' → Gathered X db hm'
  | [], hm, hm', h, e => by
    simp only [incLoop, Res.ok.injEq] at e
    rw [← e]
    exact h
  | r :: rs, hm, hm', h, e => by
    simp only [incLoop, Res.bind_eq_ok] at e
    obtain ⟨m, _, e⟩ := e
    split at e
    · simp only [Res.bind_eq_ok] at e
      obtain ⟨c, _, e⟩ := e
      split at e
      · rename_i root hr
        simp only [Res.bind_eq_ok] at e
        obtain ⟨hm1, e1, e2⟩ := e
        refine incLoop_gathered rs hm1 hm' (getChildTrees_gathered fuel root ?_ _ _ h e1) e2
        unfold getNodeById at hr
        exact List.mem_of_mem_filter ((E.order_perm _).mem_iff.1 (List.mem_of_mem_head? hr))
      · cases e
    · exact incLoop_gathered rs hm hm' h e

/-! ## The pack -/

theorem entriesAt_objects {X : Ext} : ∀ (ms : List MetaData) (off : Nat), (∀ m ∈ ms, m.t.isBase = true) →
    List.Forall₂ (fun (e : Nat × Spec.Entry) (o : Spec.Obj) => ∃ k, e.2 = .whole k o.2 ∧ Spec.kindOf k = some o.1) (entriesAt X off ms) (ms.map (fun m => (m.t, m.data)))
  | [], _, _ => .nil
  | m :: ms, off, h => .cons ⟨_, rfl, kindOf_number (h m List.mem_cons_self)⟩ (entriesAt_objects ms _ (fun x hx => h x (List.mem_cons_of_mem _ hx)))

theorem packOf_plain {X : Ext} {E : SqlExt} {db : Db} (hsize : (∀ n ∈ db.nodes, n.data.length < 2 ^ 61) ∧ ∀ c ∈ db.commits, c.data.length < 2 ^ 61) {hm : HashMeta}
    (h : Gathered X db hm) {file : Bytes} (e : packOf X E hm = .ok file) : ∃ os, Spec.PlainPack X file os := by
  have hperm : (E.order (hm.map Prod.snd)).Perm (hm.map Prod.snd) := E.order_perm _
  have hmem : ∀ m ∈ E.order (hm.map Prod.snd), ∃ p ∈ hm, p.2 = m := fun m hx => List.mem_map.1 (hperm.mem_iff.1 hx)
  have hids : ((E.order (hm.map Prod.snd)).map (fun m => Hash.toPlainStr m.id)).Nodup := by
    rw [(hperm.map _).nodup_iff, List.map_map]
    have : hm.map ((fun m : MetaData => Hash.toPlainStr m.id) ∘ Prod.snd) = hm.map Prod.fst := List.map_congr_left (fun p hp => ((h.2 p hp).1).symm)
    rw [this]
    exact h.1
  have hobj : ∀ m ∈ E.order (hm.map Prod.snd), MetaData.new X m.t m.data = .ok m := fun m hx => by
    obtain ⟨p, hp, rfl⟩ := hmem m hx
    exact (h.2 p hp).2.1
  have hlen : ∀ m ∈ E.order (hm.map Prod.snd), m.data.length < 2 ^ 61 := fun m hx => by
    obtain ⟨p, hp, rfl⟩ := hmem m hx
    rcases (h.2 p hp).2.2 with ⟨n, n1, n2⟩ | ⟨n, n1, n2⟩
    · rw [← n2]; exact hsize.1 n n1
    · rw [← n2]; exact hsize.2 n n1
  unfold packOf at e
  generalize E.order (hm.map Prod.snd) = ms at e hids hobj hlen
  simp only [Res.bind_eq_ok, Res.pure_eq, Res.ok.injEq, encodePack, signPack] at e
  obtain ⟨⟨a, f⟩, ⟨hd, e1, e2⟩, e3⟩ := e
  simp only [Prod.mk.injEq] at e2 e3
  have hcount : 1 ≤ ms.length ∧ ms.length < 2 ^ 32 := by
    by_contra hc
    rw [(C29_header_roundtrip ms.length).2 (by omega)] at e1
    cases e1
  have h0 : ms ≠ [] := fun e0 => by rw [e0] at hcount; exact absurd hcount.1 (by decide)
  obtain ⟨hd', g1, _, g3⟩ := packFile_written hobj hlen h0 hcount.2 (X.sha1 (hd ++ encodeEntries X ms))
  rw [e1, Res.ok.injEq] at g1
  subst g1
  refine ⟨ms.map (fun m => (m.t, m.data)), fun e0 => h0 (List.map_eq_nil_iff.1 e0), ⟨hd ++ encodeEntries X ms, entriesAt X 12 ms, ?_, ?_, ?_⟩, ?_⟩
  · rw [← e3, ← e2.2]
  · rw [← e3, ← e2.2]; exact g3
  · exact entriesAt_objects ms 12 (fun m hx => (metaOf_of_new (hobj m hx)).1)
  · rw [List.map_map]
    have e5 : ms.map (idOf X ∘ fun m => (m.t, m.data)) = ms.map (fun m => m.id) := List.map_congr_left (fun m hx => congrArg MetaData.id (metaOf_of_new (hobj m hx)).2)
    rw [e5]
    refine List.Nodup.of_map Hash.toPlainStr ?_
    rw [List.map_map]
    exact hids

/-! ## The format leaves no choice -/

theorem entryCode_unique {inflate : Bytes → Option (Bytes × Bytes)} {s : Bytes} {k k' : Nat} {d d' : Bytes} {r r' : Bytes} (h : Spec.EntryCode inflate s (.whole k d) r)
    (h' : Spec.EntryCode inflate s (.whole k' d') r') : k = k' ∧ d = d' ∧ r = r' := by
  cases h with
  | whole _ q _ _ h1 _ _ h2 =>
    cases h' with
    | whole _ q' _ _ g1 _ _ g2 =>
      obtain ⟨v, e1, _, _, e2, _⟩ := h1
      obtain ⟨v', f1, _, _, f2, _⟩ := g1
      rw [e1] at f1
      simp only [Option.some.injEq, Prod.mk.injEq] at f1
      rw [f1.2, g2] at h2
      simp only [Option.some.injEq, Prod.mk.injEq] at h2
      exact ⟨by rw [← e2, ← f2, f1.1], h2.1.symm, h2.2.symm⟩

theorem entries_unique {inflate : Bytes → Option (Bytes × Bytes)} : ∀ {es es' : List (Nat × Spec.Entry)} {os os' : List Spec.Obj} {off : Nat} {s r r' : Bytes},
    Spec.Entries inflate off s es r → Spec.Entries inflate off s es' r' → es.length = es'.length →
    List.Forall₂ (fun (e : Nat × Spec.Entry) (o : Spec.Obj) => ∃ k, e.2 = .whole k o.2 ∧ Spec.kindOf k = some o.1) es os →
    List.Forall₂ (fun (e : Nat × Spec.Entry) (o : Spec.Obj) => ∃ k, e.2 = .whole k o.2 ∧ Spec.kindOf k = some o.1) es' os' → os = os'
  | [], [], _, _, _, _, _, _, _, _, _, .nil, .nil => rfl
  | _ :: _, _ :: _, _, _, _, _, _, _, .cons _ _ _ _ _ _ c1 c2, .cons _ _ _ _ _ _ d1 d2, hl, .cons ⟨k, q1, q2⟩ q, .cons ⟨k', p1, p2⟩ p => by
    simp only at q1 p1
    subst q1 p1
    obtain ⟨rfl, h2, rfl⟩ := entryCode_unique c1 d1
    rw [q2, Option.some.injEq] at p2
    rw [entries_unique c2 d2 (by simpa using hl) q p, Prod.ext p2 h2]

theorem be32_inj {a b : Nat} (ha : a < 2 ^ 32) (hb : b < 2 ^ 32) (h : Spec.be32 a = Spec.be32 b) : a = b := by
  simp only [Spec.be32, List.cons.injEq, and_true] at h
  omega

/-- **C161** A file is the pack of one list of objects only. -/
theorem C161_one_reading {X : Ext} {file : Bytes} {os os' : List Spec.Obj} (h : Spec.PlainPack X file os) (h' : Spec.PlainPack X file os') : os = os' := by
  obtain ⟨b, es, _, ⟨hd, s, e1, ⟨n1, n2⟩, e3⟩, e4⟩ := h.format
  obtain ⟨b', es', _, ⟨hd', s', f1, ⟨k1, k2⟩, f3⟩, f4⟩ := h'.format
  have l1 : hd.length = 12 := by
    have := congrArg List.length n2
    simpa [Spec.be32] using this
  have l2 : hd'.length = 12 := by
    have := congrArg List.length k2
    simpa [Spec.be32] using this
  obtain ⟨rfl, rfl⟩ := List.append_inj (e1.symm.trans f1) (l1.trans l2.symm)
  refine entries_unique e3 f3 (be32_inj n1 k1 ?_) e4 f4
  exact List.append_cancel_left (n2.symm.trans k2)

/-! ## What is sent -/

/-- Every stored object is smaller than two exabytes. -/
def Spec.Storable (db : Db) : Prop := (∀ n ∈ db.nodes, n.data.length < 2 ^ 61) ∧ ∀ c ∈ db.commits, c.data.length < 2 ^ 61

theorem fullPack_plain {X : Ext} {E : SqlExt} {fuel : Nat} {db : Db} {path file : Bytes} (hs : Spec.Storable db) (e : getFullPack X E fuel db path = .ok file) :
    ∃ os, Spec.PlainPack X file os := by
  simp only [getFullPack, Res.bind_eq_ok] at e
  obtain ⟨hm, e1, e2⟩ := e
  exact packOf_plain hs (fullObjects_gathered e1) e2

theorem incPack_plain {X : Ext} {E : SqlExt} {fuel : Nat} {db : Db} {path file : Bytes} {w v : List Bytes} (hs : Spec.Storable db) (e : getIncPack X E fuel db path w v = .ok file) :
    ∃ os, Spec.PlainPack X file os := by
  simp only [getIncPack, Res.bind_eq_ok] at e
  obtain ⟨hm, e1, e2⟩ := e
  exact packOf_plain hs (incLoop_gathered _ _ _ (gathered_nil X db) e1) e2

/-- **C161** Whatever anybody has done on both servers, the answer to a clone (a fetch without `have` lines), of any repository and over HTTP or SSH, is one line `NAK` and a pack in packets, and this is
a pack by the format: the right header, as many whole objects as it says, no object twice, and the right checksum. -/
theorem C161_clone (P : ServerExt) (u : Bytes) (h : BothHist) (hs : Spec.Storable (runBoth P .empty h).web.db) (m : Moment) (hord : ∀ l x, x ∈ m.ord l ↔ x ∈ l) (hcut : Spec.CutOk m.cut)
    (ls : List Spec.ReqLine) (hls : ∀ l ∈ ls, l.Ok) (t rest : Bytes) (ht : t.length ≤ 65000) (hno : Spec.haveIds ls = []) (hband : Spec.AsksBand (Spec.askedFor ls)) (out : Bytes)
    (hout : Spec.FetchedAny P u (doneBody ls t rest) out m h) : ∃ file os, Spec.readClone out = some file ∧ Spec.PlainPack P.X file os := by
  have hout := fetchedAny_http (fun l x => (hord l x).1) hout
  rcases httpUploadPack_noHave (St := mysqlFetch P.X m.sql m.fuel (runBoth P .empty h).web.db u) hord hcut hls ht rest hno with ⟨file, out', e1, e2, e3⟩ | ⟨_, e1, e2⟩
  · rw [hout, Res.ok.injEq] at e2
    subst e2
    obtain ⟨os, ho⟩ := fullPack_plain hs e1
    exact ⟨file, os, e3.1 hband, ho⟩
  · by_cases hspin : (mysqlFetch P.X m.sql m.fuel (runBoth P .empty h).web.db u).fullPack = .spin
    · rw [e2 hspin] at hout
      cases hout
    · rw [e1 hspin] at hout
      cases hout

/-- **C161** The same for a fetch of a client that lists what it has: what it reads behind the lines is a pack by the format; or, if it did not ask for `multi_ack_detailed` in any way, nothing (see
`C144_fetch_false`). -/
theorem C161_fetch (P : ServerExt) (u : Bytes) (h : BothHist) (hs : Spec.Storable (runBoth P .empty h).web.db) (m : Moment) (hord : ∀ l x, x ∈ m.ord l ↔ x ∈ l) (hcut : Spec.CutOk m.cut)
    (ls : List Spec.ReqLine) (hls : ∀ l ∈ ls, l.Ok) (t rest : Bytes) (ht : t.length ≤ 65000) (hh : Spec.haveIds ls ≠ []) (hband : Spec.AsksBand (Spec.askedFor ls)) (out : Bytes)
    (hout : Spec.FetchedAny P u (doneBody ls t rest) out m h) :
    ∃ ids file, Spec.readFetch out = some (ids, file) ∧ (file = [] ∧ ¬ Spec.Asks ls (ascii "multi_ack_detailed") ∨ ∃ os, Spec.PlainPack P.X file os) := by
  have hout := fetchedAny_http (fun l x => (hord l x).1) hout
  by_cases hcap : Capability.multiAckDetailed ∈ requestCaps ls
  · obtain ⟨w, v, _, h1, h2⟩ := httpUploadPack_multi (St := mysqlFetch P.X m.sql m.fuel (runBoth P .empty h).web.db u) hord hcut hls ht rest hh hcap hband
    by_cases hf : ∃ file, (mysqlFetch P.X m.sql m.fuel (runBoth P .empty h).web.db u).incPack w v = .ok file
    · obtain ⟨file, hf⟩ := hf
      obtain ⟨out', ids, o1, o2, _⟩ := h1 file hf
      rw [hout, Res.ok.injEq] at o1
      subst o1
      exact ⟨ids, file, o2, .inr (incPack_plain hs hf)⟩
    · exact absurd hout (h2 (fun file hf' => hf ⟨file, hf'⟩) out)
  · obtain ⟨f, _, h2, h3, e⟩ := httpUploadPack_done (mysqlFetch P.X m.sql m.fuel (runBoth P .empty h).web.db u) m.ord m.cut ls hls t rest ht
    have hne : m.ord f.have_ ≠ [] := by
      intro e0
      apply hh
      rw [List.eq_nil_iff_forall_not_mem] at e0 ⊢
      exact fun x hx => e0 x ((hord _ x).2 ((h2 x).2 hx))
    rw [hout, fetchAnswer, if_neg hne, if_neg (by rw [h3]; exact hcap), Res.pure_eq, Res.bind_ok, Res.ok.injEq] at e
    obtain ⟨dm, _⟩ := C17_sideband f.caps (by rw [h3, requestCaps_asked]; exact (asksBand_iff _).1 hband) [] (m.cut []) (hcut []).1 (hcut []).2
    have hack : (ackLine hardCodedAck []).length ≤ 65531 := ackLine_fits _ _ (by decide) (by decide)
    refine ⟨[], [], ?_, .inl ⟨rfl, fun hask => hcap (asks_multi hask)⟩⟩
    rw [e, hardCoded_line, addPktLine_frame _ _ hack, List.nil_append]
    have := readFetchFuel_stream ⟨hardCodedAck, by decide, rfl⟩ dm [] ((Spec.frame (.line (ackLine hardCodedAck [])) ++ sendPack f.caps (m.cut [])).length + 1) (Nat.succ_pos _) (fun _ h => nomatch h)
    rw [List.map_nil, Spec.stream, List.flatMap_nil, List.nil_append] at this
    exact this

theorem storable_of_fits {X : Ext} {db : Db} (h : FitsPack X db) : Spec.Storable db := by
  refine ⟨fun n hn => ?_, fun c hc => h.1 (.commit, c.data) (.inr ⟨c, hc, rfl⟩)⟩
  have e : (Spec.nodeObj n).2 = n.data := by
    unfold Spec.nodeObj
    split <;> rfl
  rw [← e]
  exact h.1 _ (.inl ⟨n, hn, rfl⟩)

/-- C161: after a push over SSH, a clone on connection 1 and a fetch over HTTP are answered; both packs are by the format. -/
example : ∃ (h' : BothHist) (m : Moment) (out out2 file file2 : Bytes) (ids : List Bytes) (os os2 : List Spec.Obj), Spec.Opened demoServer (ascii "/app") 1 h' ∧
    (sshStep polyExt m (runBoth demoServer .empty h').ssh 1 (.data 0 (doneBody cloneLines (ascii "\n") []))).1 = [(0, out)] ∧
    (serve demoServer m (runBoth demoServer .empty h').web (Spec.fetchReq (ascii "/app" ++ []) (doneBody hasItLines (ascii "\n") []))).1 = .reply (.ok (.bytes out2)) ∧
    Spec.readClone out = some file ∧ Spec.PlainPack polyExt file os ∧ Spec.readFetch out2 = some (ids, file2) ∧ Spec.PlainPack polyExt file2 os2 := by
  obtain ⟨pack, rep, p, h', h1, hdec, h3, hp, hfl, hab, hopen, objs, o, ho⟩ := both_ready
  have hcommit := (h3 _ _).2 ⟨(by simp [appObjects, appThin] : metaOf polyExt (.commit, appCommit.encode) ∈ appObjects), rfl⟩
  obtain ⟨m, hm⟩ : ∃ m : Moment, m = { demoMoment with fuel := (runBoth demoServer .empty h').web.db.nodes.length } := ⟨_, rfl⟩
  have hord : ∀ l x, x ∈ m.ord l ↔ x ∈ l := by rw [hm]; exact fun _ _ => .rfl
  have hcut : Spec.CutOk m.cut := by rw [hm]; exact demoCut_ok
  have hms : m.sql.fold = demoServer.D.fold := by rw [hm]; rfl
  have hfuel : (runBoth demoServer .empty h').web.db.nodes.length ≤ m.fuel := by rw [hm]
  have hs := storable_of_fits (app_fits objs)
  obtain ⟨out, _, c2⟩ := C115_answered_partial demoServer demoFold_hash (ascii "/app") appCmd appCmd_ok (ascii "report-status") (by decide) (by decide) pack h1 rep demoMoment m
    bothBefore h' [] hp (fun _ _ => rfl) p hdec ⟨_, hcommit, rfl⟩ (by rw [List.append_nil]; exact hfl) hms (by rw [List.append_nil]; exact hab)
    (by rw [List.append_nil]; exact app_unique objs) (by rw [List.append_nil]; exact app_fits objs) (by rw [List.append_nil]; exact hfuel) hord hcut cloneLines (ascii "\n") [] cloneLines_ok
  obtain ⟨out2, ids, file2, k1, k2, k3, _⟩ := C149_fetched_partial demoServer demoFold_hash (ascii "/app") appCmd appCmd_ok (ascii "report-status") (by decide) (by decide) pack h1 rep demoMoment m
    bothBefore h' [] hp (fun _ _ => rfl) p hdec (by rw [List.append_nil]; exact hfl) hms (by rw [List.append_nil]; exact hab)
    (by rw [List.append_nil]; exact app_unique objs) (by rw [List.append_nil]; exact app_fits objs) (by rw [List.append_nil]; exact hfuel) hord hcut
    hasItLines hasItLines_ok (ascii "\n") [] (by decide) (by simp [hasItLines, Spec.haveIds]) hasItLines_asks update_band
    ⟨metaOf polyExt (.commit, appCommit.encode), hcommit, rfl, by simp [hasItLines, Spec.wantIds, appCmd, metaOf]⟩
  rw [List.append_nil] at c2 k1 k2
  obtain ⟨file, os, f1, f2⟩ := C161_clone demoServer (ascii "/app") h' hs m hord hcut cloneLines cloneLines_ok.ok (ascii "\n") [] (by decide) cloneLines_ok.none update_band out (.ssh 1 0 hopen (c2 1 0 hopen))
  obtain ⟨ids', file', g1, g2⟩ := C161_fetch demoServer (ascii "/app") h' hs m hord hcut hasItLines hasItLines_ok (ascii "\n") [] (by decide) (by simp [hasItLines, Spec.haveIds]) update_band out2
    (.ssh 1 0 hopen (k2 1 0 hopen))
  rcases g2 with ⟨_, g2⟩ | ⟨os2, g2⟩
  · exact absurd hasItLines_asks g2
  · exact ⟨h', m, out, out2, file, file', ids', os, os2, hopen, c2 1 0 hopen, k1 [] app_clean_url (.inl rfl), f1, f2, g1, g2⟩

end Gust

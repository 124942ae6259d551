import Verif.Lemmas.ObjectDir
import Verif.Props.Object
import Verif.Props.PackLoose
import Verif.Props.PackMulti

/-! # C93, C94, C95: object directories on disk -/

namespace Gust

open ObjDir

/-! ## C93: packing the loose objects of a directory -/

/-- The loose objects fit into one pack: the 32-bit limits of the format. -/
def Spec.FitsOnePack (X : Ext) (d : ObjDir) : Prop :=
  ∀ os : List Spec.Obj, os.Nodup → (∀ o ∈ os, Spec.HasLoose X d o) →
    os.length < 2 ^ 32 ∧ 12 + (encodeEntries X (os.map (metaOf X))).length ≤ 2 ^ 32

/-- **C93** Packing a directory creates one file, named after its checksum, whose objects are exactly the loose objects of the directory,
each once, in whatever order the directory is listed, however the files were compressed, and whatever else the directory contains
outside of the two-character directories. Missing from the full claim: a directory without loose objects (`C93_empty_false`) and one
where something else lies in a two-character directory (`C93_stray_false`). -/
theorem C93_pack_partial {X : Ext} {d : ObjDir} (ht : Spec.Tidy X d) (h0 : ∃ o, Spec.HasLoose X d o) (hfit : Spec.FitsOnePack X d)
    (St : ObjectSource) (root target : Bytes) (fuel : Nat) :
    ∃ (os : List Spec.Obj) (body : Bytes) (pack : Pack), packLooseFromDir X root target d =
        .ok ((os.length, X.sha1 body), target ++ ascii "/pack-" ++ Hash.toPlainStr (X.sha1 body) ++ ascii ".pack",
          body ++ (X.sha1 body).1) ∧
      os.Nodup ∧ (∀ o, o ∈ os ↔ Spec.HasLoose X d o) ∧
      decodePack X St (fuel + 1) (body ++ (X.sha1 body).1) = .ok pack ∧ pack.numberOfObjects = os.length ∧
      ∀ h m, pack.result.hashObject h = some m ↔ ∃ o, Spec.HasLoose X d o ∧ MetaData.new X o.1 o.2 = .ok m ∧ m.id = h := by
  obtain ⟨os, h1, h2, h3, h4⟩ := tidy_list ht
  have hread := readLoose_tidy ht root (os := os) (fun o ho => (h4 o).1 ho)
  obtain ⟨f1, f2⟩ := hfit os h2 (fun o ho => (h4 o).1 ho)
  have hbase : ∀ o ∈ os, o.1.isBase = true ∧ o.2.length < 2 ^ 61 := by
    intro o ho
    obtain ⟨_, _, _, _, _, _, hf⟩ := (h4 o).1 ho
    exact ⟨hf.base, hf.size⟩
  have hne : os.map (metaOf X) ≠ [] := by
    obtain ⟨o, ho⟩ := h0
    intro e
    rw [List.map_eq_nil_iff.1 e] at h4
    cases (h4 o).2 ho
  obtain ⟨body, file, pack, e1, e2, e3, e4⟩ := C27_pack_roundtrip X St (os.map (metaOf X))
    (by
      intro m hm
      obtain ⟨o, ho, rfl⟩ := List.mem_map.1 hm
      exact new_metaOf X o (hbase o ho).1)
    (by
      intro a ha b hb e
      obtain ⟨o, ho, rfl⟩ := List.mem_map.1 ha
      obtain ⟨o', ho', rfl⟩ := List.mem_map.1 hb
      rw [h3 o ho o' ho' e])
    (by
      intro m hm
      obtain ⟨o, ho, rfl⟩ := List.mem_map.1 hm
      exact (hbase o ho).2)
    hne (by rw [List.length_map]; exact f1) f2 fuel
  subst e2
  rw [List.length_map] at e1
  refine ⟨os, body, pack, ?_, h2, h4, e3, by rw [e4.count, List.length_map], ?_⟩
  · simp only [packLooseFromDir, h1, Res.bind_ok, packLoose, hread, e1, Res.pure_eq, packName]
  · intro h m
    rw [e4.byId]
    constructor
    · rintro ⟨hm, hi⟩
      obtain ⟨o, ho, rfl⟩ := List.mem_map.1 hm
      exact ⟨o, (h4 o).1 ho, new_metaOf X o (hbase o ho).1, hi⟩
    · rintro ⟨o, ho, hm, hi⟩
      have ho' := (h4 o).2 ho
      rw [new_metaOf X o (hbase o ho').1] at hm
      obtain rfl := Res.ok.inj hm
      exact ⟨List.mem_map.2 ⟨o, ho', rfl⟩, hi⟩

/-- **C93**, writing: storing an object in a tidy directory succeeds (unless a plain file has the name of the directory it belongs
to), leaves the directory tidy, and adds this object and changes no other. -/
theorem C93_write {X : Ext} {d : ObjDir} (ht : Spec.Tidy X d) (t : ObjectType) (data : Bytes) (m : MetaData)
    (hm : MetaData.new X t data = .ok m) (hs : data.length < 2 ^ 61) (hnf : ∀ a c, a.length = 2 → (a, DirEntry.file c) ∉ d) :
    ∃ d', d.write X m = .ok d' ∧ Spec.Tidy X d' ∧ (∀ a c, a.length = 2 → (a, DirEntry.file c) ∉ d') ∧
      ∀ o, Spec.HasLoose X d' o ↔ o = (t, data) ∨ (Spec.HasLoose X d o ∧ idOf X o ≠ m.id) := by
  obtain ⟨hb, _⟩ := new_ok hm
  rw [new_metaOf X (t, data) hb] at hm
  obtain rfl := Res.ok.inj hm
  obtain ⟨d', h1, h2, h3, h4⟩ := write_tidy ht (t, data) hb hs (fun c => hnf _ c (folder_length _))
  exact ⟨d', h1, h2, fun a c hl h => hnf a c hl (h4 a c h), h3⟩

theorem tidy_nil (X : Ext) : Spec.Tidy X [] :=
  ⟨List.nodup_nil, (by intro a es h; cases h), (by intro e h; cases h), (by intro a es p h; cases h)⟩

/-- The objects with their decoded forms are written one after the other. -/
theorem writeAll_tidy {X : Ext} : ∀ {ms : List MetaData} {d : ObjDir}, Spec.Tidy X d → (∀ a c, a.length = 2 → (a, DirEntry.file c) ∉ d) →
    (∀ m ∈ ms, MetaData.new X m.t m.data = .ok m ∧ m.data.length < 2 ^ 61) →
    (∀ m ∈ ms, ∀ m' ∈ ms, m.id = m'.id → m = m') → (∀ m ∈ ms, ∀ o, Spec.HasLoose X d o → idOf X o = m.id → o = (m.t, m.data)) →
    ∃ d', writeAll X ms d = .ok d' ∧ Spec.Tidy X d' ∧
      ∀ o, Spec.HasLoose X d' o ↔ Spec.HasLoose X d o ∨ ∃ m ∈ ms, o = (m.t, m.data)
  | [], d, ht, _, _, _, _ => ⟨d, rfl, ht, fun o => by simp⟩
  | m :: ms, d, ht, hnf, hm, hc, hd => by
    obtain ⟨hm1, hm2⟩ := hm m (by simp)
    obtain ⟨d1, h1, h2, h3, h4⟩ := C93_write ht m.t m.data m hm1 hm2 hnf
    obtain ⟨d', g1, g2, g3⟩ := writeAll_tidy (ms := ms) h2 h3 (fun m hm' => hm m (by simp [hm']))
      (fun a ha b hb => hc a (by simp [ha]) b (by simp [hb]))
      (by
        intro m' hm' o ho e
        rcases (h4 o).1 ho with rfl | ⟨ho, _⟩
        · have : m.id = idOf X (m.t, m.data) := (congrArg MetaData.id (metaOf_of_new hm1).2).symm
          rw [hc m (by simp) m' (by simp [hm']) (this.trans e)]
        · exact hd m' (by simp [hm']) o ho e)
    refine ⟨d', by simp only [writeAll, h1, Res.bind_ok, g1], g2, fun o => ?_⟩
    rw [g3, h4]
    constructor
    · rintro ((rfl | ⟨h, _⟩) | ⟨m', hm', e⟩)
      · exact Or.inr ⟨m, by simp, rfl⟩
      · exact Or.inl h
      · exact Or.inr ⟨m', by simp [hm'], e⟩
    · rintro (h | ⟨m', hm', rfl⟩)
      · by_cases e : idOf X o = m.id
        · exact Or.inl (Or.inl (hd m (by simp) o h e))
        · exact Or.inl (Or.inr ⟨h, e⟩)
      · rcases List.mem_cons.1 hm' with rfl | hm'
        · exact Or.inl (Or.inl rfl)
        · exact Or.inr ⟨m', hm', rfl⟩

/-- **C93**, histories: any objects (no two different ones with one id) written to an empty directory one after the other, repetitions
included, leave a tidy directory with exactly these objects. -/
theorem C93_written (X : Ext) (ms : List MetaData) (hm : ∀ m ∈ ms, MetaData.new X m.t m.data = .ok m ∧ m.data.length < 2 ^ 61)
    (hc : ∀ m ∈ ms, ∀ m' ∈ ms, m.id = m'.id → m = m') :
    ∃ d, writeAll X ms [] = .ok d ∧ Spec.Tidy X d ∧ ∀ o, Spec.HasLoose X d o ↔ ∃ m ∈ ms, o = (m.t, m.data) := by
  have hno : ∀ o, ¬ Spec.HasLoose X [] o := by
    rintro o ⟨_, _, _, h, _⟩
    cases h
  obtain ⟨d, h1, h2, h3⟩ := writeAll_tidy (tidy_nil X) (by intro a c _ h; cases h) hm hc (fun m _ o h => absurd h (hno o))
  refine ⟨d, h1, h2, fun o => ?_⟩
  rw [h3]
  exact ⟨fun h => h.resolve_left (hno o), Or.inr⟩

/-- Listing either works or panics. -/
theorem looseNames_cases (a : Bytes) : ∀ es : List (Bytes × Option Bytes),
    (∃ hs, looseNames a es = .ok hs ∧ ∀ p ∈ es, ∃ h, Hash.fromStr (a ++ p.1) = .ok h) ∨ looseNames a es = .panic
  | [] => Or.inl ⟨[], rfl, by intro p h; cases h⟩
  | (b, c) :: es => by
    unfold looseNames
    split
    · exact Or.inr rfl
    · cases hf : Hash.fromStr (a ++ b) with
      | ok h =>
        rcases looseNames_cases a es with ⟨hs, e, hall⟩ | e
        · refine Or.inl ⟨Hash.toPlainStr h :: hs, by simp only [Res.unwrap_ok, Res.bind_ok, e, Res.pure_eq], ?_⟩
          intro p hp
          rcases List.mem_cons.1 hp with rfl | hp
          · exact ⟨h, hf⟩
          · exact hall p hp
        · right
          simp only [Res.unwrap_ok, Res.bind_ok, e]
          rfl
      | err e => exact Or.inr rfl
      | panic => exact Or.inr rfl
      | spin =>
        unfold Hash.fromStr at hf
        cases h : Hash.fromBytes (a ++ b) <;> rw [h] at hf <;> cases hf

theorem findAllLoose_cases : ∀ d : ObjDir,
    (∃ hs, findAllLoose d = .ok hs ∧ ∀ a es p, (a, DirEntry.dir es) ∈ d → a.length = 2 → p ∈ es → ∃ h, Hash.fromStr (a ++ p.1) = .ok h) ∨
      findAllLoose d = .panic
  | [] => Or.inl ⟨[], rfl, by intro a es p h; cases h⟩
  | (a, e) :: d => by
    have ih := findAllLoose_cases d
    unfold findAllLoose
    split
    · exact Or.inr rfl
    · cases e with
      | file c =>
        rcases ih with ⟨hs, h1, h2⟩ | h
        · refine Or.inl ⟨hs, h1, ?_⟩
          intro a' es p hm
          rcases List.mem_cons.1 hm with e | hm
          · cases e
          · exact h2 a' es p hm
        · exact Or.inr h
      | dir es =>
        simp only
        split
        · rename_i hl
          rcases looseNames_cases a es with ⟨hs, h1, h2⟩ | h
          · rcases ih with ⟨hs', g1, g2⟩ | h
            · refine Or.inl ⟨hs ++ hs', by simp only [h1, g1, Res.bind_ok, Res.pure_eq], ?_⟩
              intro a' es' p hm hl' hp
              rcases List.mem_cons.1 hm with e | hm
              · cases e
                exact h2 p hp
              · exact g2 a' es' p hm hl' hp
            · right
              simp only [h1, h, Res.bind_ok]
              rfl
          · right
            simp only [h]
            rfl
        · rename_i hl
          rcases ih with ⟨hs, h1, h2⟩ | h
          · refine Or.inl ⟨hs, h1, ?_⟩
            intro a' es' p hm hl' hp
            rcases List.mem_cons.1 hm with e | hm
            · cases e
              exact absurd hl' hl
            · exact h2 a' es' p hm hl' hp
          · exact Or.inr h

/-- **C93 is false** when anything else lies in a two-character directory, for instance the temporary file of an interrupted write: the
program panics and nothing is packed, whatever else is in the directory. -/
theorem C93_stray_false (X : Ext) (root target : Bytes) (d : ObjDir) (a b : Bytes) (es : List (Bytes × Option Bytes)) (c : Option Bytes)
    (hd : (a, DirEntry.dir es) ∈ d) (ha : a.length = 2) (hb : (b, c) ∈ es)
    (hname : ¬ ((a ++ b).length = 40 ∧ ∀ x ∈ a ++ b, Spec.IsHexDigit x)) : packLooseFromDir X root target d = .panic := by
  rcases findAllLoose_cases d with ⟨hs, _, h⟩ | h
  · exact absurd ((C04_hash_accepts_iff (a ++ b)).1.1 (h a es (b, c) hd ha hb)) hname
  · simp only [packLooseFromDir, h]
    rfl

/-- **C93 is false** for a directory without loose objects: instead of writing an empty pack, or none, the program panics. -/
theorem C93_empty_false {X : Ext} {d : ObjDir} (ht : Spec.Tidy X d) (h0 : ∀ o, ¬ Spec.HasLoose X d o) (root target : Bytes) :
    packLooseFromDir X root target d = .panic := by
  obtain ⟨os, h1, _, _, h4⟩ := tidy_list ht
  have e : os = [] := List.eq_nil_iff_forall_not_mem.2 (fun o ho => h0 o ((h4 o).1 ho))
  subst e
  simp only [packLooseFromDir, h1, Res.bind_ok]
  rfl

/-! ## C94: adding the loose objects to the pack of the directory -/

theorem boundary_ascii {s : Bytes} (h : ∀ c ∈ s, c.toNat < 128) (i : Nat) : isBoundary s i = true := by
  unfold isBoundary
  cases e : s[i]? with
  | none => rfl
  | some b =>
    have := h b (List.mem_of_getElem? e)
    have hb : b < 0x80 := by rw [UInt8.lt_iff_toNat_lt]; exact this
    simp [hb]

/-- The test of a name, on names of four bytes or more. -/
theorem isPackName_ascii {name : Bytes} (h : ∀ c ∈ name, c.toNat < 128) (h4 : 4 ≤ name.length) :
    isPackName name = .ok (decide (ascii "pack" <:+ name)) := by
  have hl : ¬ name.length < 4 := by omega
  rw [isPackName, if_neg hl, strSlice, if_pos ⟨by omega, by omega, boundary_ascii h _, boundary_ascii h _⟩]
  simp only [Res.bind_ok, Res.pure_eq, List.take_length, Res.ok.injEq]
  rw [Bool.eq_iff_iff, beq_iff_eq, decide_eq_true_iff, List.suffix_iff_eq_drop]
  exact eq_comm

theorem isPackName_cases (name : Bytes) : isPackName name = .panic ∨ isPackName name = .ok (decide (ascii "pack" <:+ name)) := by
  unfold isPackName
  by_cases hl : name.length < 4
  · exact Or.inl (if_pos hl)
  · rw [if_neg hl, strSlice]
    split
    · right
      simp only [Res.bind_ok, Res.pure_eq, List.take_length, Res.ok.injEq]
      rw [Bool.eq_iff_iff, beq_iff_eq, decide_eq_true_iff, List.suffix_iff_eq_drop]
      exact eq_comm
    · exact Or.inl rfl

/-- The one pack of a directory is found wherever it is listed. -/
theorem firstPack_only {name old : Bytes} : ∀ {es : List (Bytes × Option Bytes)}, (∀ p ∈ es, (∀ c ∈ p.1, c.toNat < 128) ∧ 4 ≤ p.1.length) →
    (∀ p ∈ es, ascii "pack" <:+ p.1 → p = (name, some old)) → (∃ p ∈ es, ascii "pack" <:+ p.1) → firstPack es = .ok old
  | [], _, _, h => by obtain ⟨p, h, _⟩ := h; cases h
  | (b, c) :: es, hn, hu, h => by
    obtain ⟨h1, h2⟩ := hn (b, c) (by simp)
    have hv : utf8Valid b = true := utf8Valid_ascii b h1
    simp only [firstPack, hv, Bool.not_true, Bool.false_eq_true, if_false, isPackName_ascii h1 h2, Res.bind_ok, decide_eq_true_eq]
    split
    · rename_i hs
      obtain ⟨_, rfl⟩ := Prod.mk.inj (hu (b, c) (by simp) hs)
      rfl
    · rename_i hs
      obtain ⟨p, hp, hps⟩ := h
      rcases List.mem_cons.1 hp with rfl | hp
      · exact absurd hps hs
      · exact firstPack_only (fun p hp => hn p (by simp [hp])) (fun p hp => hu p (by simp [hp])) ⟨p, hp, hps⟩

/-- What repacking gives, when the pack found is well-formed. -/
theorem repack_core {X : Ext} {St : ObjectSource} {known : Hash → Option Spec.Obj} (hst : Supplies St known) {d : ObjDir}
    (ht : Spec.Tidy X d) (h0 : ∃ o, Spec.HasLoose X d o) {old : Bytes} (hfind : findPackFile d = .ok old)
    {es : List (Nat × Spec.Entry)} {trailer : Hash} {os : List (Nat × Spec.Obj)}
    (hp : Spec.PackFile X.inflate old es trailer) (hr : Spec.Resolves (idOf X) known [] es os) (hcap : ∀ p ∈ os, p.2.2.length < 2 ^ 63)
    (hcol : Spec.NoCollision (idOf X) os) (hcol' : ∀ p ∈ os, ∀ o, Spec.HasLoose X d o → idOf X p.2 = idOf X o → p.2 = o)
    (hfit : ∀ ls : List Spec.Obj, ls.Nodup → (∀ o ∈ ls, Spec.HasLoose X d o) →
      es.length + ls.length < 2 ^ 32 ∧ old.length + (encodeEntries X (ls.map (metaOf X))).length ≤ 2 ^ 32)
    (root target : Bytes) (fuel : Nat) :
    ∃ (n : Nat) (body : Bytes) (pack : Pack), repack X root target d =
        .ok ((n, X.sha1 body), target ++ ascii "/pack-" ++ Hash.toPlainStr (X.sha1 body) ++ ascii ".pack", body ++ (X.sha1 body).1) ∧
      decodePack X St (fuel + 1) (body ++ (X.sha1 body).1) = .ok pack ∧ pack.numberOfObjects = n ∧
      ∀ h m, pack.result.hashObject h = some m ↔ (∃ p ∈ os, MetaData.new X p.2.1 p.2.2 = .ok m ∧ m.id = h) ∨
        ∃ o, Spec.HasLoose X d o ∧ MetaData.new X o.1 o.2 = .ok m ∧ m.id = h := by
  obtain ⟨ls, h1, h2, h3, h4⟩ := tidy_list ht
  have hread := readLoose_tidy ht root (os := ls) (fun o ho => (h4 o).1 ho)
  obtain ⟨f1, f2⟩ := hfit ls h2 (fun o ho => (h4 o).1 ho)
  have hbase : ∀ o ∈ ls, o.1.isBase = true ∧ o.2.length < 2 ^ 61 := by
    intro o ho
    obtain ⟨_, _, _, _, _, _, hf⟩ := (h4 o).1 ho
    exact ⟨hf.base, hf.size⟩
  have hne : ls.map (metaOf X) ≠ [] := by
    obtain ⟨o, ho⟩ := h0
    intro e
    rw [List.map_eq_nil_iff.1 e] at h4
    cases (h4 o).2 ho
  have hat : ∀ q, q ∈ objectsAt X (old.length - 20) (ls.map (metaOf X)) → q.2 ∈ ls := by
    intro q hq
    obtain ⟨a, m, b, e, rfl⟩ := mem_objectsAt.1 hq
    have hm : m ∈ ls.map (metaOf X) := by rw [e]; simp
    obtain ⟨o, ho, rfl⟩ := List.mem_map.1 hm
    exact ho
  have hat' : ∀ o ∈ ls, ∃ q ∈ objectsAt X (old.length - 20) (ls.map (metaOf X)), q.2 = o := by
    intro o ho
    obtain ⟨a, b, e⟩ := List.append_of_mem (List.mem_map.2 ⟨o, ho, rfl⟩ : metaOf X o ∈ ls.map (metaOf X))
    exact ⟨_, mem_objectsAt.2 ⟨a, _, b, e, rfl⟩, rfl⟩
  obtain ⟨body, pack, e1, e2, e3⟩ := packObjectDir_decodes hst hp hr hcap hread hne
    (by
      intro m hm
      obtain ⟨o, ho, rfl⟩ := List.mem_map.1 hm
      exact new_metaOf X o (hbase o ho).1)
    (by
      intro m hm
      obtain ⟨o, ho, rfl⟩ := List.mem_map.1 hm
      exact (hbase o ho).2)
    (by
      intro a ha b hb e
      rcases List.mem_append.1 ha with ha | ha <;> rcases List.mem_append.1 hb with hb | hb
      · exact hcol a ha b hb e
      · exact hcol' a ha b.2 ((h4 _).1 (hat b hb)) e
      · exact (hcol' b hb a.2 ((h4 _).1 (hat a ha)) e.symm).symm
      · exact h3 _ (hat a ha) _ (hat b hb) e)
    (by rw [List.length_map]; exact f1) f2 fuel
  rw [List.length_map] at e1
  refine ⟨es.length + ls.length, body, pack, ?_, e2, ?_, ?_⟩
  · simp only [repack, hfind, h1, Res.bind_ok, e1, Res.pure_eq, packName]
  · have := e3.count
    rw [List.length_append, objectsAt_length, List.length_map] at this
    rw [this]
    have hl : os.length = es.length := by
      have := congrArg List.length (resolves_base (X := X) (fun h t b e => (hst h t b e).1) hr (by intro p hp; cases hp)).2
      simpa using this
    rw [hl]
  · intro h m
    rw [e3.byId]
    constructor
    · rintro ⟨q, hq, hm, hi⟩
      rcases List.mem_append.1 hq with hq | hq
      · exact Or.inl ⟨q, hq, hm, hi⟩
      · exact Or.inr ⟨q.2, (h4 _).1 (hat q hq), hm, hi⟩
    · rintro (⟨q, hq, hm, hi⟩ | ⟨o, ho, hm, hi⟩)
      · exact ⟨q, List.mem_append_left _ hq, hm, hi⟩
      · obtain ⟨q, hq, rfl⟩ := hat' o ((h4 o).2 ho)
        exact ⟨q, List.mem_append_right _ hq, hm, hi⟩

/-- **C94** Repacking a directory that has loose objects and exactly one pack (and other files beside it, such as its index) creates one
file, named after its checksum, whose objects are exactly those of the pack and the loose ones, in whatever order things are listed.
`hcol`, `hcol'` exclude SHA-1 collisions, `hfit` states the 32-bit limits of the format. Missing from the full claim: directories with
several packs (`C94_second_pack_false`), with none (`C94_no_pack_false`), or without loose objects (`C94_empty_false`). -/
theorem C94_repack_partial {X : Ext} {St : ObjectSource} {known : Hash → Option Spec.Obj} (hst : Supplies St known) {d : ObjDir}
    (ht : Spec.Tidy X d) (h0 : ∃ o, Spec.HasLoose X d o) {name old : Bytes} {fs : List (Bytes × Option Bytes)}
    (hdir : (ascii "pack", DirEntry.dir fs) ∈ d) (hnames : ∀ p ∈ fs, (∀ c ∈ p.1, c.toNat < 128) ∧ 4 ≤ p.1.length)
    (hin : (name, some old) ∈ fs) (hname : ascii "pack" <:+ name) (hone : ∀ p ∈ fs, ascii "pack" <:+ p.1 → p = (name, some old))
    {es : List (Nat × Spec.Entry)} {trailer : Hash} {os : List (Nat × Spec.Obj)}
    (hp : Spec.PackFile X.inflate old es trailer) (hr : Spec.Resolves (idOf X) known [] es os) (hcap : ∀ p ∈ os, p.2.2.length < 2 ^ 63)
    (hcol : Spec.NoCollision (idOf X) os) (hcol' : ∀ p ∈ os, ∀ o, Spec.HasLoose X d o → idOf X p.2 = idOf X o → p.2 = o)
    (hfit : ∀ ls : List Spec.Obj, ls.Nodup → (∀ o ∈ ls, Spec.HasLoose X d o) →
      es.length + ls.length < 2 ^ 32 ∧ old.length + (encodeEntries X (ls.map (metaOf X))).length ≤ 2 ^ 32)
    (root target : Bytes) (fuel : Nat) :
    ∃ (n : Nat) (body : Bytes) (pack : Pack), repack X root target d =
        .ok ((n, X.sha1 body), target ++ ascii "/pack-" ++ Hash.toPlainStr (X.sha1 body) ++ ascii ".pack", body ++ (X.sha1 body).1) ∧
      decodePack X St (fuel + 1) (body ++ (X.sha1 body).1) = .ok pack ∧ pack.numberOfObjects = n ∧
      ∀ h m, pack.result.hashObject h = some m ↔ (∃ p ∈ os, MetaData.new X p.2.1 p.2.2 = .ok m ∧ m.id = h) ∨
        ∃ o, Spec.HasLoose X d o ∧ MetaData.new X o.1 o.2 = .ok m ∧ m.id = h := by
  refine repack_core hst ht h0 ?_ hp hr hcap hcol hcol' hfit root target fuel
  rw [findPackFile, find_key ht.names hdir]
  exact firstPack_only hnames hone ⟨_, hin, hname⟩

theorem firstPack_none : ∀ {es : List (Bytes × Option Bytes)}, (∀ p ∈ es, ¬ ascii "pack" <:+ p.1) → firstPack es = .panic
  | [], _ => rfl
  | (b, c) :: es, h => by
    unfold firstPack
    split
    · rfl
    · rcases isPackName_cases b with e | e <;> rw [e]
      · rfl
      · have hb := h (b, c) (by simp)
        simp only at hb
        simp only [Res.bind_ok, hb, decide_false, Bool.false_eq_true, if_false]
        exact firstPack_none (fun p hp => h p (by simp [hp]))

/-- **C94 is false** for a directory without a pack, as it is before the first repacking: the program panics, whatever the loose objects. -/
theorem C94_no_pack_false (X : Ext) (root target : Bytes) (d : ObjDir)
    (h : ∀ es, (ascii "pack", DirEntry.dir es) ∈ d → ∀ p ∈ es, ¬ ascii "pack" <:+ p.1) : repack X root target d = .panic := by
  have e : findPackFile d = .panic := by
    unfold findPackFile
    split
    · rename_i es hf
      exact firstPack_none (h es (find_some hf).2)
    · rfl
  simp only [repack, e]
  rfl

/-- **C94 is false** for a directory without loose objects: the program panics instead of leaving the pack as it is. -/
theorem C94_empty_false {X : Ext} {d : ObjDir} (ht : Spec.Tidy X d) (h0 : ∀ o, ¬ Spec.HasLoose X d o) {old : Bytes}
    (hfind : findPackFile d = .ok old) {es : List (Nat × Spec.Entry)} {trailer : Hash} (hp : Spec.PackFile X.inflate old es trailer)
    (root target : Bytes) : repack X root target d = .panic := by
  obtain ⟨os, h1, _, _, h4⟩ := tidy_list ht
  have e : os = [] := List.eq_nil_iff_forall_not_mem.2 (fun o ho => h0 o ((h4 o).1 ho))
  subst e
  obtain ⟨z, hraw, _, _⟩ := decodeRawData_packFile hp
  simp only [repack, hfind, h1, Res.bind_ok, List.map_nil]
  rw [C33_empty_false X _ root old _ _ _ hraw]
  rfl

/-! ### A directory with two packs -/

theorem tidy_snoc {X : Ext} {d : ObjDir} (ht : Spec.Tidy X d) {k : Bytes} {e : DirEntry} (hk : k ∉ d.map Prod.fst) (hu : utf8Valid k = true)
    (hl : k.length ≠ 2) (he : ∀ es, e = .dir es → (es.map Prod.fst).Nodup) :
    Spec.Tidy X (d ++ [(k, e)]) ∧ ∀ o, Spec.HasLoose X (d ++ [(k, e)]) o ↔ Spec.HasLoose X d o := by
  have mem : ∀ a f, (a, f) ∈ d ++ [(k, e)] → (a, f) ∈ d ∨ (a = k ∧ f = e) := by
    intro a f h
    rcases List.mem_append.1 h with h | h
    · exact Or.inl h
    · exact Or.inr (Prod.mk.inj (List.mem_singleton.1 h))
  refine ⟨⟨nodup_snoc ht.names (fun v hv => hk (List.mem_map.2 ⟨_, hv, rfl⟩)) e, ?_, ?_, ?_⟩, ?_⟩
  · intro a es h
    rcases mem _ _ h with h | ⟨_, h⟩
    · exact ht.inner a es h
    · exact he es h.symm
  · rintro ⟨a, f⟩ h
    rcases mem _ _ h with h | ⟨rfl, _⟩
    · exact ht.text _ h
    · exact hu
  · intro a es p h hla hp
    rcases mem _ _ h with h | ⟨rfl, _⟩
    · exact ht.objects a es p h hla hp
    · exact absurd hla hl
  · intro o
    constructor
    · rintro ⟨a, es, p, h, hla, r⟩
      rcases mem _ _ h with h | ⟨rfl, _⟩
      · exact ⟨a, es, p, h, hla, r⟩
      · exact absurd hla hl
    · rintro ⟨a, es, p, h, r⟩
      exact ⟨a, es, p, List.mem_append_left _ h, r⟩

/-- A directory with the loose object `(.tag, "loose")` … -/
def oneLoose : ObjDir :=
  [(Hash.toFolder (idOf demoExt (.tag, ascii "loose")), .dir [(Hash.toFilename (idOf demoExt (.tag, ascii "loose")),
    some (demoDeflate (Spec.looseText (.tag, ascii "loose"))))])]

theorem oneLoose_tidy : Spec.Tidy demoExt oneLoose ∧ ∀ o, Spec.HasLoose demoExt oneLoose o ↔ o = (.tag, ascii "loose") := by
  obtain ⟨d, h1, h2, h3⟩ := C93_written demoExt [metaOf demoExt (.tag, ascii "loose")]
    (by intro m hm; rw [List.mem_singleton.1 hm]; exact ⟨new_metaOf demoExt (.tag, ascii "loose") rfl, by decide⟩)
    (by intro m hm m' hm' _; rw [List.mem_singleton.1 hm, List.mem_singleton.1 hm'])
  have e : d = oneLoose := by
    have : writeAll demoExt [metaOf demoExt (.tag, ascii "loose")] [] = .ok oneLoose := rfl
    rw [this] at h1
    exact (Res.ok.inj h1).symm
  subst e
  refine ⟨h2, fun o => ?_⟩
  rw [h3]
  simp [metaOf]

/-- … and the two packs. -/
def twoPackDir : ObjDir :=
  oneLoose ++ [(ascii "pack", .dir [(ascii "pack-1.idx", some []), (ascii "pack-1.pack", some foreignPack), (ascii "pack-2.pack", some secondPack)])]

theorem twoPackDir_tidy : Spec.Tidy demoExt twoPackDir ∧ ∀ o, Spec.HasLoose demoExt twoPackDir o ↔ o = (.tag, ascii "loose") := by
  obtain ⟨h1, h2⟩ := tidy_snoc oneLoose_tidy.1 (k := ascii "pack")
    (e := .dir [(ascii "pack-1.idx", some []), (ascii "pack-1.pack", some foreignPack), (ascii "pack-2.pack", some secondPack)])
    (by decide +kernel) (by decide) (by decide) (by intro es e; rw [← DirEntry.dir.inj e]; decide)
  exact ⟨h1, fun o => (h2 o).trans (oneLoose_tidy.2 o)⟩

theorem twoPackDir_found : findPackFile twoPackDir = .ok foreignPack := by decide +kernel

theorem nodup_one {o : Spec.Obj} {ls : List Spec.Obj} (h : ls.Nodup) (h' : ∀ x ∈ ls, x = o) : ls = [] ∨ ls = [o] := by
  cases ls with
  | nil => exact Or.inl rfl
  | cons a l =>
    obtain ⟨h1, _⟩ := List.nodup_cons.1 h
    have ha := h' a (by simp)
    subst ha
    cases l with
    | nil => exact Or.inr rfl
    | cons b l => exact absurd (h' b (by simp)) (fun e => h1 (by simp [e]))

/-- **C94 is false** for a directory with several packs: only the first one listed is taken over. Here a directory with two well-formed
packs and a loose object is repacked without any complaint, and an object of the second pack is not in the result. -/
theorem C94_second_pack_false : ∃ (X : Ext) (d : ObjDir) (fs : List (Bytes × Option Bytes)) (name file : Bytes) (pack2 : Pack) (m : MetaData)
      (n : Nat) (sig : Hash) (out : Bytes) (pack : Pack), Spec.Tidy X d ∧ (∃ o, Spec.HasLoose X d o) ∧
    (ascii "pack", DirEntry.dir fs) ∈ d ∧ (name, some file) ∈ fs ∧ ascii ".pack" <:+ name ∧
    decodePack X (fun _ => none) 1 file = .ok pack2 ∧ pack2.result.hashObject m.id = some m ∧
    repack X [] [] d = .ok ((n, sig), ascii "/pack-" ++ Hash.toPlainStr sig ++ ascii ".pack", out) ∧
    decodePack X (fun _ => none) 1 out = .ok pack ∧ pack.result.hashObject m.id = none := by
  obtain ⟨ht, hl⟩ := twoPackDir_tidy
  obtain ⟨pb, g1, g2⟩ := C64_decode_wellformed (X := demoExt) (St := fun _ => none) (known := fun _ => none)
    (fun _ _ _ e => by cases e) secondPack_file (secondPack_resolves []) (noCollision_of_nodup (by decide +kernel)) (by decide) (by decide) 0
  obtain ⟨n, body, pack, h1, h2, _, h4⟩ := repack_core (X := demoExt) (St := fun _ => none) (known := fun _ => none) (fun _ _ _ e => by cases e)
    ht ⟨_, (hl _).2 rfl⟩ twoPackDir_found foreignPack_file foreignPack_resolves (by decide) foreignPack_ids
    (by
      intro p hp o ho
      rw [(hl o).1 ho]
      revert p
      decide +kernel)
    (by
      intro ls hn hls
      rcases nodup_one hn (fun x hx => (hl x).1 (hls x hx)) with rfl | rfl
      · exact ⟨by decide, by decide +kernel⟩
      · exact ⟨by decide, by decide +kernel⟩)
    [] [] 0
  refine ⟨demoExt, twoPackDir, _, ascii "pack-2.pack", secondPack, pb, metaOf demoExt (.tag, ascii "hi!"), n, demoExt.sha1 body, _, pack, ht,
    ⟨_, (hl _).2 rfl⟩, List.mem_append_right _ (List.mem_singleton.2 rfl), by simp, by decide, g1,
    (g2.byId _ _).2 ⟨(18, (.tag, ascii "hi!")), by simp, new_metaOf demoExt (.tag, ascii "hi!") rfl, rfl⟩, h1, h2, ?_⟩
  cases e : pack.result.hashObject (metaOf demoExt (.tag, ascii "hi!")).id with
  | none => rfl
  | some m =>
    have ids : ∀ o ∈ [(ObjectType.blob, ascii "hello"), (ObjectType.blob, ascii "ellp!"), (ObjectType.tag, ascii "loose")],
        idOf demoExt o ≠ idOf demoExt (.tag, ascii "hi!") := by decide +kernel
    rcases (h4 _ _).1 e with ⟨p, hp, hm, hi⟩ | ⟨o, ho, hm, hi⟩
    · rcases List.mem_cons.1 hp with rfl | hp
      · rw [new_metaOf demoExt (.blob, ascii "hello") rfl] at hm
        obtain rfl := Res.ok.inj hm
        exact absurd hi (ids _ (by simp))
      · obtain rfl := List.mem_singleton.1 hp
        rw [new_metaOf demoExt (.blob, ascii "ellp!") rfl] at hm
        obtain rfl := Res.ok.inj hm
        exact absurd hi (ids _ (by simp))
    · obtain rfl := (hl o).1 ho
      rw [new_metaOf demoExt (.tag, ascii "loose") rfl] at hm
      obtain rfl := Res.ok.inj hm
      exact absurd hi (ids _ (by simp))

/-- Example for C93: a directory with a loose object beside the directory of packs is packed, and the object comes out. -/
example : ∃ (out : Bytes) (name : Bytes) (sig : Hash) (pack : Pack), packLooseFromDir demoExt (ascii "objects") (ascii "new") twoPackDir =
      .ok ((1, sig), name, out) ∧ decodePack demoExt (fun _ => none) 1 out = .ok pack ∧
    pack.result.hashObject (idOf demoExt (.tag, ascii "loose")) = some (metaOf demoExt (.tag, ascii "loose")) := by
  obtain ⟨ht, hl⟩ := twoPackDir_tidy
  obtain ⟨os, body, pack, h1, h2, h3, h4, _, h6⟩ := C93_pack_partial ht ⟨_, (hl _).2 rfl⟩
    (by
      intro ls hn hls
      rcases nodup_one hn (fun x hx => (hl x).1 (hls x hx)) with rfl | rfl
      · exact ⟨by decide, by decide +kernel⟩
      · exact ⟨by decide, by decide +kernel⟩)
    (fun _ => none) (ascii "objects") (ascii "new") 0
  have hos : os = [(.tag, ascii "loose")] := by
    rcases nodup_one h2 (fun x hx => (hl x).1 ((h3 x).1 hx)) with e | e
    · rw [e] at h3
      exact absurd ((h3 _).2 ((hl _).2 rfl)) (by simp)
    · exact e
  rw [hos] at h1
  exact ⟨_, _, _, pack, h1, h4, (h6 _ _).2 ⟨_, (hl _).2 rfl, new_metaOf demoExt (.tag, ascii "loose") rfl, rfl⟩⟩

/-- Example for `C93_stray_false`: the temporary file of an interrupted write beside a loose object. -/
example (X : Ext) (f g : Bytes) : packLooseFromDir X [] []
    [(ascii "d6", .dir [(ascii "70460b4b4aece5915caf5c68d12f560a9fe3e4", some f), (ascii "tmp_obj_4Xo2", some g)])] = .panic :=
  C93_stray_false X [] [] _ (ascii "d6") (ascii "tmp_obj_4Xo2") _ (some g) (List.mem_singleton.2 rfl) rfl (by simp) (by decide)

/-- Example for C94: the loose object is added to the one pack of the directory. -/
example : ∃ (n : Nat) (out : Bytes) (name : Bytes) (sig : Hash) (pack : Pack),
    repack demoExt (ascii "objects") (ascii "new") (oneLoose ++ [(ascii "pack", .dir [(ascii "pack-1.pack", some foreignPack),
      (ascii "pack-1.idx", some [])])]) = .ok ((n, sig), name, out) ∧ decodePack demoExt (fun _ => none) 1 out = .ok pack ∧
    pack.result.hashObject (idOf demoExt (.tag, ascii "loose")) = some (metaOf demoExt (.tag, ascii "loose")) ∧
    pack.result.hashObject (idOf demoExt (.blob, ascii "ellp!")) = some (metaOf demoExt (.blob, ascii "ellp!")) := by
  obtain ⟨ht, hl⟩ := tidy_snoc oneLoose_tidy.1 (k := ascii "pack")
    (e := .dir [(ascii "pack-1.pack", some foreignPack), (ascii "pack-1.idx", some [])])
    (by decide +kernel) (by decide) (by decide) (by intro es e; rw [← DirEntry.dir.inj e]; decide)
  have hl' := fun o => (hl o).trans (oneLoose_tidy.2 o)
  obtain ⟨n, body, pack, h1, h2, _, h4⟩ := C94_repack_partial (X := demoExt) (St := fun _ => none) (known := fun _ => none)
    (fun _ _ _ e => by cases e) ht ⟨_, (hl' _).2 rfl⟩ (name := ascii "pack-1.pack") (old := foreignPack)
    (List.mem_append_right _ (List.mem_singleton.2 rfl)) (by decide +kernel) (by simp) (by decide) (by decide +kernel) foreignPack_file
    foreignPack_resolves (by decide) foreignPack_ids
    (by
      intro p hp o ho
      rw [(hl' o).1 ho]
      revert p
      decide +kernel)
    (by
      intro ls hn hls
      rcases nodup_one hn (fun x hx => (hl' x).1 (hls x hx)) with rfl | rfl
      · exact ⟨by decide, by decide +kernel⟩
      · exact ⟨by decide, by decide +kernel⟩)
    (ascii "objects") (ascii "new") 0
  exact ⟨n, _, _, _, pack, h1, h2, (h4 _ _).2 (Or.inr ⟨_, (hl' _).2 rfl, new_metaOf demoExt (.tag, ascii "loose") rfl, rfl⟩),
    (h4 _ _).2 (Or.inl ⟨(24, (.blob, ascii "ellp!")), by simp, new_metaOf demoExt (.blob, ascii "ellp!") rfl, rfl⟩)⟩

/-! ## C95: decoding all packs of a directory -/

/-- The file is a well-formed pack whose deltas have their bases in the pack itself, and these are its objects. -/
def Spec.SelfPack (X : Ext) (file : Bytes) (os : List (Nat × Spec.Obj)) : Prop :=
  ∃ es trailer, Spec.PackFile X.inflate file es trailer ∧ Spec.Resolves (idOf X) (fun _ => none) [] es os ∧ (∀ p ∈ es, p.1 < 2 ^ 32) ∧
    ∀ p ∈ os, p.2.2.length < 2 ^ 63

theorem resolves_none {idf : Spec.Obj → Hash} {earlier : List (Nat × Spec.Obj)} {es : List (Nat × Spec.Entry)} {os : List (Nat × Spec.Obj)}
    (h : Spec.Resolves idf (fun _ => none) earlier es os) (known : Hash → Option Spec.Obj) : Spec.Resolves idf known earlier es os := by
  induction h with
  | nil => exact .nil _
  | cons earlier off e es o os hd _ ih =>
    refine .cons _ _ _ _ _ _ ?_ ih
    cases hd with
    | whole k t d h => exact .whole k t d h
    | ofs dist baseOff delta base out t h1 h2 h3 => exact .ofs dist baseOff delta base out t h1 h2 h3
    | refIn h baseOff delta base out t h1 h2 h3 => exact .refIn h baseOff delta base out t h1 h2 h3
    | refOut h delta base out t h1 h2 h3 => cases h2

/-- Packs that stand on their own can be read in any order. -/
theorem packs_self {X : Ext} {objs : Bytes → List (Nat × Spec.Obj)} (known : Hash → Option Spec.Obj) : ∀ {files : List Bytes},
    (∀ f ∈ files, Spec.SelfPack X f (objs f)) → ∀ prior, Spec.Packs X.inflate (idOf X) known prior files (files.flatMap objs)
  | [], _, prior => .nil prior
  | f :: files, h, prior => by
    obtain ⟨es, trailer, h1, h2, h3, _⟩ := h f (by simp)
    rw [List.flatMap_cons]
    exact .cons prior f files es trailer _ _ h1 (resolves_none h2 _) h3 (packs_self known (fun f hf => h f (by simp [hf])) _)

theorem strSlice_name (h : Hash) : strSlice (ascii "pack-" ++ Hash.toPlainStr h ++ ascii ".pack") 5 45 = .ok (Hash.toPlainStr h) := by
  have hl := Hash.toPlainStr_length h
  have ha : ∀ c ∈ ascii "pack-" ++ Hash.toPlainStr h ++ ascii ".pack", c.toNat < 128 := by
    intro c hc
    rcases List.mem_append.1 hc with hc | hc
    · rcases List.mem_append.1 hc with hc | hc
      · exact (by decide : ∀ c ∈ ascii "pack-", c.toNat < 128) c hc
      · exact hex_ascii h c hc
    · exact (by decide : ∀ c ∈ ascii ".pack", c.toNat < 128) c hc
  have h5 : (ascii "pack-").length = 5 := rfl
  rw [strSlice, if_pos ⟨by omega, by simp only [List.length_append, hl, h5]; omega, boundary_ascii ha _, boundary_ascii ha _⟩]
  have e1 : (ascii "pack-" ++ Hash.toPlainStr h ++ ascii ".pack").take 45 = ascii "pack-" ++ Hash.toPlainStr h :=
    List.take_left' (by rw [List.length_append, hl, h5])
  rw [e1, List.drop_left' h5]

/-- The packs of a directory in which they have the names git gives them. -/
theorem allPacks_tidy : ∀ {es : List (Bytes × Option Bytes)}, (∀ p ∈ es, (∀ c ∈ p.1, c.toNat < 128) ∧ 4 ≤ p.1.length) →
    (∀ p ∈ es, ascii "pack" <:+ p.1 → ∃ h, p.1 = ascii "pack-" ++ Hash.toPlainStr h ++ ascii ".pack") →
    ∃ found, allPacks es = .ok found ∧ ∀ c, c ∈ found.map Prod.fst ↔ ∃ p ∈ es, ascii "pack" <:+ p.1 ∧ p.2 = c
  | [], _, _ => ⟨[], rfl, fun c => by simp⟩
  | (b, c) :: es, hn, hp => by
    obtain ⟨found, h1, h2⟩ := allPacks_tidy (es := es) (fun p h => hn p (by simp [h])) (fun p h => hp p (by simp [h]))
    obtain ⟨ha, h4⟩ := hn (b, c) (by simp)
    have hv : utf8Valid b = true := utf8Valid_ascii b ha
    simp only [allPacks, hv, Bool.not_true, Bool.false_eq_true, if_false, isPackName_ascii ha h4, Res.bind_ok, decide_eq_true_eq]
    by_cases hs : ascii "pack" <:+ b
    · obtain ⟨h, hb⟩ := hp (b, c) (by simp) hs
      simp only at hb
      rw [if_pos hs, hb, strSlice_name]
      refine ⟨(c, h) :: found, by simp only [Res.bind_ok, Hash.fromStr, Hash.fromBytes_toPlainStr, Res.okOr_some, Res.unwrap_ok, h1, Res.pure_eq], ?_⟩
      intro c'
      rw [List.map_cons, List.mem_cons, h2]
      constructor
      · rintro (rfl | ⟨p, hp, r⟩)
        · exact ⟨(ascii "pack-" ++ Hash.toPlainStr h ++ ascii ".pack", c'), by simp, hb ▸ hs, rfl⟩
        · exact ⟨p, by simp [hp], r⟩
      · rintro ⟨p, hp, r⟩
        rcases List.mem_cons.1 hp with rfl | hp
        · exact Or.inl r.2.symm
        · exact Or.inr ⟨p, hp, r⟩
    · rw [if_neg hs]
      refine ⟨found, h1, fun c' => ?_⟩
      rw [h2]
      constructor
      · rintro ⟨p, hp, r⟩
        exact ⟨p, by simp [hp], r⟩
      · rintro ⟨p, hp, r⟩
        rcases List.mem_cons.1 hp with rfl | hp
        · exact absurd r.1 hs
        · exact ⟨p, hp, r⟩

theorem openAll_some : ∀ {cs : List (Option Bytes)}, (∀ c ∈ cs, c.isSome = true) → ∃ fs, openAll cs = .ok fs ∧ ∀ f, f ∈ fs ↔ some f ∈ cs
  | [], _ => ⟨[], rfl, fun f => by simp⟩
  | none :: cs, h => absurd (h none (by simp)) (by simp)
  | some b :: cs, h => by
    obtain ⟨fs, h1, h2⟩ := openAll_some (cs := cs) (fun c hc => h c (by simp [hc]))
    refine ⟨b :: fs, by simp only [openAll, Res.unwrapOpt_some, Res.bind_ok, h1, Res.pure_eq], fun f => ?_⟩
    rw [List.mem_cons, List.mem_cons, h2, Option.some.injEq]

/-- **C95** Decoding all packs of a directory (whose packs have the names git gives them and stand on their own, beside any other files)
makes exactly the objects of all its packs available by id, whatever the order of listing and the times of creation. `hcol` excludes
SHA-1 collisions. Missing from the full claim: packs with other names (`C95_name_false`), and packs with deltas against objects of other
packs, for which the order matters (`C39_objects_available_partial`). -/
theorem C95_all_packs_partial {X : Ext} {es : List (Bytes × Option Bytes)} {objs : Bytes → List (Nat × Spec.Obj)}
    (hnames : ∀ p ∈ es, (∀ c ∈ p.1, c.toNat < 128) ∧ 4 ≤ p.1.length)
    (hpacks : ∀ p ∈ es, ascii "pack" <:+ p.1 → ∃ h f, p = (ascii "pack-" ++ Hash.toPlainStr h ++ ascii ".pack", some f) ∧
      Spec.SelfPack X f (objs f))
    (hcol : ∀ p ∈ es, ∀ p' ∈ es, ∀ f f', p.2 = some f → p'.2 = some f' → ascii "pack" <:+ p.1 → ascii "pack" <:+ p'.1 →
      ∀ a ∈ objs f, ∀ b ∈ objs f', idOf X a.2 = idOf X b.2 → a.2 = b.2)
    (St : ObjectSource) (byTime : List (Option Bytes × Hash) → List (Option Bytes × Hash)) (htime : ∀ l, (byTime l).Perm l) (fuel : Nat) :
    ∃ P, decodeAllPacks X St (fuel + 1) byTime es = .ok P ∧
      ∀ h m, P.result.hashObject h = some m ↔ ∃ p ∈ es, ascii "pack" <:+ p.1 ∧ ∃ f, p.2 = some f ∧
        ∃ q ∈ objs f, MetaData.new X q.2.1 q.2.2 = .ok m ∧ m.id = h := by
  obtain ⟨found, h1, h2⟩ := allPacks_tidy hnames (fun p hp hs => by obtain ⟨h, f, e, _⟩ := hpacks p hp hs; exact ⟨h, by rw [e]⟩)
  have h2' : ∀ c, c ∈ (byTime found).map Prod.fst ↔ ∃ p ∈ es, ascii "pack" <:+ p.1 ∧ p.2 = c := by
    intro c
    rw [← h2]
    exact ((htime found).map Prod.fst).mem_iff
  obtain ⟨fs, h3, h4⟩ := openAll_some (cs := (byTime found).map Prod.fst) (by
    intro c hc
    obtain ⟨p, hp, hs, rfl⟩ := (h2' c).1 hc
    obtain ⟨h, f, e, _⟩ := hpacks p hp hs
    rw [e]
    rfl)
  have hf : ∀ f, f ∈ fs ↔ ∃ p ∈ es, ascii "pack" <:+ p.1 ∧ p.2 = some f := fun f => (h4 f).trans (h2' _)
  have hself : ∀ f ∈ fs, Spec.SelfPack X f (objs f) := by
    intro f hfm
    obtain ⟨p, hp, hs, e⟩ := (hf f).1 hfm
    obtain ⟨h, f', e', hsf⟩ := hpacks p hp hs
    rw [e'] at e
    rw [← Option.some.inj e]
    exact hsf
  obtain ⟨P, g1, _, _, g4⟩ := C39_objects_available_partial (X := X) (St := St) (known := fun _ => none) (fun _ _ _ e => by cases e)
    (packs_self (fun _ => none) hself [])
    (by
      intro a ha b hb e
      obtain ⟨f, hfm, ha⟩ := List.mem_flatMap.1 ha
      obtain ⟨f', hfm', hb⟩ := List.mem_flatMap.1 hb
      obtain ⟨p, hp, hs, e1⟩ := (hf f).1 hfm
      obtain ⟨p', hp', hs', e1'⟩ := (hf f').1 hfm'
      exact hcol p hp p' hp' f f' e1 e1' hs hs' a ha b hb e)
    (by
      intro q hq
      obtain ⟨f, hfm, hq⟩ := List.mem_flatMap.1 hq
      obtain ⟨_, _, _, _, _, hc⟩ := hself f hfm
      exact hc q hq)
    fuel
  refine ⟨P, by simp only [decodeAllPacks, h1, Res.bind_ok, h3, g1], ?_⟩
  intro h m
  rw [g4]
  constructor
  · rintro ⟨q, hq, r⟩
    obtain ⟨f, hfm, hq⟩ := List.mem_flatMap.1 hq
    obtain ⟨p, hp, hs, e⟩ := (hf f).1 hfm
    exact ⟨p, hp, hs, f, e, q, hq, r⟩
  · rintro ⟨p, hp, hs, f, e, q, hq, r⟩
    exact ⟨q, List.mem_flatMap.2 ⟨f, (hf f).2 ⟨p, hp, hs, e⟩, hq⟩, r⟩

theorem allPacks_cases : ∀ es : List (Bytes × Option Bytes),
    (∃ found, allPacks es = .ok found ∧ ∀ p ∈ es, ascii "pack" <:+ p.1 → ∃ h, Hash.fromStr ((p.1.take 45).drop 5) = .ok h) ∨
      allPacks es = .panic
  | [] => Or.inl ⟨[], rfl, by intro p h; cases h⟩
  | (b, c) :: es => by
    have ih := allPacks_cases es
    unfold allPacks
    split
    · exact Or.inr rfl
    · rcases isPackName_cases b with e | e <;> rw [e]
      · exact Or.inr rfl
      · simp only [Res.bind_ok, decide_eq_true_eq]
        by_cases hs : ascii "pack" <:+ b
        · rw [if_pos hs, strSlice]
          split
          · cases hf : Hash.fromStr ((b.take 45).drop 5) with
            | ok h =>
              rcases ih with ⟨found, h1, h2⟩ | h1
              · refine Or.inl ⟨(c, h) :: found, by simp only [Res.bind_ok, hf, Res.unwrap_ok, h1, Res.pure_eq], ?_⟩
                intro p hp hs'
                rcases List.mem_cons.1 hp with rfl | hp
                · exact ⟨h, hf⟩
                · exact h2 p hp hs'
              · right
                simp only [Res.bind_ok, hf, Res.unwrap_ok, h1]
                rfl
            | err x => right; simp only [Res.bind_ok, hf]; rfl
            | panic => right; simp only [Res.bind_ok, hf]; rfl
            | spin =>
              unfold Hash.fromStr at hf
              cases h : Hash.fromBytes ((b.take 45).drop 5) <;> rw [h] at hf <;> cases hf
          · exact Or.inr rfl
        · rw [if_neg hs]
          rcases ih with ⟨found, h1, h2⟩ | h1
          · refine Or.inl ⟨found, h1, ?_⟩
            intro p hp hs'
            rcases List.mem_cons.1 hp with rfl | hp
            · exact absurd hs' hs
            · exact h2 p hp hs'
          · exact Or.inr h1

/-- **C95 is false** when a pack has another name (as `git pack-objects` gives it on request, or after renaming): the program panics, and
no pack of the directory can be read, whatever the others are. -/
theorem C95_name_false (X : Ext) (St : ObjectSource) (fuel : Nat) (byTime : List (Option Bytes × Hash) → List (Option Bytes × Hash))
    (es : List (Bytes × Option Bytes)) (name : Bytes) (c : Option Bytes) (hin : (name, c) ∈ es) (hs : ascii ".pack" <:+ name)
    (hname : ¬ (((name.take 45).drop 5).length = 40 ∧ ∀ x ∈ (name.take 45).drop 5, Spec.IsHexDigit x)) :
    decodeAllPacks X St fuel byTime es = .panic := by
  rcases allPacks_cases es with ⟨found, _, h⟩ | h
  · have hs' : ascii "pack" <:+ name := List.IsSuffix.trans (by decide) hs
    exact absurd ((C04_hash_accepts_iff _).1.1 (h (name, c) hin hs')) hname
  · simp only [decodeAllPacks, h]
    rfl

def demoPackA : List (Nat × Spec.Obj) := [(12, (.blob, ascii "hello")), (24, (.blob, ascii "ellp!"))]
def demoPackB : List (Nat × Spec.Obj) := [(12, (.tag, ascii "hi")), (18, (.tag, ascii "hi!"))]

/-- Example for C95: both packs are decoded from a directory that also has an index file, listed between them. -/
example : ∃ P, decodeAllPacks demoExt (fun _ => none) 1 List.reverse
      [(ascii "pack-" ++ Hash.toPlainStr Hash.zero ++ ascii ".pack", some foreignPack), (ascii "pack-x.idx", some []),
        (ascii "pack-" ++ Hash.toPlainStr ⟨List.replicate 20 1, rfl⟩ ++ ascii ".pack", some secondPack)] = .ok P ∧
    P.result.hashObject (idOf demoExt (.blob, ascii "hello")) = some (metaOf demoExt (.blob, ascii "hello")) ∧
    P.result.hashObject (idOf demoExt (.tag, ascii "hi!")) = some (metaOf demoExt (.tag, ascii "hi!")) := by
  have o1 : (if foreignPack = foreignPack then demoPackA else demoPackB) = demoPackA := if_pos rfl
  have o2 : (if secondPack = foreignPack then demoPackA else demoPackB) = demoPackB := if_neg (by decide +kernel)
  have s1 : Spec.SelfPack demoExt foreignPack demoPackA := ⟨_, _, foreignPack_file, foreignPack_resolves, by decide, by decide⟩
  have s2 : Spec.SelfPack demoExt secondPack demoPackB := ⟨_, _, secondPack_file, secondPack_resolves [], by decide, by decide⟩
  have hn : ¬ ascii "pack" <:+ ascii "pack-x.idx" := by decide
  obtain ⟨P, h1, h2⟩ := C95_all_packs_partial (X := demoExt)
    (es := [(ascii "pack-" ++ Hash.toPlainStr Hash.zero ++ ascii ".pack", some foreignPack), (ascii "pack-x.idx", some []),
        (ascii "pack-" ++ Hash.toPlainStr ⟨List.replicate 20 1, rfl⟩ ++ ascii ".pack", some secondPack)])
    (objs := fun f => if f = foreignPack then demoPackA else demoPackB)
    (by decide +kernel)
    (by
      intro p hp hs
      simp only [List.mem_cons, List.not_mem_nil, or_false] at hp
      rcases hp with rfl | rfl | rfl
      · exact ⟨_, _, rfl, by simp only [o1]; exact s1⟩
      · exact absurd hs hn
      · exact ⟨_, _, rfl, by simp only [o2]; exact s2⟩)
    (by
      intro p hp p' hp' f f' e e' hs hs' a ha b hb
      have hall : ∀ a ∈ demoPackA ++ demoPackB, ∀ b ∈ demoPackA ++ demoPackB, idOf demoExt a.2 = idOf demoExt b.2 → a.2 = b.2 := by
        decide +kernel
      have hsub : ∀ (f : Bytes) a, a ∈ (if f = foreignPack then demoPackA else demoPackB) → a ∈ demoPackA ++ demoPackB := by
        intro f a ha
        split at ha
        · exact List.mem_append_left _ ha
        · exact List.mem_append_right _ ha
      exact hall a (hsub f a ha) b (hsub f' b hb))
    (fun _ => none) List.reverse (fun l => List.reverse_perm l) 0
  refine ⟨P, h1, (h2 _ _).2 ⟨(ascii "pack-" ++ Hash.toPlainStr Hash.zero ++ ascii ".pack", some foreignPack), by simp, ?_, foreignPack, rfl, (12, (.blob, ascii "hello")), ?_, new_metaOf demoExt _ rfl, rfl⟩,
    (h2 _ _).2 ⟨(ascii "pack-" ++ Hash.toPlainStr ⟨List.replicate 20 1, rfl⟩ ++ ascii ".pack", some secondPack), by simp, ?_, secondPack, rfl,
      (18, (.tag, ascii "hi!")), ?_, new_metaOf demoExt _ rfl, rfl⟩⟩
  · exact List.IsSuffix.trans (by decide) (List.suffix_append _ (ascii ".pack"))
  · simp only [o1]
    simp [demoPackA]
  · exact List.IsSuffix.trans (by decide) (List.suffix_append _ (ascii ".pack"))
  · simp only [o2]
    simp [demoPackB]

/-- Example for `C95_name_false`: a directory with a well-formed pack and a pack named `old.pack`. -/
example (X : Ext) (St : ObjectSource) (fuel : Nat) (f g : Bytes) : decodeAllPacks X St fuel id
    [(ascii "pack-" ++ Hash.toPlainStr Hash.zero ++ ascii ".pack", some f), (ascii "old.pack", some g)] = .panic :=
  C95_name_false X St fuel id _ (ascii "old.pack") (some g) (by simp) (by decide) (by decide)

end Gust

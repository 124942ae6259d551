import Verif.Base.Tactics
import Verif.Lemmas.Pack
import Verif.Lemmas.LfsStore
import Verif.Model.ObjectDir

/-! # Lemmas on object directories -/

namespace Gust

/-- The uncompressed text of a loose object. -/
def Spec.looseText (o : Spec.Obj) : Bytes := o.1.toBytes ++ [0x20] ++ decStr o.2.length ++ [0] ++ o.2

/-- The directory entry `p` inside `a` is a file holding the object: named by its id, compressed in any way. -/
structure Spec.LooseFile (X : Ext) (a : Bytes) (p : Bytes × Option Bytes) (o : Spec.Obj) : Prop where
  base : o.1.isBase = true
  size : o.2.length < 2 ^ 61
  name : a ++ p.1 = Hash.toPlainStr (idOf X o)
  content : ∃ z rest, p.2 = some z ∧ X.inflate z = some (Spec.looseText o, rest)

/-- The directory has the object as a loose object. -/
def Spec.HasLoose (X : Ext) (d : ObjDir) (o : Spec.Obj) : Prop :=
  ∃ a es p, (a, DirEntry.dir es) ∈ d ∧ a.length = 2 ∧ p ∈ es ∧ Spec.LooseFile X a p o

/-- An object directory as git leaves it: names are distinct and text; what lies in directories with names of two characters are loose
objects. Anything may be outside of those. -/
structure Spec.Tidy (X : Ext) (d : ObjDir) : Prop where
  names : (d.map Prod.fst).Nodup
  inner : ∀ a es, (a, DirEntry.dir es) ∈ d → (es.map Prod.fst).Nodup
  text : ∀ e ∈ d, utf8Valid e.1 = true
  objects : ∀ a es p, (a, DirEntry.dir es) ∈ d → a.length = 2 → p ∈ es → ∃ o, Spec.LooseFile X a p o

namespace ObjDir

theorem hex_ascii (h : Hash) : ∀ c ∈ Hash.toPlainStr h, c.toNat < 128 := by
  intro c hc
  have := Hash.toPlainStr_range h c hc
  omega

theorem hex_noslash (h : Hash) : (0x2f : UInt8) ∉ Hash.toPlainStr h := by
  intro hc
  have := Hash.toPlainStr_range h _ hc
  revert this
  decide

theorem folder_filename (h : Hash) : Hash.toFolder h ++ Hash.toFilename h = Hash.toPlainStr h := by
  rw [Hash.toFolder, Hash.toFilename, List.take_append_drop]

theorem folder_of {h : Hash} {a b : Bytes} (e : a ++ b = Hash.toPlainStr h) (hl : a.length = 2) :
    Hash.toFolder h = a ∧ Hash.toFilename h = b := by
  rw [Hash.toFolder, Hash.toFilename, ← e, ← hl]
  exact ⟨List.take_left, List.drop_left⟩

theorem looseText_inj {o o' : Spec.Obj} (hb : o.1.isBase = true) (hb' : o'.1.isBase = true)
    (h : Spec.looseText o = Spec.looseText o') : o = o' := by
  obtain ⟨h1, _, h3⟩ := header_split (toBytes_nospace o.1).1 (toBytes_nospace o'.1).1
    (zero_notin_decStr _) (zero_notin_decStr _) h
  exact Prod.ext (toBytes_inj hb h1) h3

/-- What the listing of one two-character directory gives. -/
theorem looseNames_tidy {X : Ext} {a : Bytes} : ∀ {es : List (Bytes × Option Bytes)}, (∀ p ∈ es, ∃ o, Spec.LooseFile X a p o) →
    ∃ os : List Spec.Obj, looseNames a es = .ok (os.map (fun o => Hash.toPlainStr (idOf X o))) ∧
      os.map (fun o => Hash.toPlainStr (idOf X o)) = es.map (fun p => a ++ p.1) ∧
      (∀ o ∈ os, ∃ p ∈ es, Spec.LooseFile X a p o) ∧ ∀ p ∈ es, ∃ o ∈ os, Spec.LooseFile X a p o
  | [], _ => ⟨[], rfl, rfl, (by intro o h; cases h), (by intro o h; cases h)⟩
  | (b, c) :: es, h => by
    obtain ⟨os, h1, h2, h3, h4⟩ := looseNames_tidy (es := es) (fun p hp => h p (by simp [hp]))
    obtain ⟨o, ho⟩ := h (b, c) (by simp)
    have hu : utf8Valid b = true := utf8Valid_ascii b (fun x hx => hex_ascii (idOf X o) x (by rw [← ho.name]; simp [hx]))
    refine ⟨o :: os, ?_, ?_, ?_, ?_⟩
    · have e := ho.name
      simp only at e
      simp only [looseNames, hu, Bool.not_true, Bool.false_eq_true, if_false, e, Hash.fromStr, Hash.fromBytes_toPlainStr, Res.okOr_some,
        Res.unwrap_ok, Res.bind_ok, h1, Res.pure_eq, List.map_cons]
    · rw [List.map_cons, List.map_cons, h2, ho.name]
    · intro o' ho'
      rcases List.mem_cons.1 ho' with rfl | ho'
      · exact ⟨(b, c), by simp, ho⟩
      · obtain ⟨p, hp, hl⟩ := h3 o' ho'
        exact ⟨p, by simp [hp], hl⟩
    · intro p hp
      rcases List.mem_cons.1 hp with rfl | hp
      · exact ⟨o, by simp, ho⟩
      · obtain ⟨o', ho', hl⟩ := h4 p hp
        exact ⟨o', by simp [ho'], hl⟩

theorem tidy_tail {X : Ext} {e : Bytes × DirEntry} {d : ObjDir} (h : Spec.Tidy X (e :: d)) : Spec.Tidy X d :=
  ⟨(List.nodup_cons.1 h.names).2, fun a es hm => h.inner a es (by simp [hm]), fun e he => h.text e (by simp [he]),
    fun a es p hm => h.objects a es p (by simp [hm])⟩

/-- What the listing of the whole directory gives: every loose object once. -/
theorem findAllLoose_tidy {X : Ext} : ∀ {d : ObjDir}, Spec.Tidy X d →
    ∃ os : List Spec.Obj, findAllLoose d = .ok (os.map (fun o => Hash.toPlainStr (idOf X o))) ∧
      (os.map (fun o => Hash.toPlainStr (idOf X o))).Nodup ∧
      (∀ o ∈ os, Spec.HasLoose X d o) ∧
      ∀ a es p, (a, DirEntry.dir es) ∈ d → a.length = 2 → p ∈ es → ∃ o ∈ os, Spec.LooseFile X a p o
  | [], _ => ⟨[], rfl, List.nodup_nil, (by intro o h; cases h), (by intro a es p h; cases h)⟩
  | (a, e) :: d, h => by
    obtain ⟨os, h1, h2, h3, h4⟩ := findAllLoose_tidy (tidy_tail h)
    have hu := h.text (a, e) (by simp)
    have up : ∀ o, Spec.HasLoose X d o → Spec.HasLoose X ((a, e) :: d) o := by
      rintro o ⟨a', es, p, hm, r⟩
      exact ⟨a', es, p, by simp [hm], r⟩
    simp only at hu
    by_cases hd : ∃ es, e = .dir es ∧ a.length = 2
    · obtain ⟨es, rfl, hl⟩ := hd
      obtain ⟨os', g1, g2, g3, g4⟩ := looseNames_tidy (X := X) (a := a) (es := es) (fun p hp => h.objects a es p (by simp) hl hp)
      refine ⟨os' ++ os, ?_, ?_, ?_, ?_⟩
      · simp only [findAllLoose, hu, Bool.not_true, Bool.false_eq_true, if_false, hl, if_true, g1, h1, Res.bind_ok, Res.pure_eq,
          List.map_append]
      · rw [List.map_append]
        refine List.nodup_append.2 ⟨?_, h2, ?_⟩
        · rw [g2]
          have : (es.map (fun p => a ++ p.1)) = (es.map Prod.fst).map (fun b => a ++ b) := by rw [List.map_map]; rfl
          rw [this]
          exact List.Nodup.map (fun _ _ e => List.append_cancel_left e) (h.inner a es (by simp))
        · intro x hx y hy hxy
          subst hxy
          rw [g2] at hx
          obtain ⟨p, _, rfl⟩ := List.mem_map.1 hx
          obtain ⟨o, ho, hoe⟩ := List.mem_map.1 hy
          obtain ⟨a', es', p', hm, hl', _, hf⟩ := h3 o ho
          have e1 : a' ++ p'.1 = a ++ p.1 := hf.name.trans hoe
          have e2 : a' = a := by
            have := congrArg (List.take 2) e1
            rwa [← hl', List.take_left, hl', ← hl, List.take_left] at this
          subst e2
          exact (List.nodup_cons.1 h.names).1 (List.mem_map.2 ⟨_, hm, rfl⟩)
      · intro o ho
        rcases List.mem_append.1 ho with ho | ho
        · obtain ⟨p, hp, hf⟩ := g3 o ho
          exact ⟨a, es, p, by simp, hl, hp, hf⟩
        · exact up o (h3 o ho)
      · intro a' es' p hm hl' hp
        rcases List.mem_cons.1 hm with e | hm
        · obtain ⟨rfl, e'⟩ := Prod.mk.inj e
          obtain rfl := DirEntry.dir.inj e'
          obtain ⟨o, ho, hf⟩ := g4 p hp
          exact ⟨o, by simp [ho], hf⟩
        · obtain ⟨o, ho, hf⟩ := h4 a' es' p hm hl' hp
          exact ⟨o, by simp [ho], hf⟩
    · refine ⟨os, ?_, h2, fun o ho => up o (h3 o ho), ?_⟩
      · cases e with
        | file c => simp only [findAllLoose, hu, Bool.not_true, Bool.false_eq_true, if_false, h1]
        | dir es =>
          have hn : ¬ a.length = 2 := fun hl => hd ⟨es, rfl, hl⟩
          simp only [findAllLoose, hu, Bool.not_true, Bool.false_eq_true, if_false, hn, h1]
      · intro a' es' p hm hl' hp
        rcases List.mem_cons.1 hm with e | hm
        · obtain ⟨rfl, e'⟩ := Prod.mk.inj e
          exact absurd ⟨es', e'.symm, hl'⟩ hd
        · exact h4 a' es' p hm hl' hp

theorem find_key {α : Type} {l : List (Bytes × α)} (hn : (l.map Prod.fst).Nodup) {k : Bytes} {v : α} (h : (k, v) ∈ l) :
    l.find? (fun e => e.1 == k) = some (k, v) := by
  induction l with
  | nil => cases h
  | cons e l ih =>
    obtain ⟨h1, h2⟩ := List.nodup_cons.1 hn
    rcases List.mem_cons.1 h with rfl | h
    · simp
    · have : ¬ e.1 = k := by
        rintro rfl
        exact h1 (List.mem_map.2 ⟨_, h, rfl⟩)
      rw [List.find?_cons_of_neg (by simpa using this)]
      exact ih h2 h

theorem read_mem {d : ObjDir} (hn : (d.map Prod.fst).Nodup) {a : Bytes} {es : List (Bytes × Option Bytes)}
    (hm : (a, DirEntry.dir es) ∈ d) (hi : (es.map Prod.fst).Nodup) {p : Bytes × Option Bytes} (hp : p ∈ es) :
    d.read a p.1 = p.2 := by
  obtain ⟨b, c⟩ := p
  rw [read, find_key hn hm]
  simp only [find_key hi hp]

theorem fs_path (root : Bytes) (d : ObjDir) (a b : Bytes) (ha : (0x2f : UInt8) ∉ a) (hb : (0x2f : UInt8) ∉ b) :
    d.fs root (root ++ [0x2f] ++ a ++ [0x2f] ++ b) = d.read a b := by
  have h1 : (root ++ [0x2f]).isPrefixOf (root ++ [0x2f] ++ a ++ [0x2f] ++ b) = true := by
    rw [List.isPrefixOf_iff_prefix]
    exact ⟨a ++ [0x2f] ++ b, by simp⟩
  have h2 : (root ++ [0x2f] ++ a ++ [0x2f] ++ b).drop (root.length + 1) = a ++ 0x2f :: b := by
    have e : root ++ [0x2f] ++ a ++ [0x2f] ++ b = (root ++ [0x2f]) ++ (a ++ 0x2f :: b) := by simp
    rw [e]
    exact List.drop_left' (by simp)
  rw [fs, if_pos h1, h2, splitOn_append _ _ _ ha, splitOn_single _ _ hb]

/-- Reading the loose objects of a tidy directory. -/
theorem readLoose_tidy {X : Ext} {d : ObjDir} (ht : Spec.Tidy X d) (root : Bytes) : ∀ {os : List Spec.Obj},
    (∀ o ∈ os, Spec.HasLoose X d o) →
    readLoose X (d.fs root) root (os.map (fun o => Hash.toPlainStr (idOf X o))) = .ok (os.map (metaOf X))
  | [], _ => rfl
  | o :: os, h => by
    have ih := readLoose_tidy ht root (os := os) (fun o ho => h o (by simp [ho]))
    obtain ⟨a, es, p, hm, hl, hp, hf⟩ := h o (by simp)
    obtain ⟨z, rest, hz, hi⟩ := hf.content
    obtain ⟨e1, e2⟩ := folder_of hf.name hl
    have hsl := hex_noslash (idOf X o)
    rw [← hf.name, List.mem_append, not_or] at hsl
    have hread : MetaData.readObjectFromFile X (d.fs root)
        (root ++ [0x2f] ++ Hash.toFolder (idOf X o) ++ [0x2f] ++ Hash.toFilename (idOf X o)) = .ok (metaOf X o) := by
      rw [MetaData.readObjectFromFile, e1, e2, fs_path root d a p.1 hsl.1 hsl.2, read_mem ht.names hm (ht.inner a es hm) hp, hz]
      simp only [Res.unwrapOpt_some, Res.bind_ok, hi, Spec.looseText]
      rw [parseLoose_looseBytes X o.1 o.2 hf.base (by have := hf.size; unfold U64; omega)]
      exact new_metaOf X o hf.base
    simp only [List.map_cons, readLoose, Hash.fromStr, Hash.fromBytes_toPlainStr, Res.okOr_some, Res.unwrap_ok, Res.bind_ok,
      hread, ih, Res.pure_eq]

theorem looseFile_unique {X : Ext} {a : Bytes} {p : Bytes × Option Bytes} {o o' : Spec.Obj} (h : Spec.LooseFile X a p o)
    (h' : Spec.LooseFile X a p o') : o = o' := by
  obtain ⟨z, r, hz, hi⟩ := h.content
  obtain ⟨z', r', hz', hi'⟩ := h'.content
  rw [hz] at hz'
  obtain rfl := Option.some.inj hz'
  rw [hi] at hi'
  exact looseText_inj h.base h'.base (Prod.mk.inj (Option.some.inj hi')).1

/-- The loose objects of a tidy directory, listed. -/
theorem tidy_list {X : Ext} {d : ObjDir} (ht : Spec.Tidy X d) :
    ∃ os : List Spec.Obj, findAllLoose d = .ok (os.map (fun o => Hash.toPlainStr (idOf X o))) ∧ os.Nodup ∧
      (∀ a ∈ os, ∀ b ∈ os, idOf X a = idOf X b → a = b) ∧ ∀ o, o ∈ os ↔ Spec.HasLoose X d o := by
  obtain ⟨os, h1, h2, h3, h4⟩ := findAllLoose_tidy ht
  refine ⟨os, h1, List.Nodup.of_map _ h2, ?_, fun o => ⟨h3 o, ?_⟩⟩
  · intro a ha b hb e
    exact List.inj_on_of_nodup_map h2 ha hb (by simp only [e])
  · rintro ⟨a, es, p, hm, hl, hp, hf⟩
    obtain ⟨o', ho', hf'⟩ := h4 a es p hm hl hp
    rwa [looseFile_unique hf hf']

/-! ## Writing -/

theorem find_none {α : Type} {l : List (Bytes × α)} {k : Bytes} (h : l.find? (fun e => e.1 == k) = none) (v : α) : (k, v) ∉ l := by
  intro hm
  have := List.find?_eq_none.1 h _ hm
  simp at this

theorem find_some {α : Type} {l : List (Bytes × α)} {k k' : Bytes} {v : α} (h : l.find? (fun e => e.1 == k) = some (k', v)) :
    k' = k ∧ (k, v) ∈ l := by
  have h1 : k' = k := by simpa using List.find?_some h
  have h2 := List.mem_of_find?_eq_some h
  rw [h1] at h2
  exact ⟨h1, h2⟩

theorem key_unique {α : Type} {l : List (Bytes × α)} (hn : (l.map Prod.fst).Nodup) {k : Bytes} {v w : α} (h : (k, v) ∈ l)
    (h' : (k, w) ∈ l) : v = w := by
  have e := find_key hn h
  rw [find_key hn h'] at e
  exact (Prod.mk.inj (Option.some.inj e)).2.symm

/-- Replacing the value of a key. -/
theorem mem_setKey {α : Type} {l : List (Bytes × α)} {k : Bytes} {w : α} (hk : ∃ v, (k, v) ∈ l) (a : Bytes) (e : α) :
    (a, e) ∈ l.map (fun x => if x.1 = k then (x.1, w) else x) ↔ (a ≠ k ∧ (a, e) ∈ l) ∨ (a = k ∧ e = w) := by
  simp only [List.mem_map]
  constructor
  · rintro ⟨⟨b, v⟩, hb, hx⟩
    by_cases h : b = k
    · simp only [h, if_true, Prod.mk.injEq] at hx
      exact Or.inr ⟨hx.1.symm, hx.2.symm⟩
    · simp only [h, if_false, Prod.mk.injEq] at hx
      obtain ⟨rfl, rfl⟩ := hx
      exact Or.inl ⟨h, hb⟩
  · rintro (⟨h, hm⟩ | ⟨rfl, rfl⟩)
    · exact ⟨(a, e), hm, by simp [h]⟩
    · obtain ⟨v, hv⟩ := hk
      exact ⟨(a, v), hv, by simp⟩

theorem setKey_keys {α : Type} (l : List (Bytes × α)) (k : Bytes) (w : α) :
    (l.map (fun x => if x.1 = k then (x.1, w) else x)).map Prod.fst = l.map Prod.fst := by
  rw [List.map_map]
  apply List.map_congr_left
  intro x _
  simp only [Function.comp]
  split <;> rfl

theorem nodup_snoc {α : Type} {l : List (Bytes × α)} {k : Bytes} (hn : (l.map Prod.fst).Nodup) (hk : ∀ v, (k, v) ∉ l) (w : α) :
    ((l ++ [(k, w)]).map Prod.fst).Nodup := by
  rw [List.map_append]
  refine List.nodup_append.2 ⟨hn, by simp, ?_⟩
  intro x hx y hy e
  subst e
  rw [List.map_cons, List.map_nil, List.mem_singleton] at hy
  subst hy
  obtain ⟨⟨b, v⟩, hb, rfl⟩ := List.mem_map.1 hx
  exact hk v hb

/-- What a write does to a tidy directory. -/
theorem write_spec {X : Ext} {d : ObjDir} (ht : Spec.Tidy X d) (m : MetaData) (hnf : ∀ c, (Hash.toFolder m.id, DirEntry.file c) ∉ d)
    (hl : (Hash.toFolder m.id).length = 2) :
    ∃ d' es', d.write X m = .ok d' ∧ (d'.map Prod.fst).Nodup ∧ (es'.map Prod.fst).Nodup ∧
      (∀ a e, (a, e) ∈ d' ↔ (a ≠ Hash.toFolder m.id ∧ (a, e) ∈ d) ∨ (a = Hash.toFolder m.id ∧ e = DirEntry.dir es')) ∧
      ∀ b c, (b, c) ∈ es' ↔ (b ≠ Hash.toFilename m.id ∧ ∃ es, (Hash.toFolder m.id, DirEntry.dir es) ∈ d ∧ (b, c) ∈ es) ∨
        (b = Hash.toFilename m.id ∧ c = some (X.deflate m.looseBytes)) := by
  unfold write
  cases hf : d.find? (fun e => e.1 == Hash.toFolder m.id) with
  | none =>
    have hn := find_none hf
    refine ⟨_, [(Hash.toFilename m.id, some (X.deflate m.looseBytes))], rfl, nodup_snoc ht.names hn _, by simp, ?_, ?_⟩
    · intro a e
      simp only [List.mem_append, List.mem_singleton, Prod.mk.injEq]
      constructor
      · rintro (h | h)
        · refine Or.inl ⟨?_, h⟩
          rintro rfl
          exact hn _ h
        · exact Or.inr h
      · rintro (h | h)
        · exact Or.inl h.2
        · exact Or.inr h
    · intro b c
      simp only [List.mem_singleton, Prod.mk.injEq]
      constructor
      · exact Or.inr
      · rintro (⟨_, es, h, _⟩ | h)
        · exact absurd h (hn _)
        · exact h
  | some e =>
    obtain ⟨k, v⟩ := e
    obtain ⟨_, hm⟩ := find_some hf
    cases v with
    | file c => exact absurd hm (hnf c)
    | dir es =>
      have hin := ht.inner _ es hm
      have uniq : ∀ es2, (Hash.toFolder m.id, DirEntry.dir es2) ∈ d → es2 = es :=
        fun es2 h2 => (DirEntry.dir.inj (key_unique ht.names hm h2)).symm
      simp only
      cases hg : es.find? (fun e => e.1 == Hash.toFilename m.id) with
      | none =>
        have hn := find_none hg
        refine ⟨_, es ++ [(Hash.toFilename m.id, some (X.deflate m.looseBytes))], rfl, by rw [setKey_keys]; exact ht.names,
          nodup_snoc hin hn _, mem_setKey ⟨_, hm⟩, ?_⟩
        intro b c
        simp only [List.mem_append, List.mem_singleton, Prod.mk.injEq]
        constructor
        · rintro (h | h)
          · refine Or.inl ⟨?_, es, hm, h⟩
            rintro rfl
            exact hn _ h
          · exact Or.inr h
        · rintro (⟨_, es2, h2, h⟩ | h)
          · rw [uniq es2 h2] at h
            exact Or.inl h
          · exact Or.inr h
      | some e =>
        obtain ⟨b0, c0⟩ := e
        obtain ⟨_, hc⟩ := find_some hg
        cases c0 with
        | none =>
          obtain ⟨o, ho⟩ := ht.objects _ es _ hm hl hc
          obtain ⟨z, _, hz, _⟩ := ho.content
          cases hz
        | some c0 =>
          refine ⟨_, _, rfl, by rw [setKey_keys]; exact ht.names, by rw [setKey_keys]; exact hin, mem_setKey ⟨_, hm⟩, ?_⟩
          intro b c
          rw [mem_setKey ⟨_, hc⟩]
          constructor
          · rintro (⟨h1, h2⟩ | h)
            · exact Or.inl ⟨h1, es, hm, h2⟩
            · exact Or.inr h
          · rintro (⟨h1, es2, h2, h⟩ | h)
            · rw [uniq es2 h2] at h
              exact Or.inl ⟨h1, h⟩
            · exact Or.inr h

theorem folder_length (h : Hash) : (Hash.toFolder h).length = 2 := by
  rw [Hash.toFolder, List.length_take, Hash.toPlainStr_length]
  rfl

/-- A write keeps a directory tidy, adds the object, and keeps every other one. -/
theorem write_tidy {X : Ext} {d : ObjDir} (ht : Spec.Tidy X d) (o : Spec.Obj) (hb : o.1.isBase = true) (hs : o.2.length < 2 ^ 61)
    (hnf : ∀ c, (Hash.toFolder (idOf X o), DirEntry.file c) ∉ d) :
    ∃ d', d.write X (metaOf X o) = .ok d' ∧ Spec.Tidy X d' ∧
      (∀ o', Spec.HasLoose X d' o' ↔ o' = o ∨ (Spec.HasLoose X d o' ∧ idOf X o' ≠ idOf X o)) ∧
      ∀ a c, (a, DirEntry.file c) ∈ d' → (a, DirEntry.file c) ∈ d := by
  have hl := folder_length (idOf X o)
  obtain ⟨d', es', h1, h2, h3, h4, h5⟩ := write_spec ht (metaOf X o) hnf hl
  have hid : (metaOf X o).id = idOf X o := rfl
  rw [hid] at h4 h5
  have hnew : Spec.LooseFile X (Hash.toFolder (idOf X o)) (Hash.toFilename (idOf X o), some (X.deflate (metaOf X o).looseBytes)) o :=
    ⟨hb, hs, folder_filename _, _, [], rfl, by
      have := X.inflate_deflate (Spec.looseText o) []
      rw [List.append_nil] at this
      exact this⟩
  have hdir : (Hash.toFolder (idOf X o), DirEntry.dir es') ∈ d' := (h4 _ _).2 (Or.inr ⟨rfl, rfl⟩)
  have hin : (Hash.toFilename (idOf X o), some (X.deflate (metaOf X o).looseBytes)) ∈ es' := (h5 _ _).2 (Or.inr ⟨rfl, rfl⟩)
  refine ⟨d', h1, ⟨h2, ?_, ?_, ?_⟩, ?_, ?_⟩
  · intro a es hm
    rcases (h4 _ _).1 hm with ⟨_, hm⟩ | ⟨_, e⟩
    · exact ht.inner a es hm
    · rw [DirEntry.dir.inj e]
      exact h3
  · rintro ⟨a, e⟩ hm
    rcases (h4 _ _).1 hm with ⟨_, hm⟩ | ⟨rfl, _⟩
    · exact ht.text _ hm
    · exact utf8Valid_ascii _ (fun c hc => hex_ascii (idOf X o) c (List.mem_of_mem_take hc))
  · rintro a es ⟨b, c⟩ hm hla hp
    rcases (h4 _ _).1 hm with ⟨_, hm⟩ | ⟨rfl, e⟩
    · exact ht.objects a es _ hm hla hp
    · rw [DirEntry.dir.inj e] at hp
      rcases (h5 _ _).1 hp with ⟨_, es2, hm2, hp2⟩ | ⟨rfl, rfl⟩
      · exact ht.objects _ es2 _ hm2 hla hp2
      · exact ⟨o, hnew⟩
  · intro o'
    constructor
    · rintro ⟨a, es, ⟨b, c⟩, hm, hla, hp, hf⟩
      rcases (h4 _ _).1 hm with ⟨hne, hm⟩ | ⟨rfl, e⟩
      · refine Or.inr ⟨⟨a, es, _, hm, hla, hp, hf⟩, ?_⟩
        intro e
        exact hne (by rw [← e]; exact (folder_of hf.name hla).1.symm)
      · rw [DirEntry.dir.inj e] at hp
        rcases (h5 _ _).1 hp with ⟨hne, es2, hm2, hp2⟩ | ⟨rfl, rfl⟩
        · refine Or.inr ⟨⟨_, es2, _, hm2, hla, hp2, hf⟩, ?_⟩
          intro e
          exact hne (by rw [← e]; exact (folder_of hf.name hla).2.symm)
        · exact Or.inl (looseFile_unique hf hnew)
    · rintro (rfl | ⟨⟨a, es, ⟨b, c⟩, hm, hla, hp, hf⟩, hne⟩)
      · exact ⟨_, es', _, hdir, hl, hin, hnew⟩
      · obtain ⟨e1, e2⟩ := folder_of hf.name hla
        by_cases ha : a = Hash.toFolder (idOf X o)
        · subst ha
          refine ⟨_, es', (b, c), hdir, hl, (h5 _ _).2 (Or.inl ⟨?_, es, hm, hp⟩), hf⟩
          rintro rfl
          apply hne
          apply Hash.toPlainStr_injective
          rw [← hf.name]
          exact folder_filename _
        · exact ⟨a, es, (b, c), (h4 _ _).2 (Or.inl ⟨ha, hm⟩), hla, hp, hf⟩
  · intro a c hm
    rcases (h4 _ _).1 hm with ⟨_, hm⟩ | ⟨_, e⟩
    · exact hm
    · cases e

end ObjDir
end Gust

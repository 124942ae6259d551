import Verif.Base.Tactics
import Verif.Lemmas.Protocol
import Verif.Lemmas.Hash
import Verif.Model.LfsStore

/-! # Facts about the LFS object store -/

namespace Gust

/-! ## Paths -/

theorem splitOn_glue (c : UInt8) (b : Bytes) : ∀ a : Bytes, splitOn c (a ++ c :: b) = splitOn c a ++ splitOn c b
  | [] => by simp [splitOn]
  | x :: a => by
    rw [List.cons_append, splitOn, splitOn]
    split
    · rw [splitOn_glue c b a]; rfl
    · rw [splitOn_glue c b a]
      obtain ⟨w, ws, hs⟩ := List.exists_cons_of_ne_nil (splitOn_ne_nil c a)
      rw [hs]
      rfl

theorem splitOn_plain (c : UInt8) : ∀ a : Bytes, c ∉ a → splitOn c a = [a]
  | [], _ => rfl
  | x :: a, h => by
    rw [splitOn, if_neg (fun e => h (by simp [e])), splitOn_plain c a (fun e => h (by simp [e]))]

/-- The components of a relative path. -/
def relComps (k : Bytes) : List Bytes := (splitOn 0x2f k).filter (fun c => c ≠ [] ∧ c ≠ [0x2e])

theorem components_join (base k : Bytes) (hk : k.head? ≠ some 0x2f) :
    components (pathJoin base k) = ((components base).1, (components base).2 ++ relComps k) := by
  rw [pathJoin, if_neg hk, MetaData.pathPush]
  by_cases h0 : base = []
  · rw [if_pos (.inl h0), h0]
    simp only [components, List.nil_append, relComps, List.head?_nil, splitOn]
    rw [show (k.head? == some 0x2f) = false from by simpa using hk]
    rfl
  · obtain ⟨x, b, rfl⟩ := List.exists_cons_of_ne_nil h0
    by_cases h1 : (x :: b).getLast? = some 0x2f
    · rw [if_pos (.inr h1)]
      obtain ⟨b', hb⟩ : ∃ b', x :: b = b' ++ [0x2f] := by
        rw [List.getLast?_eq_some_iff] at h1
        exact h1
      simp only [components, relComps, Prod.mk.injEq, List.cons_append, List.head?_cons, true_and]
      rw [← List.cons_append, hb, List.append_assoc, List.singleton_append, splitOn_glue,
        show b' ++ [0x2f] = b' ++ 0x2f :: [] from rfl, splitOn_glue, List.filter_append, List.filter_append]
      simp [splitOn]
    · rw [if_neg (by simp [h1])]
      simp only [components, relComps, Prod.mk.injEq, List.cons_append, List.head?_cons, true_and]
      rw [← List.cons_append, ← List.cons_append, List.append_assoc, List.singleton_append, splitOn_glue, List.filter_append]

/-- A name without slashes and dots. -/
def Plain (s : Bytes) : Prop := s ≠ [] ∧ (0x2f : UInt8) ∉ s ∧ (0x2e : UInt8) ∉ s

/-- The components below the content directory. -/
def oidParts (s : Bytes) : List Bytes := if s.length < 5 then [s] else [s.take 2, (s.drop 2).take 2, s.drop 4]

theorem oidParts_flatten (s : Bytes) : (oidParts s).flatten = s := by
  unfold oidParts
  split
  · simp
  · have h1 : (s.drop 2).take 2 ++ s.drop 4 = s.drop 2 := by
      have := List.take_append_drop 2 (s.drop 2)
      rwa [List.drop_drop] at this
    simp [h1]

theorem oidParts_inj {s t : Bytes} (h : oidParts s = oidParts t) : s = t := by
  rw [← oidParts_flatten s, h, oidParts_flatten]

theorem head_plain {s : Bytes} (h : (0x2f : UInt8) ∉ s) : s.head? ≠ some 0x2f := by
  intro e
  exact h (List.mem_of_mem_head? e)

theorem relComps_plain {s : Bytes} (h : Plain s) : relComps s = [s] := by
  unfold relComps
  rw [splitOn_plain _ _ h.2.1, List.filter_cons, if_pos]
  · rfl
  · simp only [decide_eq_true_eq]
    refine ⟨h.1, fun e => h.2.2 ?_⟩
    rw [e]; simp

theorem plain_of_sub {s t : Bytes} (h : Plain s) (hsub : ∀ c ∈ t, c ∈ s) (hne : t ≠ []) : Plain t :=
  ⟨hne, fun e => h.2.1 (hsub _ e), fun e => h.2.2 (hsub _ e)⟩

theorem transformKey_plain {s k : Bytes} (h : Plain s) (hk : transformKey s = .ok k) :
    relComps k = oidParts s ∧ k.head? ≠ some 0x2f := by
  unfold transformKey at hk
  unfold oidParts
  split at hk
  · rename_i hlt
    cases hk
    rw [if_pos hlt]
    exact ⟨relComps_plain h, head_plain h.2.1⟩
  · rename_i hlt
    split at hk
    · cases hk
      rw [if_neg hlt]
      have ha : Plain (s.take 2) := plain_of_sub h (fun c hc => List.mem_of_mem_take hc) (by
        intro e; have := congrArg List.length e; rw [List.length_take, List.length_nil] at this; omega)
      have hb : Plain ((s.drop 2).take 2) := plain_of_sub h (fun c hc => List.mem_of_mem_drop (List.mem_of_mem_take hc)) (by
        intro e; have := congrArg List.length e; rw [List.length_take, List.length_drop, List.length_nil] at this; omega)
      have hc : Plain (s.drop 4) := plain_of_sub h (fun c hc => List.mem_of_mem_drop hc) (by
        intro e; have := congrArg List.length e; rw [List.length_drop, List.length_nil] at this; omega)
      have e1 : pathJoin (s.take 2) ((s.drop 2).take 2) = s.take 2 ++ [0x2f] ++ (s.drop 2).take 2 := by
        rw [pathJoin, if_neg (head_plain hb.2.1), MetaData.pathPush, if_neg]
        rintro (e | e)
        · exact ha.1 e
        · exact ha.2.1 (List.mem_of_getLast? e)
      have e2 : pathJoin (s.take 2 ++ [0x2f] ++ (s.drop 2).take 2) (s.drop 4) =
          s.take 2 ++ 0x2f :: ((s.drop 2).take 2 ++ 0x2f :: s.drop 4) := by
        rw [pathJoin, if_neg (head_plain hc.2.1), MetaData.pathPush, if_neg]
        · simp
        · rintro (e | e)
          · simp at e
          · rw [List.getLast?_append_of_ne_nil _ hb.1] at e
            exact hb.2.1 (List.mem_of_getLast? e)
      rw [e1, e2]
      constructor
      · have hh := relComps_plain ha
        have hh2 := relComps_plain hb
        have hh3 := relComps_plain hc
        unfold relComps at *
        rw [splitOn_glue, splitOn_glue, List.filter_append, List.filter_append, hh, hh2, hh3]
        rfl
      · rw [List.head?_append_of_ne_nil _ ha.1]
        exact head_plain ha.2.1
    · cases hk

/-- Where a plain oid is stored. -/
theorem storePath_plain (E : StoreExt) {s : Bytes} (h : Plain s) {p : Bool × List Bytes} (hp : storePath E s = .ok p) :
    p = ((components E.base).1, (components E.base).2 ++ oidParts s) := by
  unfold storePath at hp
  obtain ⟨k, hk, hp⟩ := Res.bind_eq_ok.1 hp
  simp only [Res.pure_eq, Res.ok.injEq] at hp
  obtain ⟨h1, h2⟩ := transformKey_plain h hk
  rw [← hp, components_join _ _ h2, h1]

theorem storePath_inj (E : StoreExt) {s t : Bytes} (hs : Plain s) (ht : Plain t) {p : Bool × List Bytes}
    (h1 : storePath E s = .ok p) (h2 : storePath E t = .ok p) : s = t := by
  have := (storePath_plain E hs h1).symm.trans (storePath_plain E ht h2)
  simp only [Prod.mk.injEq, true_and] at this
  exact oidParts_inj (List.append_cancel_left this)

theorem storePath_ascii (E : StoreExt) {s : Bytes} (h : Plain s) (ha : ∀ c ∈ s, c < 0x80) :
    storePath E s = .ok ((components E.base).1, (components E.base).2 ++ oidParts s) := by
  have hk : ∃ k, transformKey s = .ok k := by
    unfold transformKey
    split
    · exact ⟨_, rfl⟩
    · rename_i hl
      rw [if_pos]
      · exact ⟨_, rfl⟩
      · have hb : ∀ i, isBoundary s i = true := by
          intro i
          unfold isBoundary
          split
          · rename_i b hb
            simp [ha b (List.mem_of_getElem? hb)]
          · rfl
        rw [hb, hb]; rfl
  obtain ⟨k, hk⟩ := hk
  have : ∃ p, storePath E s = .ok p := by
    unfold storePath; rw [hk]; exact ⟨_, rfl⟩
  obtain ⟨p, hp⟩ := this
  rw [hp, storePath_plain E h hp]

/-! ## Directories -/

/-- Directories may have been added; nothing else has changed. -/
def Grown (d d' : Disk) : Prop := ∀ q, d' q = d q ∨ (d q = none ∧ d' q = some .dir)

theorem Grown.refl (d : Disk) : Grown d d := fun _ => .inl rfl

theorem Grown.trans {a b c : Disk} (h1 : Grown a b) (h2 : Grown b c) : Grown a c := by
  intro q
  rcases h1 q with h | ⟨h, h'⟩ <;> rcases h2 q with g | ⟨g, g'⟩
  · exact .inl (g.trans h)
  · exact .inr ⟨h ▸ g, g'⟩
  · exact .inr ⟨h, g.trans h'⟩
  · rw [h'] at g; cases g

theorem Grown.file {d d' : Disk} (h : Grown d d') {q : Bool × List Bytes} {c : Bytes} :
    d' q = some (.file c) ↔ d q = some (.file c) := by
  rcases h q with h | ⟨h1, h2⟩
  · rw [h]
  · rw [h1, h2]; simp

theorem Grown.dir {d d' : Disk} (h : Grown d d') {q : Bool × List Bytes} (hd : d q = some .dir) : d' q = some .dir := by
  rcases h q with h | ⟨h1, h2⟩
  · rw [h]; exact hd
  · exact h2

theorem mkdirs_grown (abs : Bool) : ∀ (cs pre : List Bytes) (d : Disk), Grown d (mkdirs abs d pre cs).1
  | [], _, d => Grown.refl d
  | c :: cs, pre, d => by
    rw [mkdirs]
    split
    · exact Grown.refl d
    · exact mkdirs_grown abs cs _ d
    · rename_i h
      refine Grown.trans ?_ (mkdirs_grown abs cs _ _)
      intro q
      simp only [setAt_eq]
      by_cases hq : q = (abs, pre ++ [c])
      · rw [if_pos hq]; exact .inr ⟨hq ▸ h, rfl⟩
      · rw [if_neg hq]; exact .inl rfl

/-- `create_dir_all` succeeds when no component is a file. -/
theorem mkdirs_ok (abs : Bool) : ∀ (cs pre : List Bytes) (d : Disk),
    (∀ k < cs.length, ∀ c, d (abs, pre ++ cs.take (k + 1)) ≠ some (.file c)) → (mkdirs abs d pre cs).2 = true
  | [], _, _, _ => rfl
  | c :: cs, pre, d, h => by
    rw [mkdirs]
    have h' : ∀ k < cs.length, ∀ x, d (abs, (pre ++ [c]) ++ cs.take (k + 1)) ≠ some (.file x) := by
      intro k hk x
      have := h (k + 1) (by simp; omega) x
      rwa [List.take_succ_cons, List.append_cons] at this
    split
    · rename_i x hx
      exact absurd hx (by simpa using h 0 (by simp) x)
    · exact mkdirs_ok abs cs _ d h'
    · refine mkdirs_ok abs cs _ _ ?_
      intro k hk x
      rw [setAt_eq]
      split
      · simp
      · exact h' k hk x

/-- After success all components are directories. -/
theorem mkdirs_dirs (abs : Bool) : ∀ (cs pre : List Bytes) (d : Disk), (mkdirs abs d pre cs).2 = true →
    ∀ k < cs.length, (mkdirs abs d pre cs).1 (abs, pre ++ cs.take (k + 1)) = some .dir
  | [], _, _, _, k, hk => by simp at hk
  | c :: cs, pre, d, h, k, hk => by
    rw [mkdirs] at h ⊢
    split at h
    · cases h
    · rename_i hd
      cases k with
      | zero => exact (mkdirs_grown abs cs (pre ++ [c]) d).dir (by simpa using hd)
      | succ k =>
        rw [List.take_succ_cons, show pre ++ c :: cs.take (k + 1) = (pre ++ [c]) ++ cs.take (k + 1) from by simp]
        exact mkdirs_dirs abs cs (pre ++ [c]) d h k (by simpa using hk)
    · cases k with
      | zero =>
        refine (mkdirs_grown abs cs (pre ++ [c]) _).dir ?_
        simp [setAt_same]
      | succ k =>
        rw [List.take_succ_cons, show pre ++ c :: cs.take (k + 1) = (pre ++ [c]) ++ cs.take (k + 1) from by simp]
        exact mkdirs_dirs abs cs (pre ++ [c]) _ h k (by simpa using hk)

/-- Only the components themselves can have become directories. -/
theorem mkdirs_only (abs : Bool) : ∀ (cs pre : List Bytes) (d : Disk) (q : Bool × List Bytes),
    (mkdirs abs d pre cs).1 q = d q ∨ ∃ k < cs.length, q = (abs, pre ++ cs.take (k + 1))
  | [], _, _, _ => .inl rfl
  | c :: cs, pre, d, q => by
    rw [mkdirs]
    have hshift : (∃ k < cs.length, q = (abs, (pre ++ [c]) ++ cs.take (k + 1))) →
        ∃ k < (c :: cs).length, q = (abs, pre ++ (c :: cs).take (k + 1)) := by
      rintro ⟨k, hk, rfl⟩
      exact ⟨k + 1, by simpa using hk, by simp⟩
    split
    · exact .inl rfl
    · rcases mkdirs_only abs cs (pre ++ [c]) d q with h | h
      · exact .inl h
      · exact .inr (hshift h)
    · rcases mkdirs_only abs cs (pre ++ [c]) (setAt d (abs, pre ++ [c]) (some .dir)) q with h | h
      · rw [setAt_eq] at h
        split at h
        · rename_i hq
          exact .inr ⟨0, by simp, by simpa using hq⟩
        · exact .inl h
      · exact .inr (hshift h)

theorem storeNew_grown (E : StoreExt) (d : Disk) : Grown d (storeNew E d).1 := mkdirs_grown _ _ _ _

/-! ## Requests -/

/-- The outcomes of `put`. -/
theorem storePut_cases (E : StoreExt) (d : Disk) (oid : Bytes) (size : Int) (body : Bytes) :
    ((storePut E d oid size body).2 = .panic ∧ Grown d (storePut E d oid size body).1) ∨
    ∃ p d1, storePath E oid = .ok p ∧ Grown d d1 ∧ d1 p ≠ some .dir ∧
      (∀ q, d1 q = d q ∨ ∃ k < p.2.dropLast.length, q = (p.1, p.2.dropLast.take (k + 1))) ∧
      (storePut E d oid size body).1 = setAt d1 p (some (.file (body.take E.maxWrite))) ∧
      (storePut E d oid size body).2 = .ok (decide ((min body.length E.maxWrite : Nat) = size) && decide (E.digest body = oid)) := by
  unfold storePut
  cases hp : storePath E oid with
  | ok p =>
    simp only
    have hg := mkdirs_grown p.1 p.2.dropLast [] d
    have ho := mkdirs_only p.1 p.2.dropLast [] d
    cases hm : mkdirs p.1 d [] p.2.dropLast with
    | mk d1 ok =>
      rw [hm] at hg ho
      cases ok with
      | false => exact .inl ⟨rfl, hg⟩
      | true =>
        simp only [Bool.not_true, Bool.false_eq_true, if_false]
        have htake : body.take (min body.length E.maxWrite) = body.take E.maxWrite := by
          rcases Nat.le_total body.length E.maxWrite with h | h
          · rw [Nat.min_eq_left h, List.take_of_length_le (Nat.le_refl _), List.take_of_length_le h]
          · rw [Nat.min_eq_right h]
        cases hd : d1 p with
        | some x =>
          cases x with
          | dir => exact .inl ⟨rfl, hg⟩
          | file c =>
            right
            refine ⟨p, d1, rfl, hg, by rw [hd]; simp, by simpa using ho, ?_, ?_⟩
            · simp only [htake]
              split <;> [rfl; split <;> rfl]
            · simp only
              split
              · rename_i h; simp only [decide_eq_false h, Bool.false_and]
              · rename_i h
                have h' : ((min body.length E.maxWrite : Nat) : Int) = size := by simpa using h
                split
                · rename_i h2; simp only [decide_eq_false h2, Bool.and_false]
                · rename_i h2
                  have h2' : E.digest body = oid := by simpa using h2
                  simp only [decide_eq_true h', decide_eq_true h2', Bool.and_self]
        | none =>
            right
            refine ⟨p, d1, rfl, hg, by rw [hd]; simp, by simpa using ho, ?_, ?_⟩
            · simp only [htake]
              split <;> [rfl; split <;> rfl]
            · simp only
              split
              · rename_i h; simp only [decide_eq_false h, Bool.false_and]
              · rename_i h
                have h' : ((min body.length E.maxWrite : Nat) : Int) = size := by simpa using h
                split
                · rename_i h2; simp only [decide_eq_false h2, Bool.and_false]
                · rename_i h2
                  have h2' : E.digest body = oid := by simpa using h2
                  simp only [decide_eq_true h', decide_eq_true h2', Bool.and_self]
  | err e => exact .inl ⟨rfl, Grown.refl d⟩
  | panic => exact .inl ⟨rfl, Grown.refl d⟩
  | spin => exact .inl ⟨rfl, Grown.refl d⟩

/-- A batch only adds rows, each for an oid of the request, and only if there is no row. -/
theorem batchLoop_meta (D : DbExt) (E : StoreExt) (disk : Disk) (upload : Bool) : ∀ (vs : List RequestVars) (m : MetaTable) (k : Bytes),
    (batchLoop D E disk upload vs m).2 k = m k ∨
    (m k = none ∧ ∃ v ∈ vs, D.fold v.oid = k ∧ (batchLoop D E disk upload vs m).2 k = some (v.oid, v.size))
  | [], m, k => .inl rfl
  | v :: vs, m, k => by
    have h1 : (batchOne D E disk m upload v).2 k = m k ∨
        (m k = none ∧ D.fold v.oid = k ∧ (batchOne D E disk m upload v).2 k = some (v.oid, v.size)) := by
      have hput : ∀ row m', lfsPutMeta D m v.oid v.size = some (row, m') →
          m' k = m k ∨ (m k = none ∧ D.fold v.oid = k ∧ m' k = some (v.oid, v.size)) := by
        intro row m' h
        unfold lfsPutMeta at h
        split at h
        · cases h; exact .inl rfl
        · rename_i hn
          split at h
          · cases h
            rw [setAt_eq]
            split
            · rename_i he; exact .inr ⟨he ▸ hn, he.symm, rfl⟩
            · exact .inl rfl
          · cases h
      unfold batchOne
      simp only
      split
      · split
        · exact .inl rfl
        · split
          · split
            · rename_i hp; exact hput _ _ hp
            · exact .inl rfl
          · exact .inl rfl
        · exact .inl rfl
      · split
        · split
          · rename_i hp; exact hput _ _ hp
          · exact .inl rfl
        · exact .inl rfl
    have hcomb : ∀ m1 m2 : MetaTable, (m1 k = m k ∨ (m k = none ∧ D.fold v.oid = k ∧ m1 k = some (v.oid, v.size))) →
        (m2 k = m1 k ∨ (m1 k = none ∧ ∃ w ∈ vs, D.fold w.oid = k ∧ m2 k = some (w.oid, w.size))) →
        m2 k = m k ∨ (m k = none ∧ ∃ w ∈ v :: vs, D.fold w.oid = k ∧ m2 k = some (w.oid, w.size)) := by
      rintro m1 m2 (h | ⟨h, hk, h'⟩) (g | ⟨g, w, hw, hk', g'⟩)
      · exact .inl (g.trans h)
      · exact .inr ⟨h ▸ g, w, List.mem_cons_of_mem _ hw, hk', g'⟩
      · exact .inr ⟨h, v, List.mem_cons_self, hk, g.trans h'⟩
      · rw [h'] at g; cases g
    rw [batchLoop]
    cases hb : batchOne D E disk m upload v with
    | mk r m1 =>
      rw [hb] at h1
      have hm1 := batchLoop_meta D E disk upload vs m1 k
      cases r with
      | ok r =>
        simp only
        cases hl : batchLoop D E disk upload vs m1 with
        | mk rs m2 =>
          rw [hl] at hm1
          cases rs <;> exact hcomb m1 m2 h1 hm1
      | err e => exact hcomb m1 m1 h1 (.inl rfl)
      | panic => exact hcomb m1 m1 h1 (.inl rfl)
      | spin => exact hcomb m1 m1 h1 (.inl rfl)

/-- The state after a batch. -/
theorem processBatch_state (D : DbExt) (E : StoreExt) (s : LfsState) (op : Bytes) (vs : List RequestVars) :
    Grown s.disk (processBatch D E s op vs).2.disk ∧
    (∀ q, (processBatch D E s op vs).2.disk q = (storeNew E s.disk).1 q) ∧
    ∀ k, (processBatch D E s op vs).2.metas k = s.metas k ∨
      (s.metas k = none ∧ ∃ v ∈ vs, D.fold v.oid = k ∧ (processBatch D E s op vs).2.metas k = some (v.oid, v.size)) := by
  have hg := storeNew_grown E s.disk
  unfold processBatch
  cases hn : storeNew E s.disk with
  | mk d ok =>
    rw [hn] at hg
    cases ok with
    | false => exact ⟨hg, fun _ => rfl, fun _ => .inl rfl⟩
    | true => exact ⟨hg, fun _ => rfl, batchLoop_meta D E d _ vs s.metas⟩

/-- The state after a download. -/
theorem downloadObject_state (D : DbExt) (E : StoreExt) (s : LfsState) (oid : Bytes) :
    (downloadObject D E s oid).2 = { s with disk := (storeNew E s.disk).1 } := by
  unfold downloadObject
  cases hn : storeNew E s.disk with
  | mk d ok =>
    cases ok with
    | false => rfl
    | true =>
      simp only [Bool.not_true, Bool.false_eq_true, if_false]
      split <;> rfl

/-- The outcomes of an upload. -/
theorem uploadObject_cases (D : DbExt) (E : StoreExt) (s : LfsState) (oid body : Bytes) :
    ((uploadObject D E s oid body).1 = .panic ∧ (uploadObject D E s oid body).2.metas = s.metas ∧
      Grown s.disk (uploadObject D E s oid body).2.disk) ∨
    ∃ o size p d1, s.metas (D.fold oid) = some (o, size) ∧ (storeNew E s.disk).2 = true ∧ storePath E o = .ok p ∧
      Grown (storeNew E s.disk).1 d1 ∧ d1 p ≠ some .dir ∧
      (∀ q, d1 q = (storeNew E s.disk).1 q ∨ ∃ k < p.2.dropLast.length, q = (p.1, p.2.dropLast.take (k + 1))) ∧
      (uploadObject D E s oid body).2.disk = setAt d1 p (some (.file (body.take E.maxWrite))) ∧
      (((uploadObject D E s oid body).1 = .ok () ∧ (uploadObject D E s oid body).2.metas = s.metas ∧
          (min body.length E.maxWrite : Nat) = size ∧ E.digest body = o) ∨
       ((uploadObject D E s oid body).1 = .status 406 ∧
          (uploadObject D E s oid body).2.metas = setAt s.metas (D.fold oid) none ∧
          ¬ ((min body.length E.maxWrite : Nat) = size ∧ E.digest body = o))) := by
  have hg := storeNew_grown E s.disk
  unfold uploadObject lfsGetMeta
  cases hn : storeNew E s.disk with
  | mk d ok =>
    rw [hn] at hg
    cases ok with
    | false => exact .inl ⟨rfl, rfl, hg⟩
    | true =>
      simp only [Bool.not_true, Bool.false_eq_true, if_false]
      cases hm : s.metas (D.fold oid) with
      | none => exact .inl ⟨rfl, rfl, hg⟩
      | some row =>
        obtain ⟨o, size⟩ := row
        simp only
        rcases storePut_cases E d o size body with ⟨h1, h2⟩ | ⟨p, d1, hp, hg1, hd, hq, h1, h2⟩
        · left
          cases hs : storePut E d o size body with
          | mk d' r =>
            rw [hs] at h1 h2
            simp only at h1
            subst h1
            exact ⟨rfl, rfl, hg.trans h2⟩
        · right
          refine ⟨o, size, p, d1, rfl, trivial, hp, hg1, hd, hq, ?_⟩
          cases hs : storePut E d o size body with
          | mk d' r =>
            rw [hs] at h1 h2
            simp only at h1 h2
            subst h1 h2
            by_cases hb : (min body.length E.maxWrite : Nat) = size ∧ E.digest body = o
            · have : (decide (((min body.length E.maxWrite : Nat) : Int) = size) && decide (E.digest body = o)) = true := by
                simp [hb]
              rw [this]
              exact ⟨rfl, .inl ⟨rfl, rfl, hb.1, hb.2⟩⟩
            · have : (decide (((min body.length E.maxWrite : Nat) : Int) = size) && decide (E.digest body = o)) = false := by
                rw [Bool.and_eq_false_iff, decide_eq_false_iff_not, decide_eq_false_iff_not]
                by_cases h1 : ((min body.length E.maxWrite : Nat) : Int) = size
                · exact .inr (fun h2 => hb ⟨h1, h2⟩)
                · exact .inl h1
              rw [this]
              exact ⟨rfl, .inr ⟨rfl, rfl, hb⟩⟩

/-- The outcomes of `put`, with the directories made before a panic. -/
theorem storePut_panic (E : StoreExt) (d : Disk) (oid : Bytes) (size : Int) (body : Bytes) (h : (storePut E d oid size body).2 = .panic) :
    (storePut E d oid size body).1 = d ∨ ∃ p, storePath E oid = .ok p ∧ (storePut E d oid size body).1 = (mkdirs p.1 d [] p.2.dropLast).1 := by
  unfold storePut at h ⊢
  cases hp : storePath E oid with
  | ok p =>
    rw [hp] at h
    simp only at h ⊢
    right
    refine ⟨p, rfl, ?_⟩
    cases hm : mkdirs p.1 d [] p.2.dropLast with
    | mk d1 ok =>
      rw [hm] at h
      cases ok with
      | false => rfl
      | true =>
        simp only [Bool.not_true, Bool.false_eq_true, if_false] at h ⊢
        split at h
        · rename_i e; simp only [e]
        · split at h
          · cases h
          · split at h <;> cases h
  | err e => exact .inl rfl
  | panic => exact .inl rfl
  | spin => exact .inl rfl

/-- The outcomes of an upload, with the directories made before a panic. -/
theorem uploadObject_cases' (D : DbExt) (E : StoreExt) (s : LfsState) (oid body : Bytes) :
    ((uploadObject D E s oid body).1 = .panic ∧ (uploadObject D E s oid body).2.metas = s.metas ∧
      ((uploadObject D E s oid body).2.disk = (storeNew E s.disk).1 ∨
       ∃ o n p, s.metas (D.fold oid) = some (o, n) ∧ storePath E o = .ok p ∧
        (uploadObject D E s oid body).2.disk = (mkdirs p.1 (storeNew E s.disk).1 [] p.2.dropLast).1)) ∨
    ∃ o size p d1, s.metas (D.fold oid) = some (o, size) ∧ (storeNew E s.disk).2 = true ∧ storePath E o = .ok p ∧
      Grown (storeNew E s.disk).1 d1 ∧ d1 p ≠ some .dir ∧
      (∀ q, d1 q = (storeNew E s.disk).1 q ∨ ∃ k < p.2.dropLast.length, q = (p.1, p.2.dropLast.take (k + 1))) ∧
      (uploadObject D E s oid body).2.disk = setAt d1 p (some (.file (body.take E.maxWrite))) ∧
      (((uploadObject D E s oid body).1 = .ok () ∧ (uploadObject D E s oid body).2.metas = s.metas ∧
          (min body.length E.maxWrite : Nat) = size ∧ E.digest body = o) ∨
       ((uploadObject D E s oid body).1 = .status 406 ∧
          (uploadObject D E s oid body).2.metas = setAt s.metas (D.fold oid) none ∧
          ¬ ((min body.length E.maxWrite : Nat) = size ∧ E.digest body = o))) := by
  rcases uploadObject_cases D E s oid body with ⟨h1, h2, -⟩ | h
  · refine .inl ⟨h1, h2, ?_⟩
    clear h2
    unfold uploadObject lfsGetMeta at h1 ⊢
    cases hn : storeNew E s.disk with
    | mk d ok =>
      rw [hn] at h1
      cases ok with
      | false => exact .inl rfl
      | true =>
        simp only [Bool.not_true, Bool.false_eq_true, if_false] at h1 ⊢
        cases hm : s.metas (D.fold oid) with
        | none => exact .inl rfl
        | some row =>
          obtain ⟨o, size⟩ := row
          rw [hm] at h1
          simp only at h1 ⊢
          have hpp := storePut_panic E d o size body
          have hcs := storePut_cases E d o size body
          cases hs : storePut E d o size body with
          | mk d' r =>
            rw [hs] at h1 hpp hcs
            cases r with
            | ok b => cases b <;> cases h1
            | err e =>
              rcases hcs with ⟨e, -⟩ | ⟨_, _, _, _, _, _, _, e⟩ <;> cases e
            | panic =>
              rcases hpp rfl with e | ⟨p, hp, e⟩
              · exact .inl e
              · exact .inr ⟨o, size, p, rfl, hp, e⟩
            | spin =>
              rcases hcs with ⟨e, -⟩ | ⟨_, _, _, _, _, _, _, e⟩ <;> cases e
  · exact .inr h

end Gust

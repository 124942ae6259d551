import Verif.Model.LfsConcurrent
import Verif.Props.LfsStore
import Verif.Base.Tactics

/-! # C101, C102: requests on LFS objects that overlap in time -/

namespace Gust

/-! ## Without interruption the tasks are the handlers of `Model/LfsStore` -/

/-- A task takes steps, with the given buffer sizes, and nothing else happens. -/
def LfsTask.alone (D : DbExt) (E : StoreExt) : List Nat → LfsState → LfsTask → LfsPhase × LfsState
  | [], s, t => (t.phase, s)
  | n :: ns, s, t => LfsTask.alone D E ns (t.step D E n s).2 { t with phase := (t.step D E n s).1 }

/-- The answer with its value changed. -/
def Reply.out {α β : Type} (f : α → β) : Reply α → Reply β
  | .ok a => .ok (f a)
  | .status c => .status c
  | .panic => .panic

/-- There are buffer sizes for which the task, left alone, gets there. -/
def LfsTask.Gets (D : DbExt) (E : StoreExt) (s : LfsState) (t : LfsTask) (ph : LfsPhase) (s' : LfsState) : Prop :=
  ∃ ns, t.alone D E ns s = (ph, s')

theorem gets_step {D : DbExt} {E : StoreExt} {s s1 s' : LfsState} {q : LfsReq} {p p1 ph : LfsPhase} (n : Nat)
    (h : LfsTask.step D E n s { req := q, phase := p } = (p1, s1)) (hg : LfsTask.Gets D E s1 { req := q, phase := p1 } ph s') :
    LfsTask.Gets D E s { req := q, phase := p } ph s' := by
  obtain ⟨ns, hns⟩ := hg
  exact ⟨n :: ns, by simp only [LfsTask.alone, h]; exact hns⟩

theorem gets_here (D : DbExt) (E : StoreExt) (s : LfsState) (q : LfsReq) (p : LfsPhase) : LfsTask.Gets D E s { req := q, phase := p } p s :=
  ⟨[], rfl⟩

theorem setAt_setAt {α β : Type} [DecidableEq α] (f : α → β) (a : α) (b c : β) : setAt (setAt f a b) a c = setAt f a c := by
  funext x
  simp only [setAt_eq]
  split <;> rfl

theorem writeAt_start (old chunk : Bytes) : writeAt old 0 chunk = chunk ++ old.drop chunk.length := by
  simp [writeAt]

/-- An upload that is not interrupted. -/
theorem alone_upload (D : DbExt) (E : StoreExt) (s : LfsState) (oid body : Bytes) : LfsTask.Gets D E s { req := .upload oid body, phase := .start }
    (.done ((uploadObject D E s oid body).1.out (fun _ => .stored))) (uploadObject D E s oid body).2 := by
  unfold uploadObject
  cases hn : storeNew E s.disk with
  | mk d ok =>
    cases ok with
    | false => exact gets_step 0 (by simp only [LfsTask.step, hn] <;> rfl) (gets_here ..)
    | true =>
      refine gets_step 0 (by simp only [LfsTask.step, hn] <;> rfl) ?_
      simp only [Bool.not_true, Bool.false_eq_true, if_false]
      cases hm : lfsGetMeta D s.metas oid with
      | none => exact gets_step 0 (by simp only [LfsTask.step, hm] <;> rfl) (gets_here ..)
      | some row =>
        refine gets_step 0 (by simp only [LfsTask.step, hm] <;> rfl) ?_
        simp only [storePut]
        cases hp : storePath E row.1 with
        | err e => exact gets_step 0 (by simp only [LfsTask.step, hp] <;> rfl) (gets_here ..)
        | panic => exact gets_step 0 (by simp only [LfsTask.step, hp] <;> rfl) (gets_here ..)
        | spin => exact gets_step 0 (by simp only [LfsTask.step, hp] <;> rfl) (gets_here ..)
        | ok p =>
          simp only
          cases hk : mkdirs p.1 d [] p.2.dropLast with
          | mk d1 ok =>
            cases ok with
            | false => exact gets_step 0 (by simp only [LfsTask.step, hp, hk] <;> rfl) (gets_here ..)
            | true =>
              refine gets_step 0 (by simp only [LfsTask.step, hp, hk] <;> rfl) ?_
              simp only [Bool.not_true, Bool.false_eq_true, if_false]
              have rest : d1 p ≠ some .dir → LfsTask.Gets D E { s with disk := setAt d1 p (some (.file [])) }
                  { req := .upload oid body, phase := .write row p }
                  (.done (Reply.out (fun _ => LfsOut.stored) (match
                    if ((min body.length E.maxWrite : Nat) : Int) ≠ row.2 then (setAt d1 p (some (.file (body.take (min body.length E.maxWrite)))), Res.ok false)
                    else if E.digest body ≠ row.1 then (setAt d1 p (some (.file (body.take (min body.length E.maxWrite)))), .ok false)
                    else (setAt d1 p (some (.file (body.take (min body.length E.maxWrite)))), .ok true) with
                    | (d', .ok true) => ((.ok (), { s with disk := d' }) : Reply Unit × LfsState)
                    | (d', .ok false) => (.status 406, { metas := lfsDeleteMeta D s.metas oid, disk := d' })
                    | (d', _) => (.panic, { s with disk := d' })).1))
                  (match
                    if ((min body.length E.maxWrite : Nat) : Int) ≠ row.2 then (setAt d1 p (some (.file (body.take (min body.length E.maxWrite)))), Res.ok false)
                    else if E.digest body ≠ row.1 then (setAt d1 p (some (.file (body.take (min body.length E.maxWrite)))), .ok false)
                    else (setAt d1 p (some (.file (body.take (min body.length E.maxWrite)))), .ok true) with
                    | (d', .ok true) => ((.ok (), { s with disk := d' }) : Reply Unit × LfsState)
                    | (d', .ok false) => (.status 406, { metas := lfsDeleteMeta D s.metas oid, disk := d' })
                    | (d', _) => (.panic, { s with disk := d' })).2 := by
                intro _
                by_cases h1 : ((min body.length E.maxWrite : Nat) : Int) = row.2
                · by_cases h2 : E.digest body = row.1
                  · simp only [h1, h2, ne_eq, not_true, if_false]
                    refine gets_step 0 (p1 := .done (.ok .stored)) (by
                      simp only [LfsTask.step, setAt_same, writeAt_start, setAt_setAt, List.drop_nil, List.append_nil, h1, h2, ne_eq, not_true, if_false]) (gets_here ..)
                  · simp only [h1, h2, ne_eq, not_true, not_false_eq_true, if_false, if_true]
                    refine gets_step 0 (p1 := .reject) (by
                      simp only [LfsTask.step, setAt_same, writeAt_start, setAt_setAt, List.drop_nil, List.append_nil, h1, h2, ne_eq, not_true, not_false_eq_true, if_false, if_true] <;> rfl) ?_
                    exact gets_step 0 (by simp only [LfsTask.step] <;> rfl) (gets_here ..)
                · simp only [h1, ne_eq, not_false_eq_true, if_true]
                  refine gets_step 0 (p1 := .reject) (by
                    simp only [LfsTask.step, setAt_same, writeAt_start, setAt_setAt, List.drop_nil, List.append_nil, h1, ne_eq, not_false_eq_true, if_true] <;> rfl) ?_
                  exact gets_step 0 (by simp only [LfsTask.step] <;> rfl) (gets_here ..)
              cases hd : d1 p with
              | none => exact gets_step 0 (by simp only [LfsTask.step, hd] <;> rfl) (rest (by rw [hd]; simp))
              | some x =>
                cases x with
                | dir => exact gets_step 0 (by simp only [LfsTask.step, hd] <;> rfl) (gets_here ..)
                | file c => exact gets_step 0 (by simp only [LfsTask.step, hd] <;> rfl) (rest (by rw [hd]; simp))

/-- A download that is not interrupted. -/
theorem alone_download (D : DbExt) (E : StoreExt) (s : LfsState) (oid : Bytes) : LfsTask.Gets D E s { req := .download oid, phase := .start }
    (.done ((downloadObject D E s oid).1.out .content)) (downloadObject D E s oid).2 := by
  unfold downloadObject
  cases hn : storeNew E s.disk with
  | mk d ok =>
    cases ok with
    | false => exact gets_step 0 (by simp only [LfsTask.step, hn] <;> rfl) (gets_here ..)
    | true =>
      refine gets_step 0 (by simp only [LfsTask.step, hn] <;> rfl) ?_
      simp only [Bool.not_true, Bool.false_eq_true, if_false]
      cases hm : lfsGetMeta D s.metas oid with
      | none => exact gets_step 0 (by simp only [LfsTask.step, hm] <;> rfl) (gets_here ..)
      | some row =>
        refine gets_step 0 (by simp only [LfsTask.step, hm] <;> rfl) ?_
        simp only [storeGet]
        cases hp : storePath E row.1 with
        | err e => exact gets_step 0 (by simp only [LfsTask.step, hp] <;> rfl) (gets_here ..)
        | panic => exact gets_step 0 (by simp only [LfsTask.step, hp] <;> rfl) (gets_here ..)
        | spin => exact gets_step 0 (by simp only [LfsTask.step, hp] <;> rfl) (gets_here ..)
        | ok p =>
          simp only [Res.bind_ok]
          cases hd : d p with
          | none => exact gets_step 0 (by simp only [LfsTask.step, hp, hd] <;> rfl) (gets_here ..)
          | some x =>
            cases x with
            | dir => exact gets_step 0 (by simp only [LfsTask.step, hp, hd] <;> rfl) (gets_here ..)
            | file c =>
              refine gets_step 0 (by simp only [LfsTask.step, hp, hd] <;> rfl) ?_
              have last : LfsTask.Gets D E { s with disk := d } { req := .download oid, phase := .read p c } (.done (.ok (.content c))) { s with disk := d } :=
                gets_step 0 (by simp only [LfsTask.step, hd, Nat.le_refl, if_true] <;> rfl) (gets_here ..)
              by_cases hc : c = []
              · subst hc; exact last
              · refine gets_step c.length (p1 := .read p c) ?_ last
                have : ¬ c.length ≤ 0 := by
                  intro h; exact hc (List.length_eq_zero_iff.1 (Nat.le_zero.1 h))
                simp only [LfsTask.step, hd, List.length_nil, if_neg this, List.drop_zero, List.nil_append]
                rw [List.take_of_length_le (Nat.le_succ _)]

/-- The loop of a batch that is not interrupted. -/
theorem alone_loop (D : DbExt) (E : StoreExt) (op : Bytes) (ws : List RequestVars) (d : Disk) : ∀ (vs : List RequestVars) (m : MetaTable) (acc : List Rep),
    LfsTask.Gets D E { metas := m, disk := d } { req := .batch op ws, phase := .next vs acc }
      (.done ((batchLoop D E d (op == ascii "upload") vs m).1.toReply.out (fun l => .entries (acc ++ l))))
      { metas := (batchLoop D E d (op == ascii "upload") vs m).2, disk := d }
  | [], m, acc => gets_step 0 (by simp only [LfsTask.step, batchLoop, Res.toReply, Reply.out, List.append_nil] <;> rfl) (gets_here ..)
  | v :: vs, m, acc => by
    have go : ∀ (r : Rep) (m1 : MetaTable), batchOne D E d m (op == ascii "upload") v = (.ok r, m1) →
        ∀ p s, LfsTask.Gets D E { metas := m1, disk := d } { req := .batch op ws, phase := .next vs (acc ++ [r]) } p s →
        p = .done ((batchLoop D E d (op == ascii "upload") vs m1).1.toReply.out (fun l => .entries ((acc ++ [r]) ++ l))) →
        s = { metas := (batchLoop D E d (op == ascii "upload") vs m1).2, disk := d } →
        LfsTask.Gets D E { metas := m1, disk := d } { req := .batch op ws, phase := .next vs (acc ++ [r]) }
          (.done ((batchLoop D E d (op == ascii "upload") (v :: vs) m).1.toReply.out (fun l => .entries (acc ++ l))))
          { metas := (batchLoop D E d (op == ascii "upload") (v :: vs) m).2, disk := d } := by
      intro r m1 hb p s hg hp hs
      subst hp hs
      simp only [batchLoop, hb]
      cases hl : batchLoop D E d (op == ascii "upload") vs m1 with
      | mk x m2 =>
        rw [hl] at hg
        cases x with
        | ok rs => simpa [Res.toReply, Reply.out] using hg
        | err e => exact hg
        | panic => exact hg
        | spin => exact hg
    have go' : ∀ (r : Rep) (m1 : MetaTable), batchOne D E d m (op == ascii "upload") v = (.ok r, m1) →
        LfsTask.Gets D E { metas := m1, disk := d } { req := .batch op ws, phase := .next vs (acc ++ [r]) }
          (.done ((batchLoop D E d (op == ascii "upload") (v :: vs) m).1.toReply.out (fun l => .entries (acc ++ l))))
          { metas := (batchLoop D E d (op == ascii "upload") (v :: vs) m).2, disk := d } :=
      fun r m1 hb => go r m1 hb _ _ (alone_loop D E op ws d vs m1 (acc ++ [r])) rfl rfl
    have bad : batchOne D E d m (op == ascii "upload") v = (.panic, m) →
        LfsTask.Gets D E { metas := m, disk := d } { req := .batch op ws, phase := .done .panic }
          (.done ((batchLoop D E d (op == ascii "upload") (v :: vs) m).1.toReply.out (fun l => .entries (acc ++ l))))
          { metas := (batchLoop D E d (op == ascii "upload") (v :: vs) m).2, disk := d } := by
      intro hb
      simp only [batchLoop, hb]
      exact gets_here ..
    have put : (∀ row, lfsGetMeta D m v.oid = some row → storeExist E d row.1 = .ok false) →
        LfsTask.Gets D E { metas := m, disk := d } { req := .batch op ws, phase := notFound (op == ascii "upload") v vs acc }
          (.done ((batchLoop D E d (op == ascii "upload") (v :: vs) m).1.toReply.out (fun l => .entries (acc ++ l))))
          { metas := (batchLoop D E d (op == ascii "upload") (v :: vs) m).2, disk := d } := by
      intro hrow
      have hb : batchOne D E d m (op == ascii "upload") v =
          if (op == ascii "upload") = true then
            match lfsPutMeta D m v.oid v.size with
            | some (row, m') => (.ok (uploadRep E row v), m')
            | none => (.panic, m)
          else (.ok { oid := v.oid, size := v.size, offer := .error 404 }, m) := by
        unfold batchOne
        cases hg : lfsGetMeta D m v.oid with
        | none => rfl
        | some row => simp only [hrow row hg]; rfl
      cases hop : (op == ascii "upload") with
      | false =>
        rw [hop] at hb go'
        simp only [notFound, Bool.false_eq_true, if_false]
        exact go' _ _ (hb.trans rfl)
      | true =>
        rw [hop] at hb go' bad
        simp only [notFound, if_true]
        simp only [if_true, lfsPutMeta] at hb
        cases hr : m (D.fold v.oid) with
        | some row =>
          rw [hr] at hb
          exact gets_step 0 (by simp only [LfsTask.step, hr] <;> rfl) (go' _ _ hb)
        | none =>
          rw [hr] at hb
          refine gets_step 0 (by simp only [LfsTask.step, hr] <;> rfl) ?_
          cases hf : D.metaFits v.oid v.size with
          | true =>
            simp only [hf, if_true] at hb
            exact gets_step 0 (by simp only [LfsTask.step, hr, hf, if_true] <;> rfl) (go' _ _ hb)
          | false =>
            simp only [hf, Bool.false_eq_true, if_false] at hb
            exact gets_step 0 (by simp only [LfsTask.step, hr, hf, Bool.false_eq_true, if_false] <;> rfl) (bad hb)
    cases hg : lfsGetMeta D m v.oid with
    | none => exact gets_step 0 (by simp only [LfsTask.step, hg] <;> rfl) (put (by rw [hg]; intro row h; cases h))
    | some row =>
      refine gets_step 0 (by simp only [LfsTask.step, hg] <;> rfl) ?_
      cases he : storeExist E d row.1 with
      | ok b =>
        cases b with
        | true => exact gets_step 0 (by simp only [LfsTask.step, he] <;> rfl) (go' { oid := row.1, size := row.2, offer := .download (internalLink E.origin v) } m (by simp only [batchOne, hg, he]))
        | false =>
          exact gets_step 0 (by simp only [LfsTask.step, he] <;> rfl) (put (by rw [hg]; intro r h; cases h; exact he))
      | err e => exact gets_step 0 (by simp only [LfsTask.step, he] <;> rfl) (bad (by simp only [batchOne, hg, he]))
      | panic => exact gets_step 0 (by simp only [LfsTask.step, he] <;> rfl) (bad (by simp only [batchOne, hg, he]))
      | spin => exact gets_step 0 (by simp only [LfsTask.step, he] <;> rfl) (bad (by simp only [batchOne, hg, he]))

/-- A batch that is not interrupted. -/
theorem alone_batch (D : DbExt) (E : StoreExt) (s : LfsState) (op : Bytes) (vs : List RequestVars) : LfsTask.Gets D E s { req := .batch op vs, phase := .start }
    (.done ((processBatch D E s op vs).1.out .entries)) (processBatch D E s op vs).2 := by
  unfold processBatch
  cases hn : storeNew E s.disk with
  | mk d ok =>
    cases ok with
    | false => exact gets_step 0 (by simp only [LfsTask.step, hn] <;> rfl) (gets_here ..)
    | true => exact gets_step 0 (by simp only [LfsTask.step, hn] <;> rfl) (alone_loop D E op vs d vs s.metas [])

/-! ## What a step does -/

/-- What a step does to the files. -/
theorem step_disk (D : DbExt) (E : StoreExt) (n : Nat) (s : LfsState) (t : LfsTask) :
    Grown s.disk (t.step D E n s).2.disk ∨
    (∃ row p, t.phase = .create row p ∧ (t.step D E n s).1 = .write row p ∧ (t.step D E n s).2.disk = setAt s.disk p (some (.file []))) ∨
    ∃ row p oid body old, t.phase = .write row p ∧ t.req = .upload oid body ∧ s.disk p = some (.file old) ∧
      (t.step D E n s).2.disk = setAt s.disk p (some (.file (body.take (min body.length E.maxWrite) ++ old.drop (min body.length E.maxWrite)))) := by
  obtain ⟨q, ph⟩ := t
  cases ph with
  | start =>
    refine .inl ?_
    have h := storeNew_grown E s.disk
    simp only [LfsTask.step]
    cases hn : storeNew E s.disk with
    | mk d ok =>
      rw [hn] at h
      cases ok with
      | false => exact h
      | true => cases q <;> exact h
  | dirs row =>
    refine .inl ?_
    simp only [LfsTask.step]
    split
    · rename_i p hp
      have h := mkdirs_grown p.1 p.2.dropLast [] s.disk
      cases hn : mkdirs p.1 s.disk [] p.2.dropLast with
      | mk d ok => rw [hn] at h; cases ok <;> exact h
    · exact Grown.refl _
  | create row p =>
    simp only [LfsTask.step]
    split
    · exact .inl (Grown.refl _)
    · exact .inr (.inl ⟨row, p, rfl, rfl, rfl⟩)
  | write row p =>
    cases q with
    | batch op vs => exact .inl (Grown.refl _)
    | download oid => exact .inl (Grown.refl _)
    | upload oid body =>
    simp only [LfsTask.step]
    split
    · rename_i b old hq hd
      cases hq
      refine .inr (.inr ⟨row, p, oid, body, old, rfl, rfl, hd, ?_⟩)
      have e : writeAt old 0 (body.take (min body.length E.maxWrite)) =
          body.take (min body.length E.maxWrite) ++ old.drop (min body.length E.maxWrite) := by
        rw [writeAt_start, List.length_take, Nat.min_eq_left (Nat.min_le_left _ _)]
      rw [e]
      split <;> [rfl; (split <;> rfl)]
    · exact .inl (Grown.refl _)
  | lookup =>
    refine .inl ?_
    simp only [LfsTask.step]
    cases q <;> simp only <;> first | exact Grown.refl _ | (split <;> exact Grown.refl _)
  | reject => refine .inl ?_; simp only [LfsTask.step]; cases q <;> exact Grown.refl _
  | «open» row =>
    refine .inl ?_
    simp only [LfsTask.step]
    split
    · split <;> exact Grown.refl _
    · exact Grown.refl _
  | read p acc =>
    refine .inl ?_
    simp only [LfsTask.step]
    split
    · split <;> exact Grown.refl _
    · exact Grown.refl _
  | next vs acc =>
    refine .inl ?_
    cases vs with
    | nil => exact Grown.refl _
    | cons v vs => simp only [LfsTask.step]; split <;> exact Grown.refl _
  | look row v vs acc => refine .inl ?_; simp only [LfsTask.step]; split <;> exact Grown.refl _
  | check v vs acc => refine .inl ?_; simp only [LfsTask.step]; split <;> exact Grown.refl _
  | insert v vs acc =>
    refine .inl ?_
    simp only [LfsTask.step]
    split
    · exact Grown.refl _
    · split <;> exact Grown.refl _
  | done r => exact .inl (Grown.refl _)

/-- What a step does to the rows. -/
theorem step_metas (D : DbExt) (E : StoreExt) (n : Nat) (s : LfsState) (t : LfsTask) :
    (t.step D E n s).2.metas = s.metas ∨
    (∃ oid body, t.phase = .reject ∧ t.req = .upload oid body ∧ (t.step D E n s).2.metas = setAt s.metas (D.fold oid) none) ∨
    ∃ v vs acc, t.phase = .insert v vs acc ∧ s.metas (D.fold v.oid) = none ∧
      (t.step D E n s).2.metas = setAt s.metas (D.fold v.oid) (some (v.oid, v.size)) := by
  obtain ⟨q, ph⟩ := t
  cases ph with
  | start =>
    refine .inl ?_
    simp only [LfsTask.step]
    cases storeNew E s.disk with
    | mk d ok =>
      cases ok with
      | false => rfl
      | true => cases q <;> rfl
  | dirs row =>
    refine .inl ?_
    simp only [LfsTask.step]
    split
    · rename_i p hp
      cases mkdirs p.1 s.disk [] p.2.dropLast with
      | mk d ok => cases ok <;> rfl
    · rfl
  | create row p => refine .inl ?_; simp only [LfsTask.step]; split <;> rfl
  | write row p =>
    refine .inl ?_
    simp only [LfsTask.step]
    split
    · split <;> [rfl; (split <;> rfl)]
    · rfl
  | lookup =>
    refine .inl ?_
    simp only [LfsTask.step]
    cases q <;> simp only <;> (split <;> rfl)
  | reject =>
    simp only [LfsTask.step]
    cases q with
    | upload oid body => exact .inr (.inl ⟨oid, body, by simp, by simp, rfl⟩)
    | _ => exact .inl rfl
  | «open» row =>
    refine .inl ?_
    simp only [LfsTask.step]
    split
    · split <;> rfl
    · rfl
  | read p acc =>
    refine .inl ?_
    simp only [LfsTask.step]
    split
    · split <;> rfl
    · rfl
  | next vs acc =>
    refine .inl ?_
    cases vs with
    | nil => rfl
    | cons v vs => simp only [LfsTask.step]; split <;> rfl
  | look row v vs acc => refine .inl ?_; simp only [LfsTask.step]; split <;> rfl
  | check v vs acc => refine .inl ?_; simp only [LfsTask.step]; split <;> rfl
  | insert v vs acc =>
    simp only [LfsTask.step]
    split
    · exact .inl rfl
    · rename_i h
      split
      · exact .inr (.inr ⟨v, vs, acc, by simp, h, rfl⟩)
      · exact .inl rfl
  | done r => exact .inl rfl

theorem step_keyed {D : DbExt} {s : LfsState} (h : Keyed D s.metas) (E : StoreExt) (n : Nat) (t : LfsTask) : Keyed D (t.step D E n s).2.metas := by
  intro k o m hk
  rcases step_metas D E n s t with e | ⟨oid, body, _, _, e⟩ | ⟨v, vs, acc, _, _, e⟩
  · rw [e] at hk; exact h k o m hk
  · rw [e, setAt_eq] at hk
    split at hk
    · cases hk
    · exact h k o m hk
  · rw [e, setAt_eq] at hk
    split at hk
    · rename_i hkey
      cases hk
      exact hkey.symm
    · exact h k o m hk

/-- The rows and paths in the phases belong to the oid of the request. -/
def PhaseKeyed (D : DbExt) (E : StoreExt) (q : LfsReq) : LfsPhase → Prop
  | .dirs row => ∃ oid body, q = .upload oid body ∧ D.fold row.1 = D.fold oid
  | .create row p => ∃ oid body, q = .upload oid body ∧ D.fold row.1 = D.fold oid ∧ storePath E row.1 = .ok p
  | .write row p => ∃ oid body, q = .upload oid body ∧ D.fold row.1 = D.fold oid ∧ storePath E row.1 = .ok p
  | .reject => ∃ oid body, q = .upload oid body
  | .open row => ∃ oid, q = .download oid ∧ D.fold row.1 = D.fold oid
  | .read p _ => ∃ oid o, q = .download oid ∧ D.fold o = D.fold oid ∧ storePath E o = .ok p
  | .done (.ok .stored) => ∃ oid body o, q = .upload oid body ∧ D.fold o = D.fold oid ∧ E.digest body = o
  | .done (.ok (.content _)) => ∃ oid, q = .download oid
  | .next _ _ => ∃ op vs, q = .batch op vs
  | .look _ _ _ _ => ∃ op vs, q = .batch op vs
  | .check _ _ _ => ∃ op vs, q = .batch op vs
  | .insert _ _ _ => ∃ op vs, q = .batch op vs
  | _ => True

theorem step_phase {D : DbExt} {s : LfsState} (hk : Keyed D s.metas) (E : StoreExt) (n : Nat) {t : LfsTask} (h : PhaseKeyed D E t.req t.phase) :
    PhaseKeyed D E t.req (t.step D E n s).1 := by
  obtain ⟨q, ph⟩ := t
  dsimp only at h
  have nf : ∀ b v vs acc, (∃ op ws, q = .batch op ws) → PhaseKeyed D E q (notFound b v vs acc) := by
    intro b v vs acc hq
    unfold notFound
    split <;> exact hq
  cases ph with
  | start =>
    simp only [LfsTask.step]
    cases storeNew E s.disk with
    | mk d ok =>
      cases ok with
      | false => trivial
      | true =>
        cases q with
        | batch op vs => exact ⟨op, vs, rfl⟩
        | _ => trivial
  | dirs row =>
    obtain ⟨oid, body, rfl, hf⟩ := h
    simp only [LfsTask.step]
    split
    · rename_i p hp
      cases mkdirs p.1 s.disk [] p.2.dropLast with
      | mk d ok =>
        cases ok with
        | false => trivial
        | true => exact ⟨oid, body, rfl, hf, hp⟩
    · trivial
  | create row p =>
    simp only [LfsTask.step]
    split
    · trivial
    · exact h
  | write row p =>
    obtain ⟨oid, body, rfl, hf, hp⟩ := h
    simp only [LfsTask.step]
    split
    · rename_i hq hd
      cases hq
      split
      · exact ⟨oid, body, rfl⟩
      · split
        · exact ⟨oid, body, rfl⟩
        · rename_i h2
          exact ⟨oid, body, row.1, rfl, hf, by simpa using h2⟩
    · trivial
  | lookup =>
    simp only [LfsTask.step]
    cases q with
    | batch op vs => trivial
    | upload oid body =>
      simp only
      split
      · trivial
      · rename_i row hr
        exact ⟨oid, body, rfl, hk _ _ _ hr⟩
    | download oid =>
      simp only
      split
      · trivial
      · rename_i row hr
        exact ⟨oid, rfl, hk _ _ _ hr⟩
  | reject =>
    obtain ⟨oid, body, rfl⟩ := h
    trivial
  | «open» row =>
    obtain ⟨oid, rfl, hf⟩ := h
    simp only [LfsTask.step]
    split
    · rename_i p hp
      split
      · exact ⟨oid, row.1, rfl, hf, hp⟩
      · trivial
    · trivial
  | read p acc =>
    obtain ⟨oid, o, rfl, hf, hp⟩ := h
    simp only [LfsTask.step]
    split
    · split
      · exact ⟨oid, rfl⟩
      · exact ⟨oid, o, rfl, hf, hp⟩
    · trivial
  | next vs acc =>
    cases vs with
    | nil => trivial
    | cons v vs =>
      simp only [LfsTask.step]
      split
      · exact h
      · exact nf _ _ _ _ h
  | look row v vs acc =>
    simp only [LfsTask.step]
    split
    · exact h
    · exact nf _ _ _ _ h
    · trivial
  | check v vs acc => simp only [LfsTask.step]; split <;> exact h
  | insert v vs acc =>
    simp only [LfsTask.step]
    split
    · trivial
    · split
      · exact h
      · trivial
  | done r => exact h

/-! ## C101: transfers -/

/-- The uploads for routed oids; all those for `oid` carry `body`. -/
def Spec.OneBody (D : DbExt) (E : StoreExt) (oid body : Bytes) (q : LfsReq) : Prop :=
  ∀ oid' body', q = .upload oid' body' → Spec.RouteOid oid' ∧ body'.length ≤ E.maxWrite ∧ (D.fold oid' = D.fold oid → body' = body)

/-- Everything a step may rely on. -/
structure Transfers (D : DbExt) (E : StoreExt) (oid body : Bytes) (s : LfsServer) : Prop where
  keyed : Keyed D s.state.metas
  reqs : ∀ (i : Nat) (t : LfsTask), s.tasks[i]? = some t → Spec.OneBody D E oid body t.req
  phases : ∀ (i : Nat) (t : LfsTask), s.tasks[i]? = some t → PhaseKeyed D E t.req t.phase
  files : ∀ o p c, D.fold o = D.fold oid → storePath E o = .ok p → s.state.disk p = some (.file c) →
    c = body ∨ c = [] ∧ ∃ (i : Nat) (t : LfsTask) (row : Bytes × Int), s.tasks[i]? = some t ∧ t.phase = .write row p
  reading : ∀ (i : Nat) (t : LfsTask) p acc o, s.tasks[i]? = some t → t.req = .download o → D.fold o = D.fold oid → t.phase = .read p acc → acc <+: body
  answered : ∀ (i : Nat) (t : LfsTask) c o, s.tasks[i]? = some t → t.req = .download o → D.fold o = D.fold oid → t.phase = .done (.ok (.content c)) → c <+: body

theorem getElem?_set_cases {α : Type} {l : List α} {i j : Nat} {a b : α} (h : (l.set i a)[j]? = some b) : (j = i ∧ b = a) ∨ (j ≠ i ∧ l[j]? = some b) := by
  rw [List.getElem?_set] at h
  split at h
  · rename_i e
    split at h
    · cases h; exact .inl ⟨e.symm, rfl⟩
    · cases h
  · rename_i e
    exact .inr ⟨fun h => e h.symm, h⟩

/-- The path of a row for a routed oid belongs to no other key. -/
theorem path_key {D : DbExt} (hD : Spec.CollationOk D) {E : StoreExt} {oid oid' o o' : Bytes} {p : Bool × List Bytes} (ho : Spec.RouteOid oid) (ho' : Spec.RouteOid oid')
    (hf : D.fold o = D.fold oid) (hf' : D.fold o' = D.fold oid') (hp : storePath E o = .ok p) (hp' : storePath E o' = .ok p) : D.fold oid' = D.fold oid := by
  have h := hD o oid ho hf
  have h' := hD o' oid' ho' hf'
  have : o' = o := storePath_inj E ⟨h'.1, h'.2.1, h'.2.2.1⟩ ⟨h.1, h.2.1, h.2.2.1⟩ hp' hp
  subst this
  exact hf'.symm.trans hf

theorem prefix_read {acc c body : Bytes} (h : acc <+: body) (hc : c = body ∨ c = []) (n : Nat) : acc ++ (c.drop acc.length).take n <+: body := by
  rcases hc with rfl | rfl
  · obtain ⟨r, rfl⟩ := h
    rw [List.drop_left]
    exact (List.prefix_append_right_inj acc).2 (List.take_prefix _ _)
  · simpa using h

theorem transfers_step {D : DbExt} (hD : Spec.CollationOk D) {E : StoreExt} {oid body : Bytes} (ho : Spec.RouteOid oid) {s s' : LfsServer}
    (h : Transfers D E oid body s) (hs : LfsServer.Step D E (Spec.OneBody D E oid body) s s') : Transfers D E oid body s' := by
  cases hs with
  | arrive q hq =>
    have new : ∀ (i : Nat) (t : LfsTask), (s.tasks ++ [{ req := q, phase := .start }])[i]? = some t → s.tasks[i]? = some t ∨ t = ({ req := q, phase := .start } : LfsTask) := by
      intro i t ht
      rw [List.getElem?_append] at ht
      split at ht
      · exact .inl ht
      · refine .inr (List.mem_singleton.1 (List.mem_of_getElem? ht))
    refine ⟨h.keyed, ?_, ?_, ?_, ?_, ?_⟩
    · intro i t ht
      rcases new i t ht with ht | rfl
      · exact h.reqs i t ht
      · exact hq
    · intro i t ht
      rcases new i t ht with ht | rfl
      · exact h.phases i t ht
      · trivial
    · intro o p c hf hp hc
      rcases h.files o p c hf hp hc with h | ⟨h, i, t, row, ht, hph⟩
      · exact .inl h
      · refine .inr ⟨h, i, t, row, ?_, hph⟩
        rw [List.getElem?_append_left (List.getElem?_eq_some_iff.1 ht).1]
        exact ht
    · intro i t p acc o ht hr hf hph
      rcases new i t ht with ht | rfl
      · exact h.reading i t p acc o ht hr hf hph
      · cases hph
    · intro i t c o ht hr hf hph
      rcases new i t ht with ht | rfl
      · exact h.answered i t c o ht hr hf hph
      · cases hph
  | run i n t ht =>
    have hreq := h.reqs i t ht
    have hph := h.phases i t ht
    have hil := (List.getElem?_eq_some_iff.1 ht).1
    refine ⟨step_keyed h.keyed E n t, ?_, ?_, ?_, ?_, ?_⟩
    · intro j u hu
      rcases getElem?_set_cases hu with ⟨rfl, rfl⟩ | ⟨_, hu⟩
      · exact hreq
      · exact h.reqs j u hu
    · intro j u hu
      rcases getElem?_set_cases hu with ⟨rfl, rfl⟩ | ⟨_, hu⟩
      · exact step_phase h.keyed E n hph
      · exact h.phases j u hu
    · intro o p c hf hp hc
      dsimp only at hc ⊢
      have keep : (∀ row, t.phase ≠ .write row p) → (∃ (j : Nat) (u : LfsTask) (row : Bytes × Int), s.tasks[j]? = some u ∧ u.phase = .write row p) →
          ∃ (j : Nat) (u : LfsTask) (row : Bytes × Int), (s.tasks.set i { t with phase := (t.step D E n s.state).1 })[j]? = some u ∧ u.phase = .write row p := by
        rintro hne ⟨j, u, row, hu, hup⟩
        have hji : i ≠ j := by
          rintro rfl
          rw [ht] at hu
          cases hu
          exact hne row hup
        exact ⟨j, u, row, by rw [List.getElem?_set_ne hji]; exact hu, hup⟩
      rcases step_disk D E n s.state t with hg | ⟨row, p', h1, h2, h3⟩ | ⟨row, p', oid', body', old, h1, h2, h3, h4⟩
      · by_cases hw : ∃ row, t.phase = .write row p
        · obtain ⟨row, hw⟩ := hw
          -- a write that changes nothing does not happen
          have hc' := hg.file.1 hc
          rw [hw] at hph
          obtain ⟨oid', body', hq, hf', hp'⟩ := hph
          obtain ⟨hro, hlen, hb⟩ := hreq oid' body' hq
          have hb := hb (path_key hD ho hro hf hf' hp hp')
          subst hb
          left
          have hd : (t.step D E n s.state).2.disk = setAt s.state.disk p (some (.file (body' ++ c.drop body'.length))) := by
            obtain ⟨q, ph⟩ := t
            dsimp only at hw hq
            subst hw hq
            have e : writeAt c 0 (body'.take (min body'.length E.maxWrite)) = body' ++ c.drop body'.length := by
              rw [Nat.min_eq_left hlen, List.take_of_length_le (Nat.le_refl _), writeAt_start]
            simp only [LfsTask.step, hc', e]
            split <;> [rfl; (split <;> rfl)]
          rw [hd, setAt_same] at hc
          have hc : body' ++ c.drop body'.length = c := by simpa using hc
          rw [← hc]
          rcases h.files o p _ hf hp hc' with h | ⟨h, _⟩ <;> rw [h] <;> simp
        · have hc' := hg.file.1 hc
          rcases h.files o p c hf hp hc' with h | ⟨h, hex⟩
          · exact .inl h
          · exact .inr ⟨h, keep (fun row hr => hw ⟨row, hr⟩) hex⟩
      · by_cases e : p = p'
        · subst e
          rw [h3, setAt_same] at hc
          cases hc
          refine .inr ⟨rfl, i, { t with phase := (t.step D E n s.state).1 }, row, ?_, h2⟩
          rw [List.getElem?_set_self hil]
        · rw [h3, setAt_other _ _ e] at hc
          rcases h.files o p c hf hp hc with h | ⟨h, hex⟩
          · exact .inl h
          · exact .inr ⟨h, keep (fun row hr => by rw [h1] at hr; cases hr) hex⟩
      · rw [h1] at hph
        obtain ⟨oid'', body'', hq, hf', hp'⟩ := hph
        rw [h2] at hq
        cases hq
        obtain ⟨hro, hlen, hb⟩ := hreq oid' body' h2
        by_cases e : p = p'
        · subst e
          have hb := hb (path_key hD ho hro hf hf' hp hp')
          subst hb
          rw [h4, setAt_same, Nat.min_eq_left hlen, List.take_of_length_le (Nat.le_refl _)] at hc
          cases hc
          left
          rcases h.files o p _ hf hp h3 with h | ⟨h, _⟩ <;> rw [h] <;> simp
        · rw [h4, setAt_other _ _ e] at hc
          rcases h.files o p c hf hp hc with h | ⟨h, hex⟩
          · exact .inl h
          · exact .inr ⟨h, keep (fun row hr => by rw [h1] at hr; cases hr; exact e rfl) hex⟩
    · intro j u p acc o hu hr hf hup
      rcases getElem?_set_cases hu with ⟨rfl, rfl⟩ | ⟨_, hu⟩
      · dsimp only at hr hup
        obtain ⟨q, ph⟩ := t
        dsimp only at hr
        subst hr
        cases ph with
        | start =>
          simp only [LfsTask.step] at hup
          cases hn : storeNew E s.state.disk with
          | mk d ok => rw [hn] at hup; cases ok <;> cases hup
        | lookup =>
          simp only [LfsTask.step] at hup
          split at hup <;> cases hup
        | «open» row =>
          simp only [LfsTask.step] at hup
          split at hup
          · split at hup
            · cases hup; exact List.nil_prefix
            · cases hup
          · cases hup
        | read p0 acc0 =>
          have hpre := h.reading j _ p0 acc0 o ht rfl hf rfl
          obtain ⟨_, o2, hq, hf2, hp2⟩ := hph
          cases hq
          simp only [LfsTask.step] at hup
          split at hup
          · rename_i c hc
            split at hup
            · cases hup
            · injection hup with e1 e2
              subst e2
              exact prefix_read hpre ((h.files o2 p0 c (hf2.trans hf) hp2 hc).imp_right And.left) _
          · cases hup
        | dirs row => obtain ⟨_, _, hq, _⟩ := hph; cases hq
        | create row p => obtain ⟨_, _, hq, _⟩ := hph; cases hq
        | write row p => obtain ⟨_, _, hq, _⟩ := hph; cases hq
        | reject => obtain ⟨_, _, hq⟩ := hph; cases hq
        | next vs acc => obtain ⟨_, _, hq⟩ := hph; cases hq
        | look row v vs acc => obtain ⟨_, _, hq⟩ := hph; cases hq
        | check v vs acc => obtain ⟨_, _, hq⟩ := hph; cases hq
        | insert v vs acc => obtain ⟨_, _, hq⟩ := hph; cases hq
        | done r => cases hup
      · exact h.reading j u p acc o hu hr hf hup
    · intro j u c o hu hr hf hup
      rcases getElem?_set_cases hu with ⟨rfl, rfl⟩ | ⟨_, hu⟩
      · dsimp only at hr hup
        obtain ⟨q, ph⟩ := t
        dsimp only at hr
        subst hr
        cases ph with
        | start =>
          simp only [LfsTask.step] at hup
          cases hn : storeNew E s.state.disk with
          | mk d ok => rw [hn] at hup; cases ok <;> cases hup
        | lookup =>
          simp only [LfsTask.step] at hup
          split at hup <;> cases hup
        | «open» row =>
          simp only [LfsTask.step] at hup
          split at hup
          · split at hup <;> cases hup
          · cases hup
        | read p0 acc0 =>
          have hpre := h.reading j _ p0 acc0 o ht rfl hf rfl
          simp only [LfsTask.step] at hup
          split at hup
          · split at hup
            · cases hup; exact hpre
            · cases hup
          · cases hup
        | dirs row => obtain ⟨_, _, hq, _⟩ := hph; cases hq
        | create row p => obtain ⟨_, _, hq, _⟩ := hph; cases hq
        | write row p => obtain ⟨_, _, hq, _⟩ := hph; cases hq
        | reject => obtain ⟨_, _, hq⟩ := hph; cases hq
        | next vs acc => obtain ⟨_, _, hq⟩ := hph; cases hq
        | look row v vs acc => obtain ⟨_, _, hq⟩ := hph; cases hq
        | check v vs acc => obtain ⟨_, _, hq⟩ := hph; cases hq
        | insert v vs acc => obtain ⟨_, _, hq⟩ := hph; cases hq
        | done r => exact h.answered j _ c o ht rfl hf hup
      · exact h.answered j u c o hu hr hf hup

/-- A new server without tasks. -/
def LfsServer.new (s0 : LfsState) : LfsServer := { state := s0, tasks := [] }

theorem transfers_new {D : DbExt} (hD : Spec.CollationOk D) {E : StoreExt} {oid body : Bytes} (ho : Spec.RouteOid oid) {s0 : LfsState}
    (hs : Spec.FreshStore E s0) : Transfers D E oid body (.new s0) := by
  refine ⟨fresh_keyed D hs, ?_, ?_, ?_, ?_, ?_⟩
  · intro i t h; cases h
  · intro i t h; cases h
  · intro o p c hf hp hc
    have hpl := hD o oid ho hf
    have hpath := storePath_plain E ⟨hpl.1, hpl.2.1, hpl.2.2.1⟩ hp
    have hnone := hs.2.1 p ⟨oidParts o, by unfold oidParts; split <;> simp, hpath⟩
    rw [show (LfsServer.new s0).state.disk p = s0.disk p from rfl, hnone] at hc
    cases hc
  · intro i t p acc o h; cases h
  · intro i t c o h; cases h

theorem transfers_runs {D : DbExt} (hD : Spec.CollationOk D) {E : StoreExt} {oid body : Bytes} (ho : Spec.RouteOid oid) {s s' : LfsServer}
    (h : Transfers D E oid body s) (hr : LfsServer.Runs D E (Spec.OneBody D E oid body) s s') : Transfers D E oid body s' := by
  induction hr with
  | refl => exact h
  | step t u _ hs ih => exact transfers_step hD ho (ih) hs

/-- **C101 (partial)** On a new server on which all uploads for `oid` carry the same body, whatever requests overlap in whatever way, an answered download delivers the
beginning of this body. (Missing: the rest of it, see `C101_short_false`, and uploads with different bodies, see `C101_mixed_false`.) -/
theorem C101_prefix_partial (D : DbExt) (hD : Spec.CollationOk D) (E : StoreExt) (s0 : LfsState) (hs : Spec.FreshStore E s0) (oid body : Bytes) (ho : Spec.RouteOid oid)
    (s : LfsServer) (hr : LfsServer.Runs D E (Spec.OneBody D E oid body) (.new s0) s) (i : Nat) (c : Bytes)
    (hd : s.tasks[i]? = some { req := .download oid, phase := .done (.ok (.content c)) }) : c <+: body :=
  (transfers_runs hD ho (transfers_new hD ho hs) hr).answered i _ c oid hd rfl rfl rfl

/-- No upload for this oid is under way. -/
def Spec.NoUpload (D : DbExt) (oid : Bytes) (s : LfsServer) : Prop :=
  ∀ (i : Nat) (t : LfsTask) oid' body', s.tasks[i]? = some t → t.req = .upload oid' body' → D.fold oid' = D.fold oid → ∃ r, t.phase = .done r

/-- No upload for this oid is sent. -/
def Spec.NotUploaded (D : DbExt) (oid : Bytes) (q : LfsReq) : Prop := ∀ oid' body', q = .upload oid' body' → D.fold oid' ≠ D.fold oid

/-- Complete files, and complete reads by the tasks that arrived later. -/
structure Settled (D : DbExt) (E : StoreExt) (oid body : Bytes) (k : Nat) (s : LfsServer) : Prop where
  none : Spec.NoUpload D oid s
  late : ∀ (i : Nat) (t : LfsTask) c o, k ≤ i → s.tasks[i]? = some t → t.req = .download o → D.fold o = D.fold oid → t.phase = .done (.ok (.content c)) → c = body

theorem settled_files {D : DbExt} (hD : Spec.CollationOk D) {E : StoreExt} {oid body : Bytes} (ho : Spec.RouteOid oid) {s : LfsServer} (h : Transfers D E oid body s)
    (hn : Spec.NoUpload D oid s) {o : Bytes} {p : Bool × List Bytes} {c : Bytes} (hf : D.fold o = D.fold oid) (hp : storePath E o = .ok p)
    (hc : s.state.disk p = some (.file c)) : c = body := by
  rcases h.files o p c hf hp hc with h1 | ⟨_, i, t, row, ht, hph⟩
  · exact h1
  · have hk := h.phases i t ht
    rw [hph] at hk
    obtain ⟨oid', body', hq, hf', hp'⟩ := hk
    have hro := (h.reqs i t ht oid' body' hq).1
    obtain ⟨r, hr⟩ := hn i t oid' body' ht hq (path_key hD ho hro hf hf' hp hp')
    rw [hph] at hr
    cases hr

theorem settled_step {D : DbExt} (hD : Spec.CollationOk D) {E : StoreExt} {oid body : Bytes} (ho : Spec.RouteOid oid) {k : Nat} {s s' : LfsServer}
    (h : Transfers D E oid body s) (hset : Settled D E oid body k s)
    (hs : LfsServer.Step D E (fun q => Spec.OneBody D E oid body q ∧ Spec.NotUploaded D oid q) s s') : Settled D E oid body k s' := by
  cases hs with
  | arrive q hq =>
    have new : ∀ (i : Nat) (t : LfsTask), (s.tasks ++ [{ req := q, phase := .start }])[i]? = some t → s.tasks[i]? = some t ∨ t = ({ req := q, phase := .start } : LfsTask) := by
      intro i t ht
      rw [List.getElem?_append] at ht
      split at ht
      · exact .inl ht
      · refine .inr (List.mem_singleton.1 (List.mem_of_getElem? ht))
    refine ⟨?_, ?_⟩
    · intro i t oid' body' ht hr hf
      rcases new i t ht with ht | rfl
      · exact hset.none i t oid' body' ht hr hf
      · exact absurd hf (hq.2 oid' body' hr)
    · intro i t c o hi ht hr hf hph
      rcases new i t ht with ht | rfl
      · exact hset.late i t c o hi ht hr hf hph
      · cases hph
  | run i n t ht =>
    refine ⟨?_, ?_⟩
    · intro j u oid' body' hu hr hf
      rcases getElem?_set_cases hu with ⟨rfl, rfl⟩ | ⟨_, hu⟩
      · obtain ⟨r, hd⟩ := hset.none j t oid' body' ht hr hf
        refine ⟨r, ?_⟩
        obtain ⟨q, ph⟩ := t
        dsimp only at hd
        subst hd
        rfl
      · exact hset.none j u oid' body' hu hr hf
    · intro j u c o hj hu hr hf hup
      rcases getElem?_set_cases hu with ⟨rfl, rfl⟩ | ⟨_, hu⟩
      · dsimp only at hr hup
        have hph := h.phases j t ht
        obtain ⟨q, ph⟩ := t
        dsimp only at hr
        subst hr
        cases ph with
        | start =>
          simp only [LfsTask.step] at hup
          cases hn : storeNew E s.state.disk with
          | mk d ok => rw [hn] at hup; cases ok <;> cases hup
        | lookup =>
          simp only [LfsTask.step] at hup
          split at hup <;> cases hup
        | «open» row =>
          simp only [LfsTask.step] at hup
          split at hup
          · split at hup <;> cases hup
          · cases hup
        | read p0 acc0 =>
          have hpre := h.reading j _ p0 acc0 o ht rfl hf rfl
          obtain ⟨_, o2, hq, hf2, hp2⟩ := hph
          cases hq
          simp only [LfsTask.step] at hup
          split at hup
          · rename_i c' hc'
            have := settled_files hD ho h hset.none (hf2.trans hf) hp2 hc'
            subst this
            split at hup
            · rename_i hle
              injection hup with e1
              injection e1 with e1
              injection e1 with e1
              subst e1
              exact hpre.eq_of_length (Nat.le_antisymm hpre.length_le hle)
            · cases hup
          · cases hup
        | dirs row => obtain ⟨_, _, hq, _⟩ := hph; cases hq
        | create row p => obtain ⟨_, _, hq, _⟩ := hph; cases hq
        | write row p => obtain ⟨_, _, hq, _⟩ := hph; cases hq
        | reject => obtain ⟨_, _, hq⟩ := hph; cases hq
        | next vs acc => obtain ⟨_, _, hq⟩ := hph; cases hq
        | look row v vs acc => obtain ⟨_, _, hq⟩ := hph; cases hq
        | check v vs acc => obtain ⟨_, _, hq⟩ := hph; cases hq
        | insert v vs acc => obtain ⟨_, _, hq⟩ := hph; cases hq
        | done r => exact hset.late j _ c o hj ht rfl hf hup
      · exact hset.late j u c o hj hu hr hf hup

/-- **C101 (partial)** Once no upload for `oid` is under way and none is sent any more, every download that arrives and is answered delivers exactly the body that was
uploaded, whatever other requests overlap with it. (Missing: downloads that overlap with uploads for the same oid, see `C101_short_false`.) -/
theorem C101_quiet_partial (D : DbExt) (hD : Spec.CollationOk D) (E : StoreExt) (s0 : LfsState) (hs : Spec.FreshStore E s0) (oid body : Bytes) (ho : Spec.RouteOid oid)
    (s s' : LfsServer) (hr : LfsServer.Runs D E (Spec.OneBody D E oid body) (.new s0) s) (hn : Spec.NoUpload D oid s)
    (hr' : LfsServer.Runs D E (fun q => Spec.OneBody D E oid body q ∧ Spec.NotUploaded D oid q) s s') (i : Nat) (hi : s.tasks.length ≤ i) (c : Bytes)
    (hd : s'.tasks[i]? = some { req := .download oid, phase := .done (.ok (.content c)) }) : c = body := by
  have h := transfers_runs hD ho (transfers_new hD ho hs) hr
  have hset : Settled D E oid body s.tasks.length s := ⟨hn, fun j t c o hj ht => by
    rw [List.getElem?_eq_none hj] at ht; cases ht⟩
  clear hr hn
  have key : Transfers D E oid body s' ∧ Settled D E oid body s.tasks.length s' := by
    clear hd
    generalize s.tasks.length = k at hset ⊢
    clear hi
    induction hr' with
    | refl => exact ⟨h, hset⟩
    | step t u _ hst ih =>
      obtain ⟨h1, h2⟩ := ih
      refine ⟨transfers_step hD ho h1 ?_, settled_step hD ho h1 h2 hst⟩
      cases hst with
      | arrive q hq => exact .arrive _ q hq.1
      | run i n t ht => exact .run _ i n t ht
  exact key.2.late i _ c oid hi hd rfl rfl rfl

/-- **C101 (partial)** An upload is accepted only if the digest of its body is the oid, whatever overlaps with it. -/
theorem C101_accepted_partial (D : DbExt) (hD : Spec.CollationOk D) (E : StoreExt) (hE : Spec.HexDigest E) (s0 : LfsState) (hs : Spec.FreshStore E s0)
    (s : LfsServer) (hr : LfsServer.Runs D E (fun _ => True) (.new s0) s) (i : Nat) (oid body : Bytes) (ho : Spec.RouteOid oid)
    (hd : s.tasks[i]? = some { req := .upload oid body, phase := .done (.ok .stored) }) : E.digest body = oid := by
  have inv : Keyed D s.state.metas ∧ ∀ (i : Nat) (t : LfsTask), s.tasks[i]? = some t → PhaseKeyed D E t.req t.phase := by
    clear hd
    generalize hs0 : LfsServer.new s0 = x at hr
    induction hr with
    | refl => subst hs0; exact ⟨fresh_keyed D hs, fun i t h => by cases h⟩
    | step t u _ hst ih =>
      obtain ⟨h1, h2⟩ := ih
      cases hst with
      | arrive q hq =>
        refine ⟨h1, fun i t ht => ?_⟩
        rw [List.getElem?_append] at ht
        split at ht
        · exact h2 i t ht
        · rw [List.mem_singleton.1 (List.mem_of_getElem? ht)]; trivial
      | run i n t ht =>
        refine ⟨step_keyed h1 E n t, fun j u hu => ?_⟩
        rcases getElem?_set_cases hu with ⟨rfl, rfl⟩ | ⟨_, hu⟩
        · exact step_phase h1 E n (h2 j t ht)
        · exact h2 j u hu
  obtain ⟨oid', body', o, hq, hf, hdig⟩ := inv.2 i _ hd
  cases hq
  have hro := hexDigest_route hE body
  rw [hdig] at hro
  rw [hdig]
  exact (hD o oid ho hf).2.2.2 hro

/-! ## Schedules -/

/-- Events of a schedule. -/
inductive LfsEv
  | arrive (q : LfsReq)
  | run (i n : Nat)

/-- The server after a schedule. -/
def LfsServer.schedule (D : DbExt) (E : StoreExt) : List LfsEv → LfsServer → LfsServer
  | [], s => s
  | .arrive q :: es, s => LfsServer.schedule D E es { s with tasks := s.tasks ++ [{ req := q, phase := .start }] }
  | .run i n :: es, s =>
    match s.tasks[i]? with
    | some t => LfsServer.schedule D E es { state := (t.step D E n s.state).2, tasks := s.tasks.set i { t with phase := (t.step D E n s.state).1 } }
    | none => LfsServer.schedule D E es s

theorem runs_trans {D : DbExt} {E : StoreExt} {R : LfsReq → Prop} {s t u : LfsServer} (h1 : LfsServer.Runs D E R s t) (h2 : LfsServer.Runs D E R t u) :
    LfsServer.Runs D E R s u := by
  induction h2 with
  | refl => exact h1
  | step v w _ hs ih => exact .step _ v w ih hs

theorem schedule_runs {D : DbExt} {E : StoreExt} {R : LfsReq → Prop} : ∀ (es : List LfsEv) (s : LfsServer), (∀ q, .arrive q ∈ es → R q) →
    LfsServer.Runs D E R s (s.schedule D E es)
  | [], s, _ => .refl s
  | .arrive q :: es, s, h => runs_trans (.step _ _ _ (.refl s) (.arrive s q (h q (by simp)))) (schedule_runs es _ fun q hq => h q (by simp [hq]))
  | .run i n :: es, s, h => by
    simp only [LfsServer.schedule]
    split
    · rename_i t ht
      exact runs_trans (.step _ _ _ (.refl s) (.run s i n t ht)) (schedule_runs es _ fun q hq => h q (by simp [hq]))
    · exact schedule_runs es s fun q hq => h q (by simp [hq])

/-- The answer of task `i`. -/
def LfsServer.answer (s : LfsServer) (i : Nat) : Option (Reply LfsOut) :=
  match s.tasks[i]? with
  | some { phase := .done r, .. } => some r
  | _ => none

/-- `k` steps of task `i`. -/
def stepsOf (i k : Nat) : List LfsEv := List.replicate k (.run i 100)

/-- Announce `"right"` (task 0). -/
def announceRight : LfsReq := .batch (ascii "upload") [{ oid := rightOid, size := 5 }]

theorem rightOid_route : Spec.RouteOid rightOid := hexDigest_route demoStore_digest _

theorem oneBody_right {q : LfsReq} (h : q = announceRight ∨ q = .upload rightOid (ascii "right") ∨ q = .download rightOid) :
    Spec.OneBody lowerDb demoStore rightOid (ascii "right") q := by
  intro o b e
  rcases h with rfl | rfl | rfl <;> cases e
  exact ⟨rightOid_route, by decide, fun _ => rfl⟩

/-- Two uploads and a download one after the other. -/
example : ((LfsServer.new freshLfs).schedule lowerDb demoStore ([.arrive announceRight] ++ stepsOf 0 5 ++ [.arrive (.upload rightOid (ascii "right"))] ++ stepsOf 1 5 ++
    [.arrive (.upload rightOid (ascii "right"))] ++ stepsOf 2 5 ++ [.arrive (.download rightOid)] ++ stepsOf 3 5)).answer 3 = some (.ok (.content (ascii "right"))) := by
  decide +kernel

/-- **C101 is false** for a download that overlaps with a second upload of the same content: an upload was accepted, all uploads carry the right content, and still a
download is answered with success and delivers nothing. -/
theorem C101_short_false : ∃ s, LfsServer.Runs lowerDb demoStore (Spec.OneBody lowerDb demoStore rightOid (ascii "right")) (.new freshLfs) s ∧
    s.answer 1 = some (.ok .stored) ∧ s.answer 3 = some (.ok (.content [])) := by
  refine ⟨_, schedule_runs ([.arrive announceRight] ++ stepsOf 0 5 ++ [.arrive (.upload rightOid (ascii "right"))] ++ stepsOf 1 5 ++
    [.arrive (.upload rightOid (ascii "right"))] ++ stepsOf 2 4 ++ [.arrive (.download rightOid)] ++ stepsOf 3 4) _ ?_, by decide +kernel, by decide +kernel⟩
  intro q hq
  refine oneBody_right ?_
  simpa [stepsOf] using hq

/-- **C101 is false** when a right and a wrong (longer) upload overlap: the right one is accepted, and a download then delivers a mixture of both. -/
theorem C101_mixed_false : ∃ s c, LfsServer.Runs lowerDb demoStore (fun _ => True) (.new freshLfs) s ∧ s.answer 1 = some (.ok .stored) ∧
    s.answer 3 = some (.ok (.content c)) ∧ demoStore.digest c ≠ rightOid := by
  exact ⟨_, ascii "rightwrong", schedule_runs ([.arrive announceRight] ++ stepsOf 0 5 ++ [.arrive (.upload rightOid (ascii "right")), .arrive (.upload rightOid (ascii "wrongwrong"))] ++
    stepsOf 1 4 ++ stepsOf 2 5 ++ stepsOf 1 1 ++ [.arrive (.download rightOid)] ++ stepsOf 3 5) _ (fun _ _ => trivial), by decide +kernel, by decide +kernel, by decide +kernel⟩

/-- **C101 is false** when the server is killed during an upload, between creating the file and writing it: afterwards the object is offered for download (and no longer
for upload), and downloads deliver nothing. -/
theorem C101_killed_false : ∃ s href, LfsServer.Runs lowerDb demoStore (Spec.OneBody lowerDb demoStore rightOid (ascii "right")) (.new freshLfs) s ∧
    s.answer 2 = some (.ok (.entries [{ oid := rightOid, size := 5, offer := .download href }])) ∧ s.answer 3 = some (.ok (.content [])) := by
  refine ⟨_, internalLink demoStore.origin { oid := rightOid, size := 5 }, schedule_runs ([.arrive announceRight] ++ stepsOf 0 5 ++
    [.arrive (.upload rightOid (ascii "right"))] ++ stepsOf 1 4 ++ [.arrive announceRight] ++ stepsOf 2 4 ++ [.arrive (.download rightOid)] ++ stepsOf 3 4) _ ?_,
    by decide +kernel, by decide +kernel⟩
  intro q hq
  refine oneBody_right ?_
  simp [stepsOf] at hq
  tauto

/-! ## C102: announcements -/

/-- **C102 is false**: two clients announce the same new object at the same time; one of them gets no answer because the handler crashes. -/
theorem C102_announced_false : ∃ s, LfsServer.Runs lowerDb demoStore (fun q => q = announceRight) (.new freshLfs) s ∧
    (∃ l, s.answer 0 = some (.ok (.entries l))) ∧ s.answer 1 = some .panic :=
  ⟨_, schedule_runs ([.arrive announceRight, .arrive announceRight] ++ stepsOf 0 3 ++ stepsOf 1 3 ++ stepsOf 0 2 ++ stepsOf 1 1) _
    (by intro q hq; simpa [stepsOf] using hq), ⟨[{ oid := rightOid, size := 5, offer := .upload (internalLink demoStore.origin { oid := rightOid, size := 5 }) }],
      by decide +kernel⟩, by decide +kernel⟩

/-- An entry is for this object. -/
def Spec.EntryFor (D : DbExt) (r : Rep) (v : RequestVars) : Prop := D.fold r.oid = D.fold v.oid

/-- How far a batch is. -/
def BatchPhase (D : DbExt) (up : Bool) (vs : List RequestVars) : LfsPhase → Prop
  | .start => True
  | .next rest acc => ∃ pre, vs = pre ++ rest ∧ List.Forall₂ (Spec.EntryFor D) acc pre
  | .look row v rest acc => ∃ pre, vs = pre ++ v :: rest ∧ List.Forall₂ (Spec.EntryFor D) acc pre ∧ D.fold row.1 = D.fold v.oid
  | .check v rest acc => ∃ pre, vs = pre ++ v :: rest ∧ List.Forall₂ (Spec.EntryFor D) acc pre ∧ up = true
  | .insert v rest acc => ∃ pre, vs = pre ++ v :: rest ∧ List.Forall₂ (Spec.EntryFor D) acc pre ∧ up = true
  | .done (.ok (.entries l)) => List.Forall₂ (Spec.EntryFor D) l vs
  | .done .panic => True
  | _ => False

theorem forall₂_snoc {α β : Type} {R : α → β → Prop} {l : List α} {m : List β} {a : α} {b : β} (h : List.Forall₂ R l m) (hab : R a b) :
    List.Forall₂ R (l ++ [a]) (m ++ [b]) := by
  induction h with
  | nil => exact .cons hab .nil
  | cons h _ ih => exact .cons h ih

theorem batch_step {D : DbExt} {s : LfsState} (hk : Keyed D s.metas) (E : StoreExt) (n : Nat) {op : Bytes} {vs : List RequestVars} {ph : LfsPhase}
    (h : BatchPhase D (op == ascii "upload") vs ph) : BatchPhase D (op == ascii "upload") vs (LfsTask.step D E n s { req := .batch op vs, phase := ph }).1 := by
  have more : ∀ {rest acc v rep} (pre : List RequestVars), vs = pre ++ v :: rest → List.Forall₂ (Spec.EntryFor D) acc pre → D.fold rep.oid = D.fold v.oid →
      BatchPhase D (op == ascii "upload") vs (.next rest (acc ++ [rep])) := by
    intro rest acc v rep pre e hp hr
    exact ⟨pre ++ [v], by rw [e]; simp, forall₂_snoc hp hr⟩
  have nf : ∀ {rest acc v} (pre : List RequestVars), vs = pre ++ v :: rest → List.Forall₂ (Spec.EntryFor D) acc pre →
      BatchPhase D (op == ascii "upload") vs (notFound (op == ascii "upload") v rest acc) := by
    intro rest acc v pre e hp
    cases hb : (op == ascii "upload") with
    | true => exact ⟨pre, e, hp, rfl⟩
    | false => rw [hb] at more; exact more pre e hp rfl
  cases ph with
  | start =>
    simp only [LfsTask.step]
    cases storeNew E s.disk with
    | mk d ok =>
      cases ok with
      | false => trivial
      | true => exact ⟨[], rfl, .nil⟩
  | next rest acc =>
    obtain ⟨pre, e, hp⟩ := h
    cases rest with
    | nil =>
      rw [List.append_nil] at e
      subst e
      exact hp
    | cons v rest =>
      simp only [LfsTask.step]
      split
      · rename_i row hr
        exact ⟨pre, e, hp, hk _ _ _ hr⟩
      · exact nf pre e hp
  | look row v rest acc =>
    obtain ⟨pre, e, hp, hf⟩ := h
    simp only [LfsTask.step]
    split
    · exact more pre e hp hf
    · exact nf pre e hp
    · trivial
  | check v rest acc =>
    obtain ⟨pre, e, hp, hu⟩ := h
    simp only [LfsTask.step]
    split
    · rename_i row hr
      exact more pre e hp (hk _ _ _ hr)
    · exact ⟨pre, e, hp, hu⟩
  | insert v rest acc =>
    obtain ⟨pre, e, hp, hu⟩ := h
    simp only [LfsTask.step]
    split
    · trivial
    · split
      · exact more pre e hp rfl
      · trivial
  | done r => exact h
  | _ => cases h

/-- Requests the routes accept: uploads are for routed oids. -/
def Spec.RoutedReq (q : LfsReq) : Prop := ∀ oid body, q = .upload oid body → Spec.RouteOid oid

/-- What holds whatever happens. -/
structure Orderly (D : DbExt) (E : StoreExt) (s : LfsServer) : Prop where
  keyed : Keyed D s.state.metas
  reqs : ∀ (i : Nat) (t : LfsTask), s.tasks[i]? = some t → Spec.RoutedReq t.req
  phases : ∀ (i : Nat) (t : LfsTask), s.tasks[i]? = some t → PhaseKeyed D E t.req t.phase
  batches : ∀ (i : Nat) (t : LfsTask) op vs, s.tasks[i]? = some t → t.req = .batch op vs → BatchPhase D (op == ascii "upload") vs t.phase
  above : ∀ q c, Spec.Above E q → s.state.disk q ≠ some (.file c)

theorem below_not_above {E : StoreExt} {q : Bool × List Bytes} (h : Spec.Below E q) : ¬ Spec.Above E q := by
  rintro ⟨_, h2⟩
  obtain ⟨tail, hne, rfl⟩ := h
  have := h2.length_le
  have : 0 < tail.length := List.length_pos_iff.2 hne
  simp only [List.length_append] at *
  omega

theorem orderly_step {D : DbExt} (hD : Spec.CollationOk D) {E : StoreExt} {s s' : LfsServer} (h : Orderly D E s) (hs : LfsServer.Step D E Spec.RoutedReq s s') : Orderly D E s' := by
  cases hs with
  | arrive q hq =>
    have new : ∀ (i : Nat) (t : LfsTask), (s.tasks ++ [{ req := q, phase := .start }])[i]? = some t → s.tasks[i]? = some t ∨ t = ({ req := q, phase := .start } : LfsTask) := by
      intro i t ht
      rw [List.getElem?_append] at ht
      split at ht
      · exact .inl ht
      · refine .inr (List.mem_singleton.1 (List.mem_of_getElem? ht))
    refine ⟨h.keyed, ?_, ?_, ?_, h.above⟩
    · intro i t ht
      rcases new i t ht with ht | rfl
      · exact h.reqs i t ht
      · exact hq
    · intro i t ht
      rcases new i t ht with ht | rfl
      · exact h.phases i t ht
      · trivial
    · intro i t op vs ht hr
      rcases new i t ht with ht | rfl
      · exact h.batches i t op vs ht hr
      · trivial
  | run i n t ht =>
    refine ⟨step_keyed h.keyed E n t, ?_, ?_, ?_, ?_⟩
    · intro j u hu
      rcases getElem?_set_cases hu with ⟨rfl, rfl⟩ | ⟨_, hu⟩
      · exact h.reqs j t ht
      · exact h.reqs j u hu
    · intro j u hu
      rcases getElem?_set_cases hu with ⟨rfl, rfl⟩ | ⟨_, hu⟩
      · exact step_phase h.keyed E n (h.phases j t ht)
      · exact h.phases j u hu
    · intro j u op vs hu hr
      rcases getElem?_set_cases hu with ⟨rfl, rfl⟩ | ⟨_, hu⟩
      · have hb := h.batches j t op vs ht hr
        obtain ⟨q, ph⟩ := t
        dsimp only at hr
        subst hr
        exact batch_step h.keyed E n hb
      · exact h.batches j u op vs hu hr
    · intro q c hq hc
      dsimp only at hc
      have file : ∀ {row p}, (∃ oid body, t.req = .upload oid body ∧ D.fold row = D.fold oid ∧ storePath E row = .ok p) → q ≠ p := by
        rintro row p ⟨oid, body, hr, hf, hp⟩ rfl
        have hpl := hD row oid (h.reqs i t ht oid body hr) hf
        have hpath := storePath_plain E ⟨hpl.1, hpl.2.1, hpl.2.2.1⟩ hp
        exact below_not_above ⟨oidParts row, by unfold oidParts; split <;> simp, hpath⟩ hq
      have hph := h.phases i t ht
      rcases step_disk D E n s.state t with hg | ⟨row, p', h1, h2, h3⟩ | ⟨row, p', oid', body', old, h1, h2, h3, h4⟩
      · exact h.above q c hq (hg.file.1 hc)
      · rw [h1] at hph
        rw [h3, setAt_other _ _ (file hph)] at hc
        exact h.above q c hq hc
      · rw [h1] at hph
        rw [h4, setAt_other _ _ (file hph)] at hc
        exact h.above q c hq hc

theorem orderly_new {D : DbExt} {E : StoreExt} {s0 : LfsState} (hs : Spec.FreshStore E s0) : Orderly D E (.new s0) :=
  ⟨fresh_keyed D hs, fun i t h => (by cases h), fun i t h => (by cases h), fun i t op vs h => (by cases h), hs.2.2⟩

theorem storeNew_above {E : StoreExt} {d : Disk} (h : ∀ q c, Spec.Above E q → d q ≠ some (.file c)) : (storeNew E d).2 = true := by
  refine mkdirs_ok _ _ _ _ fun k hk c => h _ c ⟨rfl, ?_⟩
  exact List.take_prefix _ _

/-- The batch of task `k` is the only one that announces its objects. -/
def Spec.OnlyOne (D : DbExt) (vs : List RequestVars) (k : Nat) (s : LfsServer) : Prop :=
  ∀ (j : Nat) (u : LfsTask) ws, j ≠ k → s.tasks[j]? = some u → u.req = .batch (ascii "upload") ws → ∀ v ∈ vs, ∀ w ∈ ws, D.fold v.oid ≠ D.fold w.oid

/-- Nothing goes wrong for task `k`. -/
def Unharmed (D : DbExt) (k : Nat) (s : LfsServer) : Prop :=
  ∀ t, s.tasks[k]? = some t → t.phase ≠ .done .panic ∧ ∀ v rest acc, t.phase = .insert v rest acc → s.state.metas (D.fold v.oid) = none

theorem unharmed_step {D : DbExt} {E : StoreExt} {s s' : LfsServer} (h : Orderly D E s) (hs : LfsServer.Step D E Spec.RoutedReq s s')
    {k : Nat} {op : Bytes} {vs : List RequestVars} (hq : ∀ t, s'.tasks[k]? = some t → t.req = .batch op vs)
    (hfits : ∀ v ∈ vs, D.metaFits v.oid v.size = true) (hpath : ∀ v ∈ vs, ∀ o, D.fold o = D.fold v.oid → ∃ p, storePath E o = .ok p)
    (hone : op = ascii "upload" → Spec.OnlyOne D vs k s') (ih : Unharmed D k s) : Unharmed D k s' := by
  cases hs with
  | arrive q hr =>
    intro t ht
    dsimp only at ht
    rw [List.getElem?_append] at ht
    split at ht
    · exact ih t ht
    · rw [List.mem_singleton.1 (List.mem_of_getElem? ht)]
      exact ⟨by simp, fun v rest acc e => by cases e⟩
  | run i n t ht =>
    intro u hu
    have hreq := hq u hu
    dsimp only at hu ⊢
    rcases getElem?_set_cases hu with ⟨rfl, rfl⟩ | ⟨hki, hu⟩
    · obtain ⟨i1, i2⟩ := ih t ht
      have hb := h.batches k t op vs ht hreq
      obtain ⟨q, ph⟩ := t
      dsimp only at hreq i1 i2 hb ⊢
      subst hreq
      have nf : ∀ b v rest acc, notFound b v rest acc ≠ .done .panic ∧ ∀ v' rest' acc', notFound b v rest acc ≠ .insert v' rest' acc' := by
        intro b v rest acc
        unfold notFound
        split <;> exact ⟨by simp, by simp⟩
      cases ph with
      | start =>
        have ok := storeNew_above h.above
        simp only [LfsTask.step]
        cases hn : storeNew E s.state.disk with
        | mk d b =>
          rw [hn] at ok
          dsimp only at ok
          subst ok
          exact ⟨by simp, by simp⟩
      | next rest acc =>
        cases rest with
        | nil => exact ⟨by simp [LfsTask.step], by simp [LfsTask.step]⟩
        | cons v rest =>
          simp only [LfsTask.step]
          split
          · exact ⟨by simp, by simp⟩
          · exact ⟨(nf ..).1, fun v' r a e => absurd e ((nf ..).2 v' r a)⟩
      | look row v rest acc =>
        obtain ⟨pre, e, _, hf⟩ := hb
        obtain ⟨p, hp⟩ := hpath v (by rw [e]; simp) row.1 hf
        simp only [LfsTask.step, storeExist, hp, Res.bind_ok, Res.pure_eq]
        split
        · exact ⟨by simp, by simp⟩
        · exact ⟨(nf ..).1, fun v' r a e => absurd e ((nf ..).2 v' r a)⟩
        · rename_i h1 h2
          cases hd : (s.state.disk p).isSome with
          | true => exact absurd (by rw [hd]) h1
          | false => exact absurd (by rw [hd]) h2
      | check v rest acc =>
        simp only [LfsTask.step]
        split
        · exact ⟨by simp, by simp⟩
        · rename_i hr
          refine ⟨by simp, fun v' r a e => ?_⟩
          cases e
          exact hr
      | insert v rest acc =>
        obtain ⟨pre, e, _⟩ := hb
        have hr := i2 v rest acc rfl
        simp only [LfsTask.step, hr, hfits v (by rw [e]; simp), if_true]
        exact ⟨by simp, by simp⟩
      | done r => exact ⟨i1, fun v r a e => by cases e⟩
      | _ => cases hb
    · obtain ⟨i1, i2⟩ := ih u hu
      refine ⟨i1, fun v rest acc e => ?_⟩
      have hr := i2 v rest acc e
      rcases step_metas D E n s.state t with em | ⟨oid, body, _, _, em⟩ | ⟨w, ws, acc', hph, _, em⟩
      · rw [em]; exact hr
      · rw [em, setAt_eq]
        split
        · rfl
        · exact hr
      · rw [em, setAt_eq]
        split
        · rename_i hkey
          exfalso
          have hb := h.batches k u op vs hu hreq
          rw [e] at hb
          obtain ⟨pre, ev, _, hup⟩ := hb
          have hop : op = ascii "upload" := eq_of_beq hup
          have hkd := h.phases i t ht
          rw [hph] at hkd
          obtain ⟨op', vs', hq'⟩ := hkd
          have hb' := h.batches i t op' vs' ht hq'
          rw [hph] at hb'
          obtain ⟨pre', ev', _, hup'⟩ := hb'
          have hop' : op' = ascii "upload" := eq_of_beq hup'
          subst hop'
          have hil := (List.getElem?_eq_some_iff.1 ht).1
          exact hone hop i { t with phase := (t.step D E n s.state).1 } vs' (Ne.symm hki) (by simp [hil]) hq' v (by rw [ev]; simp) w (by rw [ev']; simp) hkey
        · exact hr

theorem runs_reqs {D : DbExt} {E : StoreExt} {R : LfsReq → Prop} {s s' : LfsServer} (hs : LfsServer.Step D E R s s') {j : Nat} {u : LfsTask} (hu : s.tasks[j]? = some u) :
    ∃ u', s'.tasks[j]? = some u' ∧ u'.req = u.req := by
  have hl := (List.getElem?_eq_some_iff.1 hu).1
  cases hs with
  | arrive q _ => exact ⟨u, by rw [List.getElem?_append_left hl]; exact hu, rfl⟩
  | run i n t ht =>
    by_cases e : i = j
    · subst e
      rw [ht] at hu
      cases hu
      exact ⟨{ u with phase := (u.step D E n s.state).1 }, by simp [hl], rfl⟩
    · exact ⟨u, by rw [List.getElem?_set_ne e]; exact hu, rfl⟩

/-- **C102 (partial)** On a new server, whatever requests overlap: a batch request whose objects no other request announces is never answered by a crash; when it is
answered, there is one entry for each object, in order. For a batch that asks for downloads nothing is required of the other requests. (Missing: announcements of the same object by several clients,
see `C102_announced_false`. Assumed: the rows fit into the columns, and names with characters of several bytes are not cut inside a character.) -/
theorem C102_answered_partial (D : DbExt) (hD : Spec.CollationOk D) (E : StoreExt) (s0 : LfsState) (hs : Spec.FreshStore E s0) (s : LfsServer)
    (hr : LfsServer.Runs D E Spec.RoutedReq (.new s0) s) (k : Nat) (op : Bytes) (vs : List RequestVars) (hfits : ∀ v ∈ vs, D.metaFits v.oid v.size = true)
    (hpath : ∀ v ∈ vs, ∀ o, D.fold o = D.fold v.oid → ∃ p, storePath E o = .ok p) (hone : op = ascii "upload" → Spec.OnlyOne D vs k s) (r : Reply LfsOut)
    (hd : s.tasks[k]? = some { req := .batch op vs, phase := .done r }) : ∃ l, r = .ok (.entries l) ∧ List.Forall₂ (Spec.EntryFor D) l vs := by
  have inv : Orderly D E s ∧ Unharmed D k s := by
    have hq : ∀ t, s.tasks[k]? = some t → t.req = .batch op vs := by
      intro t ht; rw [hd] at ht; cases ht; rfl
    clear hd
    generalize hs0 : LfsServer.new s0 = x at hr
    induction hr with
    | refl => subst hs0; exact ⟨orderly_new hs, fun t h => by cases h⟩
    | step t u _ hst ih =>
      obtain ⟨h1, h2⟩ := ih (fun hop j w ws hj hw hq v hv w' hw' => by
        obtain ⟨w2, h1, h2⟩ := runs_reqs hst hw
        exact hone hop j w2 ws hj h1 (h2.trans hq) v hv w' hw') (fun t ht => by
        obtain ⟨t2, h1, h2⟩ := runs_reqs hst ht
        exact h2.symm.trans (hq t2 h1))
      exact ⟨orderly_step hD h1 hst, unharmed_step h1 hst hq hfits hpath hone h2⟩
  have hb := inv.1.batches k _ op vs hd rfl
  have hp := (inv.2 _ hd).1
  dsimp only at hb hp
  match r, hb, hp with
  | .ok (.entries l), hb, _ => exact ⟨l, rfl, hb⟩
  | .panic, _, hp => exact absurd rfl hp

/-- The second of two announcements that overlap with an upload. -/
example : ((LfsServer.new freshLfs).schedule lowerDb demoStore ([.arrive announceRight] ++ stepsOf 0 5 ++
    [.arrive (.upload rightOid (ascii "right")), .arrive (.batch (ascii "upload") [{ oid := rightOid, size := 5 }, { oid := ascii "abcdef", size := 3 }])] ++ stepsOf 1 3 ++
    stepsOf 2 3 ++ stepsOf 1 2 ++ stepsOf 2 5)).answer 2 = some (.ok (.entries [{ oid := rightOid, size := 5, offer := .upload (ascii "http://host/objects/" ++ rightOid) },
      { oid := ascii "abcdef", size := 3, offer := .upload (ascii "http://host/objects/abcdef") }])) := by
  decide +kernel

end Gust

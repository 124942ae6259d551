import Verif.Props.RefsOverlap

/-! # C137: branches that are pushed at the same time -/

namespace Gust

/-- What a request is going to do does not touch a row `k` with the id `N` (`n` rows are there). -/
def Quiet (fold : Bytes → Bytes) (N : Bytes) (n : Nat) (k : Option Nat) : Act → Prop
  | .findRef c _ => fold c.oldId ≠ fold N
  | .setRef j _ => j < n ∧ some j ≠ k
  | _ => True

theorem Quiet.mono {fold : Bytes → Bytes} {N : Bytes} {n n' : Nat} {k : Option Nat} (hn : n ≤ n') {a : Act} (h : Quiet fold N n k a) : Quiet fold N n' k a := by
  cases a with
  | setRef j id => exact ⟨Nat.lt_of_lt_of_le h.1 hn, h.2⟩
  | _ => exact h

theorem Quiet.any {fold : Bytes → Bytes} {N : Bytes} {n : Nat} {k : Option Nat} {a : Act} (h : Quiet fold N n k a) : Quiet fold N n none a := by
  cases a with
  | setRef j id => exact ⟨h.1, fun h => nomatch h⟩
  | _ => exact h

/-- A row added now is not touched by what was planned before. -/
theorem Quiet.new {fold : Bytes → Bytes} {N : Bytes} {n : Nat} {k : Option Nat} {a : Act} (h : Quiet fold N n k a) : Quiet fold N (n + 1) (some n) a := by
  cases a with
  | setRef j id => exact ⟨Nat.lt_succ_of_lt h.1, fun e => Nat.lt_irrefl _ (Option.some.inj e ▸ h.1)⟩
  | _ => exact h

theorem quiet_child {fold : Bytes → Bytes} {N : Bytes} {n : Nat} {k : Option Nat} (X : Ext) (row : CommitRow) (ref : RefRow) (path : Bytes) (root : NodeRow) :
    ∀ a ∈ childActs X row ref path root, Quiet fold N n k a := by
  intro a ha
  unfold childActs at ha
  split at ha
  · simp only [List.mem_cons, List.not_mem_nil, or_false] at ha
    rcases ha with rfl | rfl <;> trivial
  · cases List.mem_singleton.1 ha
    trivial

/-- One statement of such a request: the row stays, and what the request plans next does not touch it either. -/
theorem quiet_step {X : Ext} {E : SqlExt} {N : Bytes} {k : Option Nat} {row : RefRow} (hrow : row.refGitId = N) {db : Db} {a : Act} (h : Quiet E.fold N db.refs.length k a)
    (hk : ∀ i, k = some i → db.refs[i]? = some row) :
    (∀ i, k = some i → (a.step X E db).2.refs[i]? = some row) ∧
      ∀ more, (a.step X E db).1 = some more → ∀ b ∈ more, Quiet E.fold N (a.step X E db).2.refs.length k b := by
  have none : ∀ (n : Nat) (more : List Act), some [] = some more → ∀ b ∈ more, Quiet E.fold N n k b := by
    intro n more e b hb
    cases e
    cases hb
  have dead : ∀ (n : Nat) (more : List Act), (Option.none : Option (List Act)) = some more → ∀ b ∈ more, Quiet E.fold N n k b := fun _ _ e => nomatch e
  cases a with
  | nodes b =>
    simp only [Act.step]
    split
    · exact ⟨hk, fun more e b hb => by cases e; cases hb⟩
    · exact ⟨hk, fun more e => nomatch e⟩
  | commits b => exact ⟨hk, none _⟩
  | refs b =>
    refine ⟨fun i hi => ?_, none _⟩
    simp only [Act.step]
    split
    · have := hk i hi
      rw [List.getElem?_append_left (List.getElem?_eq_some_iff.1 this).1]
      exact this
    · exact hk i hi
  | findRef c q =>
    simp only [Act.step]
    split
    · rename_i i hi
      refine ⟨hk, fun more e b hb => ?_⟩
      cases e
      cases List.mem_singleton.1 hb
      have hm := List.mem_of_mem_head? hi
      have hm := (E.order_perm _).mem_iff.1 hm
      obtain ⟨hlt, hmatch⟩ := List.mem_filter.1 hm
      refine ⟨List.mem_range.1 hlt, fun e => ?_⟩
      rw [hk i e.symm] at hmatch
      simp only [Option.any_some, updateMatches, Bool.and_eq_true, beq_iff_eq] at hmatch
      exact h (hmatch.1.symm.trans (by rw [hrow]))
    · exact ⟨hk, fun more e => nomatch e⟩
  | setRef j id =>
    simp only [Act.step]
    split
    swap
    · exact ⟨hk, fun more e => nomatch e⟩
    refine ⟨fun i hi => ?_, none _⟩
    have : ¬ j = i := fun e => h.2 (by rw [e, hi])
    rw [List.getElem?_modify]
    simp only [this, if_false]
    simpa using hk i hi
  | headRefs q =>
    simp only [Act.step]
    split
    · exact ⟨hk, none _⟩
    · split
      · refine ⟨hk, fun more e b hb => ?_⟩
        cases e
        cases List.mem_singleton.1 hb
        trivial
      · exact ⟨hk, none _⟩
  | headCommit r q =>
    simp only [Act.step]
    split
    · exact ⟨hk, dead _⟩
    · refine ⟨hk, fun more e b hb => ?_⟩
      cases e
      cases List.mem_singleton.1 hb
      trivial
  | headRoot c r q second =>
    simp only [Act.step]
    split
    · exact ⟨hk, dead _⟩
    · split
      · refine ⟨hk, fun more e b hb => ?_⟩
        cases e
        exact quiet_child _ _ _ _ _ b hb
      · split
        · exact ⟨hk, none _⟩
        · refine ⟨hk, fun more e b hb => ?_⟩
          cases e
          cases List.mem_singleton.1 hb
          trivial
  | fail => exact ⟨hk, dead _⟩

theorem step_length (X : Ext) (E : SqlExt) (db : Db) (a : Act) : db.refs.length ≤ (a.step X E db).2.refs.length := by
  have := (step_paths X E db a).length_le
  simpa using this

theorem push_quiet {fold : Bytes → Bytes} {N : Bytes} {n : Nat} {k : Option Nat} (pool : PackCache → Res ObjDecodedMap) (fuel : Nat) (p : Pack) (q : Bytes) {c : RefCommand}
    (hc : c.commandType = .update → fold c.oldId ≠ fold N) : ∀ a ∈ pushActs pool fuel p q c, Quiet fold N n k a := by
  intro a ha
  unfold pushActs at ha
  split at ha
  · split at ha
    · rcases List.mem_append.1 ha with ha | ha
      · rcases List.mem_append.1 ha with ha | ha
        · obtain ⟨b, _, rfl⟩ := List.mem_map.1 ha
          trivial
        · obtain ⟨b, _, rfl⟩ := List.mem_map.1 ha
          trivial
      · unfold refActs at ha
        split at ha
        · cases List.mem_singleton.1 ha
          trivial
        · cases List.mem_singleton.1 ha
          trivial
        · rename_i hu
          cases List.mem_singleton.1 ha
          exact hc hu
    · cases List.mem_singleton.1 ha
      trivial
  · cases List.mem_singleton.1 ha
    trivial

/-- No request is going to touch the row. -/
def AllQuiet (fold : Bytes → Bytes) (N : Bytes) (k : Option Nat) (s : Sys) : Prop := ∀ as, some as ∈ s.tasks → ∀ a ∈ as, Quiet fold N s.db.refs.length k a

/-- How far the push with number `i` has come that is going to add `row`; it may have failed only if `mayFail`. -/
inductive Making (fold : Bytes → Bytes) (row : RefRow) (i : Nat) (mayFail : Prop) (s : Sys) : Prop
  | on (xs : List Act) : (∀ a ∈ xs, (∃ b, a = .nodes b) ∨ ∃ b, a = .commits b) → s.tasks[i]? = some (some (xs ++ [.refs [row]])) → Making fold row i mayFail s
  | failing : mayFail → s.tasks[i]? = some (some [.fail]) → Making fold row i mayFail s
  | dead : mayFail → s.tasks[i]? = some none → Making fold row i mayFail s
  | done (k : Nat) : s.tasks[i]? = some (some []) → s.db.refs[k]? = some row → AllQuiet fold row.refGitId (some k) s → Making fold row i mayFail s

/-- Others come between. -/
theorem quiet_event {X : Ext} {fold : Bytes → Bytes} {row : RefRow} {k : Option Nat} {Q : SqlExt → Prop} {R : Bytes → Prop} {W : Pack → RefCommand → Prop}
    (hQ : ∀ E, Q E → E.fold = fold) (hW : ∀ p c, W p c → c.commandType = .update → fold c.oldId ≠ fold row.refGitId) {s t : Sys} (hs : SysStep X Q R W s t)
    (h : AllQuiet fold row.refGitId k s) (hk : ∀ i, k = some i → s.db.refs[i]? = some row) :
    AllQuiet fold row.refGitId k t ∧ ∀ i, k = some i → t.db.refs[i]? = some row := by
  cases hs with
  | push St fuel0 file p E fuel q c hdec hq hw =>
    refine ⟨fun as ha => ?_, hk⟩
    rcases List.mem_append.1 ha with ha | ha
    · exact h as ha
    · cases List.mem_singleton.1 ha
      exact push_quiet _ _ _ _ (hW p c hw)
  | head q hq =>
    refine ⟨fun as ha => ?_, hk⟩
    rcases List.mem_append.1 ha with ha | ha
    · exact h as ha
    · cases List.mem_singleton.1 ha
      intro a ha
      cases List.mem_singleton.1 ha
      trivial
  | act j a as E hj hE =>
    have hf := hQ E hE
    subst hf
    have ha := h (a :: as) (List.mem_of_getElem? hj)
    obtain ⟨e, hmore⟩ := quiet_step (X := X) rfl (ha a (.head _)) hk
    refine ⟨fun bs hb b hbb => ?_, e⟩
    rcases mem_set_task hb with hb | hb
    · exact (h bs hb b hbb).mono (step_length X E s.db a)
    · obtain ⟨more, e1, e2⟩ := Option.map_eq_some_iff.1 hb.symm
      rw [← e2] at hbb
      rcases List.mem_append.1 hbb with hbb | hbb
      · exact hmore more e1 b hbb
      · exact (ha b (.tail _ hbb)).mono (step_length X E s.db a)

theorem making_step {X : Ext} {fold : Bytes → Bytes} {row : RefRow} {i : Nat} {mayFail : Prop} {Q : SqlExt → Prop} {R : Bytes → Prop} {W : Pack → RefCommand → Prop}
    (hQ : ∀ E, Q E → E.fold = fold ∧ (∀ n b, E.acceptRefs n b = true) ∧ (mayFail ∨ ∀ n b, E.acceptNodes n b = true))
    (hW : ∀ p c, W p c → c.commandType = .update → fold c.oldId ≠ fold row.refGitId) {s t : Sys} (hs : SysStep X Q R W s t)
    (hq : AllQuiet fold row.refGitId none s) (h : Making fold row i mayFail s) : AllQuiet fold row.refGitId none t ∧ Making fold row i mayFail t := by
  refine ⟨(quiet_event (fun E h => (hQ E h).1) hW hs hq fun _ h => nomatch h).1, ?_⟩
  -- a request that arrives, or another request, leaves the task alone
  have other : t.tasks[i]? = s.tasks[i]? → Making fold row i mayFail t := by
    intro e
    cases h with
    | on xs hx hi => exact .on xs hx (e.trans hi)
    | failing hf hi => exact .failing hf (e.trans hi)
    | dead hf hi => exact .dead hf (e.trans hi)
    | done k hi hk ha =>
      obtain ⟨g1, g2⟩ := quiet_event (fun E h => (hQ E h).1) hW hs ha fun j e => by cases e; exact hk
      exact .done k (e.trans hi) (g2 k rfl) g1
  have lt : i < s.tasks.length := by
    cases h with
    | on xs hx hi => exact (List.getElem?_eq_some_iff.1 hi).1
    | failing hf hi => exact (List.getElem?_eq_some_iff.1 hi).1
    | dead hf hi => exact (List.getElem?_eq_some_iff.1 hi).1
    | done k hi hk ha => exact (List.getElem?_eq_some_iff.1 hi).1
  cases hs with
  | push St fuel0 file p E fuel q c hdec hq' hw => exact other (List.getElem?_append_left lt)
  | head q hq' => exact other (List.getElem?_append_left lt)
  | act j a as E hj hE =>
    obtain ⟨hf, hacc, hnodes⟩ := hQ E hE
    by_cases hij : j = i
    · subst hij
      clear other
      have set : ∀ x : Option (List Act), (s.tasks.set j x)[j]? = some x := fun x => by rw [List.getElem?_set_self lt]
      cases h with
      | on xs hx hi =>
        rw [hj] at hi
        cases xs with
        | nil =>
          obtain ⟨rfl, rfl⟩ := List.cons.inj (Option.some.inj (Option.some.inj hi))
          refine .done s.db.refs.length ?_ ?_ ?_
          · simp only [Act.step, Option.map_some, List.nil_append, set]
          · simp only [Act.step, hacc, if_true, List.getElem?_concat_length]
          · intro bs hb b hbb
            simp only [Act.step, hacc, if_true, List.length_append, List.length_singleton] at hb ⊢
            rcases mem_set_task hb with hb | hb
            · exact (hq bs hb b hbb).new
            · cases hb
              cases hbb
        | cons x xs =>
          obtain ⟨rfl, rfl⟩ := List.cons.inj (Option.some.inj (Option.some.inj hi))
          rcases hx a (.head _) with ⟨b, rfl⟩ | ⟨b, rfl⟩
          · by_cases ha : E.acceptNodes s.db.inserts b = true
            · refine .on xs (fun a ha => hx a (.tail _ ha)) ?_
              simp only [Act.step, ha, if_true, Option.map_some, List.nil_append, set]
              rfl
            · refine .dead (hnodes.resolve_right fun h => ha (h _ _)) ?_
              simp only [Act.step, ha, Bool.false_eq_true, if_false, Option.map_none, set]
          · refine .on xs (fun a ha => hx a (.tail _ ha)) ?_
            simp only [Act.step, Option.map_some, List.nil_append, set]
            rfl
      | failing hf hi =>
        rw [hj] at hi
        obtain ⟨rfl, rfl⟩ := List.cons.inj (Option.some.inj (Option.some.inj hi))
        refine .dead hf ?_
        simp only [Act.step, Option.map_none, set]
      | dead hf hi =>
        rw [hj] at hi
        cases hi
      | done k hi hk ha =>
        rw [hj] at hi
        cases hi
    · exact other (List.getElem?_set_ne hij)

theorem allQuiet_run {X : Ext} {fold : Bytes → Bytes} {row : RefRow} {Q : SqlExt → Prop} {R : Bytes → Prop} {W : Pack → RefCommand → Prop}
    (hQ : ∀ E, Q E → E.fold = fold) (hW : ∀ p c, W p c → c.commandType = .update → fold c.oldId ≠ fold row.refGitId) {s t : Sys} (hs : SysRun X Q R W s t)
    (h : AllQuiet fold row.refGitId none s) : AllQuiet fold row.refGitId none t := by
  induction hs with
  | refl => exact h
  | step t u _ hs ih => exact (quiet_event hQ hW hs ih fun _ h => nomatch h).1

theorem making_run {X : Ext} {fold : Bytes → Bytes} {row : RefRow} {i : Nat} {mayFail : Prop} {Q : SqlExt → Prop} {R : Bytes → Prop} {W : Pack → RefCommand → Prop}
    (hQ : ∀ E, Q E → E.fold = fold ∧ (∀ n b, E.acceptRefs n b = true) ∧ (mayFail ∨ ∀ n b, E.acceptNodes n b = true))
    (hW : ∀ p c, W p c → c.commandType = .update → fold c.oldId ≠ fold row.refGitId) {s t : Sys} (hs : SysRun X Q R W s t)
    (hq : AllQuiet fold row.refGitId none s) (h : Making fold row i mayFail s) : AllQuiet fold row.refGitId none t ∧ Making fold row i mayFail t := by
  induction hs with
  | refl => exact ⟨hq, h⟩
  | step t u _ hs ih => exact making_step hQ hW hs ih.1 ih.2

/-- The statements of a push that creates a branch. -/
theorem create_acts (pool : PackCache → Res ObjDecodedMap) (fuel : Nat) (p : Pack) (u : Bytes) {c : RefCommand} (hc : c.commandType = .create) :
    pushActs pool fuel p u c = [.fail] ∨ ∃ xs : List Act, (∀ a ∈ xs, (∃ b, a = .nodes b) ∨ ∃ b, a = .commits b) ∧
      pushActs pool fuel p u c = xs ++ [.refs [{ repoPath := u, refName := c.refName, refGitId := c.newId }]] := by
  unfold pushActs
  split
  · split
    · refine .inr ⟨_, ?_, by rw [refActs, hc]⟩
      intro a ha
      rcases List.mem_append.1 ha with ha | ha
      · obtain ⟨b, _, rfl⟩ := List.mem_map.1 ha
        exact .inl ⟨b, rfl⟩
      · obtain ⟨b, _, rfl⟩ := List.mem_map.1 ha
        exact .inr ⟨b, rfl⟩
    · exact .inl rfl
  · exact .inl rfl

/-- The state in which a push has just arrived. -/
def Spec.arrived (s : Sys) (E : SqlExt) (fuel : Nat) (p : Pack) (u : Bytes) (c : RefCommand) : Sys :=
  { s with tasks := s.tasks ++ [some (pushActs E.pool fuel p u c)], pushed := (s.tasks.length, u, p) :: s.pushed }

/-- Nobody pushes an update that starts from the commit `id`. -/
def Spec.NotFrom (fold : Bytes → Bytes) (id : Bytes) (_ : Pack) (c : RefCommand) : Prop := c.commandType = .update → fold c.oldId ≠ fold id

theorem arrived_quiet {fold : Bytes → Bytes} {s : Sys} (E : SqlExt) (fuel : Nat) (p : Pack) (u : Bytes) {c : RefCommand} (hc : c.commandType = .create)
    (h : AllQuiet fold c.newId none s) : AllQuiet fold c.newId none (Spec.arrived s E fuel p u c) := by
  intro as ha
  rcases List.mem_append.1 ha with ha | ha
  · exact h as ha
  · cases List.mem_singleton.1 ha
    exact push_quiet _ _ _ _ (fun e => by rw [hc] at e; cases e)

theorem empty_quiet {fold : Bytes → Bytes} {N : Bytes} : AllQuiet fold N none Sys.empty := fun _ h => nomatch h

/-- **C137 (partial)** A push that creates a branch arrives at any moment (`s`) of a history in which any number of requests overlap, also pushes to the same repository. Once it is finished (`t`), and however
requests overlap afterwards, the branch is there: a client that asks for the refs (HEAD is looked up at some moment `t1`, the refs at a later one, `t2`) is shown it. The other
pushes may create and move branches, but none moves a branch away from the commit of the new one. The repository has a branch master then, and its refs have different ids (C52). (Missing from the full claim: branches at the same commit,
and pushes of which the pack is mixed up with that of another one before it is read, see C59.) -/
theorem C137_created_partial (X : Ext) (fold : Bytes → Bytes) (R : Bytes → Prop) {u : Bytes} (hb : (0x5c : UInt8) ∉ u) (c : RefCommand) (hc : c.commandType = .create) (s t t1 t2 : Sys)
    (h0 : SysRun X (fun E => E.fold = fold ∧ ∀ n b, E.acceptRefs n b = true) R (Spec.NotFrom fold c.newId) Sys.empty s) (E : SqlExt) (fuel : Nat) (p : Pack)
    (h : SysRun X (fun E => E.fold = fold ∧ ∀ n b, E.acceptRefs n b = true) R (Spec.NotFrom fold c.newId) (Spec.arrived s E fuel p u c) t)
    (hd : t.tasks[s.tasks.length]? = some (some []))
    (h1 : SysRun X (fun E => E.fold = fold ∧ ∀ n b, E.acceptRefs n b = true) R (Spec.NotFrom fold c.newId) t t1)
    (h2 : SysRun X (fun E => E.fold = fold ∧ ∀ n b, E.acceptRefs n b = true) R (Spec.NotFrom fold c.newId) t1 t2)
    (hm : Spec.HasMaster fold t1.db u) (hid : ((Spec.refsAt fold t2.db.refs u).map RefRow.refGitId).Nodup)
    (ht1 : ∀ r ∈ Spec.refsAt fold t1.db.refs u, Spec.RefText r) (ht2 : ∀ r ∈ Spec.refsAt fold t2.db.refs u, Spec.RefText r)
    (E1 E2 : SqlExt) (hE1 : E1.fold = fold) (hE2 : E2.fold = fold) (ty : ServiceType) :
    ∃ out head refs, refsAnswer X E1 E2 ty t1.db t2.db u = .ok out ∧ Spec.Shows ty out head refs ∧ (c.newId, c.refName) ∈ refs := by
  set row : RefRow := { repoPath := u, refName := c.refName, refGitId := c.newId } with hrow
  have hQ : ∀ E : SqlExt, (E.fold = fold ∧ ∀ n b, E.acceptRefs n b = true) → E.fold = fold ∧ (∀ n b, E.acceptRefs n b = true) ∧ (True ∨ ∀ n b, E.acceptNodes n b = true) :=
    fun E h => ⟨h.1, h.2, .inl trivial⟩
  have hW : ∀ p c', Spec.NotFrom fold c.newId p c' → c'.commandType = .update → fold c'.oldId ≠ fold row.refGitId := fun p c' h => h
  have q0 := arrived_quiet E fuel p u hc (allQuiet_run (row := row) (fun E h => h.1) hW h0 empty_quiet)
  have here : (Spec.arrived s E fuel p u c).tasks[s.tasks.length]? = some (some (pushActs E.pool fuel p u c)) := by simp [Spec.arrived]
  have m0 : Making fold row s.tasks.length True (Spec.arrived s E fuel p u c) := by
    rcases create_acts E.pool fuel p u hc with e | ⟨xs, hx, e⟩
    · exact .failing trivial (here.trans (by rw [e]))
    · exact .on xs hx (here.trans (by rw [e]))
  obtain ⟨_, m⟩ := making_run hQ hW ((h.trans h1).trans h2) q0 m0
  have still : ∀ {a b : Sys}, SysRun X (fun E => E.fold = fold ∧ ∀ n b, E.acceptRefs n b = true) R (Spec.NotFrom fold c.newId) a b →
      a.tasks[s.tasks.length]? = some (some []) → b.tasks[s.tasks.length]? = some (some []) := by
    intro a b hab ha
    induction hab with
    | refl => exact ha
    | step b d _ hs ih =>
      have lt := (List.getElem?_eq_some_iff.1 ih).1
      cases hs with
      | push => exact (List.getElem?_append_left lt).trans ih
      | head => exact (List.getElem?_append_left lt).trans ih
      | act j a as E hj hE =>
        by_cases e : j = s.tasks.length
        · rw [e, ih] at hj
          cases hj
        · exact (List.getElem?_set_ne e).trans ih
  have hd2 := still h2 (still h1 hd)
  have hrow2 : row ∈ t2.db.refs := by
    cases m with
    | on xs hx hi =>
      rw [hd2] at hi
      have := (List.append_eq_nil_iff.1 (Option.some.inj (Option.some.inj hi)).symm).2
      cases this
    | failing _ hi => rw [hd2] at hi; cases hi
    | dead _ hi => rw [hd2] at hi; cases hi
    | done k _ hk _ => exact List.mem_of_getElem? hk
  subst hE1
  obtain ⟨r, a1, a2, a3, a4⟩ := getHead_master (X := X) hb hm
  have hr : r ∈ Spec.refsAt E1.fold t1.db.refs u := refsAt_mem.2 ⟨a1, by rw [a2]⟩
  have hp : (getRefObjectId E2 t2.db u).Perm ((Spec.refsAt E1.fold t2.db.refs u).map (fun r => (r.refGitId, r.refName))) := by
    have := getRefObjectId_perm E2 t2.db u (by rw [hE2]; exact hid)
    rwa [hE2] at this
  obtain ⟨pkts, k1, k2⟩ := C60_advertisement_http ty r.refGitId (getRefObjectId E2 t2.db u) (ht1 r hr).1 (ht1 r hr).2.1 (by
    intro p hp'
    obtain ⟨r, hr', rfl⟩ := List.mem_map.1 (hp.mem_iff.1 hp')
    exact ht2 r hr')
  refine ⟨_, r.refGitId, _, ?_, ⟨pkts, k1, k2⟩, hp.mem_iff.2 (List.mem_map.2 ⟨row, refsAt_mem.2 ⟨hrow2, rfl⟩, rfl⟩)⟩
  unfold refsAnswer
  rw [a4]

/-- **C137 (partial)** No push that creates a branch fails or is held up because of others: if the push would be stored on its own in some state (`hs`), then at every moment `t` of every history with
overlapping requests it can go on, without waiting for any other request, and finish. (Conditions on the database: it refuses neither nodes nor refs.) -/
theorem C137_finishes_partial (X : Ext) (fold : Bytes → Bytes) (R : Bytes → Prop) (u : Bytes) (c : RefCommand) (hc : c.commandType = .create) (s t : Sys) (E : SqlExt) (fuel : Nat) (p : Pack) (db db' : Db)
    (hs : savePackfile E fuel p u db = (.ok (), db'))
    (h0 : SysRun X (fun E => E.fold = fold ∧ (∀ n b, E.acceptRefs n b = true) ∧ ∀ n b, E.acceptNodes n b = true) R (Spec.NotFrom fold c.newId) Sys.empty s)
    (h : SysRun X (fun E => E.fold = fold ∧ (∀ n b, E.acceptRefs n b = true) ∧ ∀ n b, E.acceptNodes n b = true) R (Spec.NotFrom fold c.newId) (Spec.arrived s E fuel p u c) t)
    (E' : SqlExt) (hE' : E'.fold = fold ∧ (∀ n b, E'.acceptRefs n b = true) ∧ ∀ n b, E'.acceptNodes n b = true) :
    ∃ t', SysRun X (fun E => E = E') R (fun _ _ => False) t t' ∧ t'.tasks[s.tasks.length]? = some (some []) := by
  set row : RefRow := { repoPath := u, refName := c.refName, refGitId := c.newId } with hrow
  have hQ : ∀ E : SqlExt, (E.fold = fold ∧ (∀ n b, E.acceptRefs n b = true) ∧ ∀ n b, E.acceptNodes n b = true) →
      E.fold = fold ∧ (∀ n b, E.acceptRefs n b = true) ∧ (False ∨ ∀ n b, E.acceptNodes n b = true) := fun E h => ⟨h.1, h.2.1, .inr h.2.2⟩
  have hW : ∀ p c', Spec.NotFrom fold c.newId p c' → c'.commandType = .update → fold c'.oldId ≠ fold row.refGitId := fun p c' h => h
  have q0 := arrived_quiet E fuel p u hc (allQuiet_run (row := row) (fun E h => h.1) hW h0 empty_quiet)
  have here : (Spec.arrived s E fuel p u c).tasks[s.tasks.length]? = some (some (pushActs E.pool fuel p u c)) := by simp [Spec.arrived]
  have m0 : Making fold row s.tasks.length False (Spec.arrived s E fuel p u c) := by
    rcases create_acts E.pool fuel p u hc with e | ⟨xs, hx, e⟩
    · exfalso
      unfold savePackfile at hs
      unfold pushActs at e
      cases hp : E.pool p.result with
      | ok D =>
        rw [hp] at hs e
        simp only at hs e
        cases hbt : buildNodeTree fuel D with
        | ok rows =>
          rw [hbt] at e
          simp only [refActs, hc] at e
          have := congrArg List.getLast? e
          simp at this
        | _ => rw [hbt] at hs; simp at hs
      | _ => rw [hp] at hs; simp at hs
    · exact .on xs hx (here.trans (by rw [e]))
  obtain ⟨_, m⟩ := making_run hQ hW h q0 m0
  have go : ∀ (xs : List Act), (∀ a ∈ xs, (∃ b, a = .nodes b) ∨ ∃ b, a = .commits b) → ∀ t : Sys, t.tasks[s.tasks.length]? = some (some (xs ++ [.refs [row]])) →
      ∃ t', SysRun X (fun E => E = E') R (fun _ _ => False) t t' ∧ t'.tasks[s.tasks.length]? = some (some []) := by
    intro xs
    induction xs with
    | nil =>
      intro _ t ht
      have lt := (List.getElem?_eq_some_iff.1 ht).1
      refine ⟨_, .step _ _ _ (.refl t) (.act t _ _ _ E' ht rfl), ?_⟩
      simp only [Act.step, Option.map_some, List.nil_append, List.getElem?_set_self lt]
    | cons x xs ih =>
      intro hx t ht
      have lt := (List.getElem?_eq_some_iff.1 ht).1
      have one : (x.step X E' t.db).1 = some [] := by
        rcases hx x (.head _) with ⟨b, rfl⟩ | ⟨b, rfl⟩
        · simp only [Act.step, hE'.2.2, if_true]
        · rfl
      have st := SysStep.act (X := X) (Q := fun E => E = E') (R := R) (W := fun _ _ => False) t _ _ _ E' ht rfl
      obtain ⟨t', k1, k2⟩ := ih (fun a ha => hx a (.tail _ ha))
        { t with db := (x.step X E' t.db).2, tasks := t.tasks.set s.tasks.length ((x.step X E' t.db).1.map (· ++ (xs ++ [.refs [row]]))) } (by
        show (t.tasks.set s.tasks.length ((x.step X E' t.db).1.map (· ++ (xs ++ [.refs [row]]))))[s.tasks.length]? = _
        rw [one, List.getElem?_set_self lt]
        rfl)
      exact ⟨t', SysRun.trans (.step _ _ _ (.refl t) st) k1, k2⟩
  cases m with
  | on xs hx hi => exact go xs hx t hi
  | failing f _ => exact f.elim
  | dead f _ => exact f.elim
  | done k hi _ _ => exact ⟨t, .refl _, hi⟩

/-- A push that creates the branch dev. -/
def appDev : RefCommand :=
  { refName := ascii "refs/heads/dev", oldId := ascii "0000000000000000000000000000000000000000", newId := ascii "1234567890123456789012345678901234567890", commandType := .create, ok := true, errorMsg := [] }

/-- C137: a push that creates the branch dev arrives while another push, which creates master in the same repository, is in the middle of its work; it can finish at once. -/
example : ∃ (s t : Sys), s.tasks = [some (refActs appCreate (ascii "/app"))] ∧ t.tasks[1]? = some (some []) ∧ ∃ p pool,
    SysRun polyExt (fun E => E = demoSql) (fun _ => True) (fun _ _ => False) { s with tasks := s.tasks ++ [some (pushActs pool 2 p (ascii "/app") appDev)], pushed := (1, ascii "/app", p) :: s.pushed } t := by
  obtain ⟨file, p, hdec, hown, hobj, hsave⟩ := app_task
  obtain ⟨db1, k1⟩ := hsave demoSql (fun _ _ => rfl) (ascii "/app") Sys.empty.db
  have t1 := solo_save polyExt demoSql 2 p (ascii "/app") appCreate Sys.empty.db
  rw [k1] at t1
  have hE : demoSql.fold = demoFold ∧ (∀ n b, demoSql.acceptRefs n b = true) ∧ ∀ n b, demoSql.acceptNodes n b = true := ⟨rfl, fun _ _ => rfl, fun _ _ => rfl⟩
  have p1 := SysStep.push (X := polyExt) (Q := fun E => E.fold = demoFold ∧ (∀ n b, E.acceptRefs n b = true) ∧ ∀ n b, E.acceptNodes n b = true) (R := fun _ => True)
    (W := Spec.NotFrom demoFold appDev.newId) Sys.empty _ _ _ p demoSql 2 (ascii "/app") appCreate hdec trivial (fun h => by cases h)
  have u1 := t1.run (Q := fun E => E.fold = demoFold ∧ (∀ n b, E.acceptRefs n b = true) ∧ ∀ n b, E.acceptNodes n b = true) (R := fun _ => True)
    (W := Spec.NotFrom demoFold appDev.newId) hE [some (pushActs demoSql.pool 2 p (ascii "/app") appCreate)] [(0, ascii "/app", p)] 0 rfl
  obtain ⟨t', a1, a2⟩ := C137_finishes_partial polyExt demoFold (fun _ => True) (ascii "/app") appDev rfl ⟨db1, [some (refActs appCreate (ascii "/app"))], [(0, ascii "/app", p)]⟩ _
    demoSql 2 p _ _ k1 (SysRun.trans (.step _ _ _ (.refl Sys.empty) p1) u1) (.refl _) demoSql hE
  exact ⟨_, t', rfl, a2, p, demoSql.pool, a1⟩

/-- C137: two pushes to `/app` at the same time, on an empty server; one creates the branch dev, the other one the branch master. The first stores its pack, then the second arrives and stores its
pack, then the first makes its branch, and then the second; a client is then shown both branches. -/
example : ∃ (t : Sys) (out : Bytes), t.tasks = [some [], some []] ∧ refsAnswer polyExt demoSql demoSqlRev .uploadPack t.db t.db (ascii "/app") = .ok out ∧
    (∃ head refs, Spec.Shows .uploadPack out head refs ∧ (appDev.newId, ascii "refs/heads/dev") ∈ refs) ∧
    ∃ head refs, Spec.Shows .uploadPack out head refs ∧ (appCreate.newId, ascii "refs/heads/master") ∈ refs := by
  obtain ⟨file, p, hdec, hown, hobj, hsave⟩ := app_task
  obtain ⟨db1, k1⟩ := hsave demoSql (fun _ _ => rfl) (ascii "/app") Sys.empty.db
  obtain ⟨db2, k2⟩ := hsave demoSql (fun _ _ => rfl) (ascii "/app") db1
  have r1 : db1.refs = [] := by
    obtain ⟨db', e1, e2⟩ := savePackfile_any (fun _ _ => rfl) k1 Sys.empty.db
    rw [k1] at e1
    rw [(Prod.mk.inj e1).2, e2]
    rfl
  have r2 : db2.refs = [] := by
    obtain ⟨db', e1, e2⟩ := savePackfile_any (fun _ _ => rfl) k2 db1
    rw [k2] at e1
    rw [(Prod.mk.inj e1).2, e2, r1]
  have t1 := solo_save polyExt demoSql 2 p (ascii "/app") appDev Sys.empty.db
  rw [k1] at t1
  have t2 := solo_save polyExt demoSql 2 p (ascii "/app") appCreate db1
  rw [k2] at t2
  have t3 := solo_refs polyExt demoSql appDev (ascii "/app") db2
  obtain ⟨db3, e3, r3⟩ : ∃ db3, outcome (handleRefs demoSql appDev (ascii "/app") db2) = (some [], db3) ∧
      db3.refs = [{ repoPath := ascii "/app", refName := appDev.refName, refGitId := appDev.newId }] := ⟨_, rfl, by
        show db2.refs ++ _ = _
        rw [r2]
        rfl⟩
  rw [e3] at t3
  have t4 := solo_refs polyExt demoSql appCreate (ascii "/app") db3
  obtain ⟨db4, e4, r4⟩ : ∃ db4, outcome (handleRefs demoSql appCreate (ascii "/app") db3) = (some [], db4) ∧
      db4.refs = [{ repoPath := ascii "/app", refName := appDev.refName, refGitId := appDev.newId }, appRow] := ⟨_, rfl, by
        show db3.refs ++ _ = _
        rw [r3]
        rfl⟩
  rw [e4] at t4
  have runs : ∀ id, SysRun polyExt (fun E => E.fold = demoFold ∧ ∀ n b, E.acceptRefs n b = true) (fun _ => True) (Spec.NotFrom demoFold id)
        (Spec.arrived Sys.empty demoSql 2 p (ascii "/app") appDev) ⟨db1, [some (refActs appDev (ascii "/app"))], [(0, ascii "/app", p)]⟩ ∧
      SysRun polyExt (fun E => E.fold = demoFold ∧ ∀ n b, E.acceptRefs n b = true) (fun _ => True) (Spec.NotFrom demoFold id)
        ⟨db1, [some (refActs appDev (ascii "/app"))], [(0, ascii "/app", p)]⟩
        (Spec.arrived ⟨db1, [some (refActs appDev (ascii "/app"))], [(0, ascii "/app", p)]⟩ demoSql 2 p (ascii "/app") appCreate) ∧
      SysRun polyExt (fun E => E.fold = demoFold ∧ ∀ n b, E.acceptRefs n b = true) (fun _ => True) (Spec.NotFrom demoFold id)
        (Spec.arrived ⟨db1, [some (refActs appDev (ascii "/app"))], [(0, ascii "/app", p)]⟩ demoSql 2 p (ascii "/app") appCreate)
        ⟨db4, [some [], some []], [(1, ascii "/app", p), (0, ascii "/app", p)]⟩ := by
    intro id
    refine ⟨?_, ?_, ?_⟩
    · exact t1.run demoSql_refs [some (pushActs demoSql.pool 2 p (ascii "/app") appDev)] [(0, ascii "/app", p)] 0 rfl
    · exact .step _ _ _ (.refl _) (.push _ _ _ _ p demoSql 2 (ascii "/app") appCreate hdec trivial (fun h => by cases h))
    · refine SysRun.trans (t2.run demoSql_refs [some (refActs appDev (ascii "/app")), some (pushActs demoSql.pool 2 p (ascii "/app") appCreate)]
        [(1, ascii "/app", p), (0, ascii "/app", p)] 1 rfl) ?_
      refine SysRun.trans (t3.run demoSql_refs [some (refActs appDev (ascii "/app")), some (refActs appCreate (ascii "/app"))]
        [(1, ascii "/app", p), (0, ascii "/app", p)] 0 rfl) ?_
      exact t4.run demoSql_refs [some [], some (refActs appCreate (ascii "/app"))] [(1, ascii "/app", p), (0, ascii "/app", p)] 1 rfl
  have pA : SysRun polyExt (fun E => E.fold = demoFold ∧ ∀ n b, E.acceptRefs n b = true) (fun _ => True) (Spec.NotFrom demoFold appCreate.newId) Sys.empty
      (Spec.arrived Sys.empty demoSql 2 p (ascii "/app") appDev) :=
    .step _ _ _ (.refl _) (.push _ _ _ _ p demoSql 2 (ascii "/app") appDev hdec trivial (fun h => by cases h))
  have eat : Spec.refsAt demoFold db4.refs (ascii "/app") = [{ repoPath := ascii "/app", refName := appDev.refName, refGitId := appDev.newId }, appRow] := by
    rw [r4]
    rfl
  have hm : Spec.HasMaster demoFold db4 (ascii "/app") := ⟨appRow, by rw [r4]; exact .tail _ (.head _), rfl, appRow_master⟩
  have hid : ((Spec.refsAt demoFold db4.refs (ascii "/app")).map RefRow.refGitId).Nodup := by rw [eat]; decide +kernel
  have htx : ∀ r ∈ Spec.refsAt demoFold db4.refs (ascii "/app"), Spec.RefText r := by
    rw [eat]
    intro r hr
    rcases List.mem_cons.1 hr with rfl | hr
    · unfold Spec.RefText; decide
    · rw [List.mem_singleton.1 hr]; exact appRow_text
  obtain ⟨out, head, refs, a1, a2, a3⟩ := C137_created_partial polyExt demoFold (fun _ => True) (u := ascii "/app") (by decide) appDev rfl Sys.empty _ _ _ (.refl _) demoSql 2 p
    (((runs _).1.trans (runs _).2.1).trans (runs _).2.2) rfl (.refl _) (.refl _) hm hid htx htx demoSql demoSqlRev rfl rfl .uploadPack
  obtain ⟨out', head', refs', b1, b2, b3⟩ := C137_created_partial polyExt demoFold (fun _ => True) (u := ascii "/app") (by decide) appCreate rfl
    ⟨db1, [some (refActs appDev (ascii "/app"))], [(0, ascii "/app", p)]⟩ _ _ _ (pA.trans (runs _).1) demoSql 2 p
    (runs _).2.2 rfl (.refl _) (.refl _) hm hid htx htx demoSql demoSqlRev rfl rfl .uploadPack
  have e := a1.symm.trans b1
  cases e
  exact ⟨⟨db4, [some [], some []], []⟩, out, rfl, a1, ⟨head, refs, a2, a3⟩, head', refs', b2, b3⟩

end Gust

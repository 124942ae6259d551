import Verif.Props.RefsShown
import Verif.Props.ConcurrentExamples

/-! # C104, C105: what clients are shown of the refs of a repository when requests overlap -/

namespace Gust

/-- Not interrupted, it is what `advertise` says. -/
theorem refsAnswer_same (X : Ext) (E : SqlExt) (service : ServiceType) (db : Db) (path : Bytes) :
    refsAnswer X E E service db (getHeadObjectId X E db path).2 path = (advertise X E .http service db path).1 := by
  unfold refsAnswer advertise
  obtain ⟨r, d⟩ := getHeadObjectId X E db path
  cases r <;> rfl

/-- No request is being worked on. -/
def Spec.NobodyWorking (s : Sys) : Prop := ∀ as, some as ∈ s.tasks → as = []

/-! ## Lemmas -/

/-- What the statement is going to do does not touch the refs of `u`. -/
def AwayAct (fold : Bytes → Bytes) (u : Bytes) (refs : List RefRow) : Act → Prop
  | .refs b => ∀ r ∈ b, fold r.repoPath ≠ fold u
  | .findRef _ q => fold q ≠ fold u
  | .setRef i _ => ∃ r, refs[i]? = some r ∧ fold r.repoPath ≠ fold u
  | .headRefs q => fold q ≠ fold u
  | .headCommit _ q => fold q ≠ fold u
  | .headRoot _ _ q _ => fold q ≠ fold u
  | _ => True

theorem AwayAct.mono {fold : Bytes → Bytes} {u : Bytes} {l l' : List RefRow} (hp : l.map RefRow.repoPath <+: l'.map RefRow.repoPath) {a : Act}
    (h : AwayAct fold u l a) : AwayAct fold u l' a := by
  cases a with
  | setRef i id =>
    obtain ⟨r, h1, h2⟩ := h
    obtain ⟨t, ht⟩ := hp
    have hlt : i < l.length := by
      rcases Nat.lt_or_ge i l.length with h | h
      · exact h
      · rw [List.getElem?_eq_none h] at h1; cases h1
    have e : (l'.map RefRow.repoPath)[i]? = some r.repoPath := by
      rw [← ht, List.getElem?_append_left (by simpa using hlt), List.getElem?_map, h1]
      rfl
    rw [List.getElem?_map] at e
    obtain ⟨r', e1, e2⟩ := Option.map_eq_some_iff.1 e
    exact ⟨r', e1, by rw [e2]; exact h2⟩
  | nodes b => trivial
  | commits b => trivial
  | refs b => exact h
  | findRef cmd q => exact h
  | headRefs q => exact h
  | headCommit r q => exact h
  | headRoot _ _ q _ => exact h
  | fail => trivial

theorem append_away {fold : Bytes → Bytes} {u : Bytes} {l b : List RefRow} (h : ∀ r ∈ b, fold r.repoPath ≠ fold u) :
    Spec.refsAt fold (l ++ b) u = Spec.refsAt fold l u := by
  have e : Spec.refsAt fold b u = [] := List.filter_eq_nil_iff.2 (fun r hr => by simpa using h r hr)
  rw [refsAt_append, e, List.append_nil]

/-- A statement that does not touch the refs of `u`. -/
theorem away_step {X : Ext} {E : SqlExt} {u : Bytes} {db : Db} {a : Act} (h : AwayAct E.fold u db.refs a) :
    Spec.refsAt E.fold (a.step X E db).2.refs u = Spec.refsAt E.fold db.refs u ∧
    ∀ more, (a.step X E db).1 = some more → ∀ b ∈ more, AwayAct E.fold u (a.step X E db).2.refs b := by
  cases a with
  | nodes b =>
    simp only [Act.step]
    split
    · exact ⟨rfl, fun more e => by cases e; exact fun _ h => nomatch h⟩
    · exact ⟨rfl, fun more e => nomatch e⟩
  | commits b => exact ⟨rfl, fun more e => by cases e; exact fun _ h => nomatch h⟩
  | refs b =>
    refine ⟨?_, fun more e => by cases e; exact fun _ h => nomatch h⟩
    show Spec.refsAt E.fold (if E.acceptRefs db.inserts b then db.refs ++ b else db.refs) u = _
    split
    · exact append_away h
    · rfl
  | findRef cmd q =>
    simp only [Act.step]
    split
    · rename_i i hi
      refine ⟨rfl, fun more e => ?_⟩
      cases e
      intro b hb
      cases List.mem_singleton.1 hb
      obtain ⟨hm, hx⟩ := List.mem_filter.1 ((E.order_perm _).mem_iff.1 (List.mem_of_head? hi))
      have hlt := List.mem_range.1 hm
      rw [List.getElem?_eq_getElem hlt, Option.any_some, updateMatches, Bool.and_eq_true] at hx
      exact ⟨_, List.getElem?_eq_getElem hlt, by rw [eq_of_beq hx.2]; exact h⟩
    · exact ⟨rfl, fun more e => nomatch e⟩
  | setRef i id =>
    simp only [Act.step]
    split
    swap
    · exact ⟨rfl, fun more e => nomatch e⟩
    refine ⟨?_, fun more e => by cases e; exact fun _ h => nomatch h⟩
    obtain ⟨r, h1, h2⟩ := h
    refine modify_filter _ _ _ _ (fun a ha => ?_)
    rw [h1] at ha
    cases ha
    exact ⟨by simpa using h2, by simpa using h2⟩
  | headRefs q =>
    simp only [Act.step]
    split
    · exact ⟨rfl, fun more e => by cases e; exact fun _ h => nomatch h⟩
    · split
      · refine ⟨rfl, fun more e => ?_⟩
        cases e
        intro b hb
        cases List.mem_singleton.1 hb
        exact h
      · exact ⟨rfl, fun more e => by cases e; exact fun _ h => nomatch h⟩
  | headCommit r q =>
    simp only [Act.step]
    split
    · exact ⟨rfl, fun more e => nomatch e⟩
    · refine ⟨rfl, fun more e => ?_⟩
      cases e
      intro b hb
      cases List.mem_singleton.1 hb
      exact h
  | headRoot row r q second =>
    simp only [Act.step]
    split
    · exact ⟨rfl, fun more e => nomatch e⟩
    · split
      · refine ⟨rfl, fun more e => ?_⟩
        cases e
        unfold childActs
        split
        · intro b hb
          rcases List.mem_cons.1 hb with rfl | hb
          · trivial
          · cases List.mem_singleton.1 hb
            intro x hx
            rw [List.mem_singleton.1 hx]
            exact h
        · intro b hb
          cases List.mem_singleton.1 hb
          trivial
      · split
        · exact ⟨rfl, fun more e => by cases e; exact fun _ h => nomatch h⟩
        · refine ⟨rfl, fun more e => ?_⟩
          cases e
          intro b hb
          cases List.mem_singleton.1 hb
          exact h
  | fail => exact ⟨rfl, fun more e => nomatch e⟩

/-- It leaves the rows of `u` where they are. -/
theorem away_rows {X : Ext} {E : SqlExt} {u : Bytes} {db : Db} {a : Act} (h : AwayAct E.fold u db.refs a) (i : Nat) (r : RefRow) (hi : db.refs[i]? = some r)
    (hr : E.fold r.repoPath = E.fold u) : (a.step X E db).2.refs[i]? = some r := by
  cases a with
  | nodes b =>
    simp only [Act.step]
    split <;> exact hi
  | commits b => exact hi
  | refs b =>
    show (if E.acceptRefs db.inserts b then db.refs ++ b else db.refs)[i]? = some r
    split
    · rw [List.getElem?_append_left]
      · exact hi
      · rcases Nat.lt_or_ge i db.refs.length with h | h
        · exact h
        · rw [List.getElem?_eq_none h] at hi; cases hi
    · exact hi
  | findRef cmd q =>
    simp only [Act.step]
    split <;> exact hi
  | setRef j id =>
    obtain ⟨r', h1, h2⟩ := h
    have hne : j ≠ i := by
      rintro rfl
      rw [hi] at h1
      cases h1
      exact h2 hr
    simp only [Act.step]
    split
    swap
    · exact hi
    show (db.refs.modify j (fun r => { r with refGitId := id }))[i]? = some r
    rw [List.getElem?_modify, hi]
    simp only [if_neg hne]
    rfl
  | headRefs q =>
    simp only [Act.step]
    split
    · exact hi
    · split <;> exact hi
  | headCommit r q =>
    simp only [Act.step]
    split <;> exact hi
  | headRoot row r q second =>
    simp only [Act.step]
    split
    · exact hi
    · split
      · exact hi
      · split <;> exact hi
  | fail => exact hi

/-- The tasks other than number `i` do not touch the refs of `u`. -/
def AwayBut (fold : Bytes → Bytes) (u : Bytes) (i : Nat) (s : Sys) : Prop :=
  ∀ j as, j ≠ i → s.tasks[j]? = some (some as) → ∀ a ∈ as, AwayAct fold u s.db.refs a

theorem push_away {fold : Bytes → Bytes} {u : Bytes} {refs : List RefRow} (pool : PackCache → Res ObjDecodedMap) (fuel : Nat) (p : Pack) {q : Bytes} (cmd : RefCommand)
    (hq : fold q ≠ fold u) : ∀ a ∈ pushActs pool fuel p q cmd, AwayAct fold u refs a := by
  intro a ha
  unfold pushActs at ha
  split at ha
  · split at ha
    · rcases List.mem_append.1 ha with ha | ha
      · rcases List.mem_append.1 ha with ha | ha
        · obtain ⟨_, _, rfl⟩ := List.mem_map.1 ha
          trivial
        · obtain ⟨_, _, rfl⟩ := List.mem_map.1 ha
          trivial
      · unfold refActs at ha
        split at ha
        · cases List.mem_singleton.1 ha
          intro r hr
          rw [List.mem_singleton.1 hr]
          exact hq
        · cases List.mem_singleton.1 ha
          trivial
        · cases List.mem_singleton.1 ha
          exact hq
    · cases List.mem_singleton.1 ha
      trivial
  · cases List.mem_singleton.1 ha
    trivial

/-- What is pushed and asked for is at other paths. -/
abbrev Spec.OtherPath (fold : Bytes → Bytes) (u q : Bytes) : Prop := fold q ≠ fold u

theorem awayBut_step {X : Ext} {fold : Bytes → Bytes} {u : Bytes} {i : Nat} {Q : SqlExt → Prop} {W : Pack → RefCommand → Prop} (hQ : ∀ E, Q E → E.fold = fold) {s t : Sys}
    (hi : i < s.tasks.length) (h : AwayBut fold u i s) (hs : SysStep X Q (Spec.OtherPath fold u) W s t) :
    i < t.tasks.length ∧ AwayBut fold u i t ∧
      ((t.tasks[i]? = s.tasks[i]? ∧ Spec.refsAt fold t.db.refs u = Spec.refsAt fold s.db.refs u ∧
          ∀ (j : Nat) (r : RefRow), s.db.refs[j]? = some r → fold r.repoPath = fold u → t.db.refs[j]? = some r) ∨
        ∃ a as E, s.tasks[i]? = some (some (a :: as)) ∧ Q E ∧ t.tasks[i]? = some ((a.step X E s.db).1.map (· ++ as)) ∧ t.db = (a.step X E s.db).2) := by
  cases hs with
  | push St fuel0 file p E fuel q cmd hdec hq hw =>
    refine ⟨by simp only [List.length_append]; omega, ?_, .inl ⟨List.getElem?_append_left hi, rfl, fun _ _ h _ => h⟩⟩
    intro j as hj hjs a ha
    rcases Nat.lt_or_ge j s.tasks.length with hlt | hge
    · rw [List.getElem?_append_left hlt] at hjs
      exact h j as hj hjs a ha
    · rw [List.getElem?_append_right hge] at hjs
      have := List.mem_of_getElem? hjs
      cases List.mem_singleton.1 this
      exact push_away _ _ _ _ hq a ha
  | head q hq =>
    refine ⟨by simp only [List.length_append]; omega, ?_, .inl ⟨List.getElem?_append_left hi, rfl, fun _ _ h _ => h⟩⟩
    intro j as hj hjs a ha
    rcases Nat.lt_or_ge j s.tasks.length with hlt | hge
    · rw [List.getElem?_append_left hlt] at hjs
      exact h j as hj hjs a ha
    · rw [List.getElem?_append_right hge] at hjs
      have := List.mem_of_getElem? hjs
      cases List.mem_singleton.1 this
      cases List.mem_singleton.1 ha
      exact hq
  | act k a as E hk hE =>
    have hf := hQ E hE
    subst hf
    have hpre := step_paths X E s.db a
    refine ⟨by simpa using hi, ?_, ?_⟩
    · intro j bs hj hjs b hb
      simp only at hjs ⊢
      by_cases hjk : j = k
      · subst hjk
        have hlt : j < s.tasks.length := by
          rcases Nat.lt_or_ge j s.tasks.length with h | h
          · exact h
          · rw [List.getElem?_eq_none h] at hk; cases hk
        rw [List.getElem?_set_self hlt] at hjs
        obtain ⟨more, e1, e2⟩ := Option.map_eq_some_iff.1 (Option.some.inj hjs)
        rw [← e2] at hb
        have ha := h j (a :: as) hj hk
        rcases List.mem_append.1 hb with hb | hb
        · exact (away_step (X := X) (ha a (.head _))).2 more e1 b hb
        · exact (ha b (.tail _ hb)).mono hpre
      · rw [List.getElem?_set_ne (fun e => hjk e.symm)] at hjs
        exact (h j bs hj hjs b hb).mono hpre
    · by_cases hik : i = k
      · subst hik
        exact .inr ⟨a, as, E, hk, hE, by simp only [List.getElem?_set_self hi], rfl⟩
      · refine .inl ⟨List.getElem?_set_ne (fun e => hik e.symm), ?_, ?_⟩
        · exact (away_step (X := X) (h k (a :: as) (fun e => hik e.symm) hk a (.head _))).1
        · exact away_rows (X := X) (h k (a :: as) (fun e => hik e.symm) hk a (.head _))

/-- All tasks are about other repositories. -/
def Away (fold : Bytes → Bytes) (u : Bytes) (s : Sys) : Prop := ∀ as, some as ∈ s.tasks → ∀ a ∈ as, AwayAct fold u s.db.refs a

theorem idle_away {fold : Bytes → Bytes} {u : Bytes} {s : Sys} (h : Spec.NobodyWorking s) : Away fold u s := by
  intro as hs a ha
  rw [h as hs] at ha
  cases ha

theorem away_but {fold : Bytes → Bytes} {u : Bytes} {s : Sys} (h : Away fold u s) (i : Nat) : AwayBut fold u i s :=
  fun _ as _ hj => h as (List.mem_of_getElem? hj)

theorem away_one {X : Ext} {fold : Bytes → Bytes} {u : Bytes} {Q : SqlExt → Prop} {W : Pack → RefCommand → Prop} (hQ : ∀ E, Q E → E.fold = fold) {s t : Sys}
    (h : Away fold u s) (hs : SysStep X Q (Spec.OtherPath fold u) W s t) : Away fold u t ∧ Spec.refsAt fold t.db.refs u = Spec.refsAt fold s.db.refs u := by
  cases hs with
  | push St fuel0 file p E fuel q cmd hdec hq hw =>
    refine ⟨fun as ha => ?_, rfl⟩
    rcases List.mem_append.1 ha with ha | ha
    · exact h as ha
    · cases List.mem_singleton.1 ha
      exact push_away _ _ _ _ hq
  | head q hq =>
    refine ⟨fun as ha => ?_, rfl⟩
    rcases List.mem_append.1 ha with ha | ha
    · exact h as ha
    · cases List.mem_singleton.1 ha
      intro a ha
      cases List.mem_singleton.1 ha
      exact hq
  | act k a as E hk hE =>
    have hf := hQ E hE
    subst hf
    have hpre := step_paths X E s.db a
    have ha := h (a :: as) (List.mem_of_getElem? hk)
    obtain ⟨e, hmore⟩ := away_step (X := X) (ha a (.head _))
    refine ⟨fun bs hb b hbb => ?_, e⟩
    rcases mem_set_task hb with hb | hb
    · exact (h bs hb b hbb).mono hpre
    · obtain ⟨more, e1, e2⟩ := Option.map_eq_some_iff.1 hb.symm
      rw [← e2] at hbb
      rcases List.mem_append.1 hbb with hbb | hbb
      · exact hmore more e1 b hbb
      · exact (ha b (.tail _ hbb)).mono hpre

theorem away_run {X : Ext} {fold : Bytes → Bytes} {u : Bytes} {Q : SqlExt → Prop} {W : Pack → RefCommand → Prop} (hQ : ∀ E, Q E → E.fold = fold) {s t : Sys}
    (h : Away fold u s) (hs : SysRun X Q (Spec.OtherPath fold u) W s t) : Away fold u t ∧ Spec.refsAt fold t.db.refs u = Spec.refsAt fold s.db.refs u := by
  induction hs with
  | refl => exact ⟨h, rfl⟩
  | step t v _ hs ih =>
    obtain ⟨h1, h2⟩ := away_one hQ ih.1 hs
    exact ⟨h1, h2.trans ih.2⟩

/-- What a client is shown whose question for HEAD and question for the refs meet the same refs of the repository, one of them a master. -/
theorem shown_twice {X : Ext} {fold : Bytes → Bytes} {u : Bytes} (hb : (0x5c : UInt8) ∉ u) {E1 E2 : SqlExt} (h1 : E1.fold = fold) (h2 : E2.fold = fold) (t : ServiceType)
    {db1 db2 : Db} {l : List RefRow} (e1 : Spec.refsAt fold db1.refs u = l) (e2 : Spec.refsAt fold db2.refs u = l)
    (hm : ∃ r ∈ l, r.repoPath = u ∧ Spec.isMaster fold r) (hid : (l.map RefRow.refGitId).Nodup) (ht : ∀ r ∈ l, Spec.RefText r) :
    (getHeadObjectId X E1 db1 u).2 = db1 ∧ ∃ out r refs, refsAnswer X E1 E2 t db1 db2 u = .ok out ∧ Spec.Shows t out r.refGitId refs ∧
      r ∈ l ∧ r.repoPath = u ∧ Spec.isMaster fold r ∧ refs.Perm (l.map (fun r => (r.refGitId, r.refName))) := by
  subst h1
  have hm' : Spec.HasMaster E1.fold db1 u := by
    obtain ⟨r, a, b, c⟩ := hm
    rw [← e1] at a
    exact ⟨r, (refsAt_mem.1 a).1, b, c⟩
  obtain ⟨r, a1, a2, a3, a4⟩ := getHead_master (X := X) hb hm'
  have hr : r ∈ l := by rw [← e1]; exact refsAt_mem.2 ⟨a1, by rw [a2]⟩
  have hp : (getRefObjectId E2 db2 u).Perm (l.map (fun r => (r.refGitId, r.refName))) := by
    have := getRefObjectId_perm E2 db2 u (by rw [h2, e2]; exact hid)
    rwa [h2, e2] at this
  obtain ⟨pkts, k1, k2⟩ := C60_advertisement_http t r.refGitId (getRefObjectId E2 db2 u) (ht r hr).1 (ht r hr).2.1 (by
    intro p hp'
    obtain ⟨r, hr', rfl⟩ := List.mem_map.1 (hp.mem_iff.1 hp')
    exact ht r hr')
  refine ⟨by rw [a4], _, r, _, ?_, ⟨pkts, k1, k2⟩, hr, a2, a3, hp⟩
  unfold refsAnswer
  rw [a4]

/-! ## C104 -/

/-- **C104 (partial)** From a moment when no request is being worked on: however requests to other repositories then overlap, with each other and with a client that asks
for the refs of the repository `u` (HEAD is looked up at some moment, the refs at a later one), the client is shown exactly the refs that were there at the beginning, HEAD being a
master of the beginning, and its own request changes nothing. The repository has a branch master, its refs have different ids (C52). -/
theorem C104_overlapping_partial (X : Ext) (fold : Bytes → Bytes) (W : Pack → RefCommand → Prop) {u : Bytes} (hb : (0x5c : UInt8) ∉ u) (s s1 s2 : Sys) (h0 : Spec.NobodyWorking s)
    (hm : Spec.HasMaster fold s.db u) (hid : ((Spec.refsAt fold s.db.refs u).map RefRow.refGitId).Nodup) (ht : ∀ r ∈ Spec.refsAt fold s.db.refs u, Spec.RefText r)
    (h1 : SysRun X (fun E => E.fold = fold) (Spec.OtherPath fold u) W s s1) (h2 : SysRun X (fun E => E.fold = fold) (Spec.OtherPath fold u) W s1 s2)
    (E1 E2 : SqlExt) (hE1 : E1.fold = fold) (hE2 : E2.fold = fold) (t : ServiceType) :
    (getHeadObjectId X E1 s1.db u).2 = s1.db ∧ ∃ out head refs, refsAnswer X E1 E2 t s1.db s2.db u = .ok out ∧ Spec.Shows t out head refs ∧
      (∃ r ∈ s.db.refs, r.repoPath = u ∧ Spec.isMaster fold r ∧ r.refGitId = head) ∧
      refs.Perm ((Spec.refsAt fold s.db.refs u).map (fun r => (r.refGitId, r.refName))) := by
  obtain ⟨a1, e1⟩ := away_run (fun _ h => h) (idle_away h0) h1
  obtain ⟨_, e2⟩ := away_run (fun _ h => h) a1 h2
  obtain ⟨r, b1, b2, b3⟩ := hm
  obtain ⟨k, out, r', refs, c1, c2, c3, c4, c5, c6⟩ := shown_twice (X := X) hb hE1 hE2 t e1 (e2.trans e1) ⟨r, refsAt_mem.2 ⟨b1, by rw [b2]⟩, b2, b3⟩ hid ht
  exact ⟨k, out, _, refs, c1, c2, ⟨r', (refsAt_mem.1 c3).1, c4, c5, rfl⟩, c6⟩

/-! ## C105: a push -/

/-- The refs of the repository after the ref command of a push. -/
def Spec.afterCommand (fold : Bytes → Bytes) (u : Bytes) (cmd : RefCommand) (l : List RefRow) : List RefRow :=
  match cmd.commandType with
  | .create => l ++ [{ repoPath := u, refName := cmd.refName, refGitId := cmd.newId }]
  | .delete => l
  | .update => l.map (fun r => if fold r.refGitId = fold cmd.oldId then { r with refGitId := cmd.newId } else r)

/-- How far the push has come. `A`: the database refuses no refs. -/
inductive Stage (A : Prop) (fold : Bytes → Bytes) (u : Bytes) (cmd : RefCommand) (l : List RefRow) : Option (List Act) → List RefRow → Prop
  | before (xs : List Act) (refs : List RefRow) : (∀ a ∈ xs, (∃ b, a = .nodes b) ∨ (∃ b, a = .commits b) ∨ a = .fail) → Spec.refsAt fold refs u = l →
      Stage A fold u cmd l (some (xs ++ refActs cmd u)) refs
  | failing (refs : List RefRow) : Stage A fold u cmd l (some [.fail]) refs
  | found (i : Nat) (r : RefRow) (refs : List RefRow) : cmd.commandType = .update → refs[i]? = some r → fold r.repoPath = fold u → fold r.refGitId = fold cmd.oldId →
      Spec.refsAt fold refs u = l → Stage A fold u cmd l (some [.setRef i cmd.newId]) refs
  | done (refs : List RefRow) : (Spec.refsAt fold refs u = Spec.afterCommand fold u cmd l ∨ ¬ A ∧ cmd.commandType = .create ∧ Spec.refsAt fold refs u = l) → Stage A fold u cmd l (some []) refs
  | dead (refs : List RefRow) : Stage A fold u cmd l none refs

theorem stage_push {A : Prop} {fold : Bytes → Bytes} {u : Bytes} {refs : List RefRow} (pool : PackCache → Res ObjDecodedMap) (fuel : Nat) (p : Pack) (cmd : RefCommand) :
    Stage A fold u cmd (Spec.refsAt fold refs u) (some (pushActs pool fuel p u cmd)) refs := by
  unfold pushActs
  split
  · split
    · refine .before _ _ ?_ rfl
      intro a ha
      rcases List.mem_append.1 ha with ha | ha
      · obtain ⟨b, _, rfl⟩ := List.mem_map.1 ha
        exact .inl ⟨b, rfl⟩
      · obtain ⟨b, _, rfl⟩ := List.mem_map.1 ha
        exact .inr (.inl ⟨b, rfl⟩)
    · exact .failing _
  · exact .failing _

/-- Changing the only row with the old id. -/
theorem set_refsAt {fold : Bytes → Bytes} {u old new : Bytes} : ∀ {refs : List RefRow} {i : Nat} {r : RefRow}, refs[i]? = some r → fold r.repoPath = fold u →
    fold r.refGitId = fold old → ((Spec.refsAt fold refs u).filter (fun r => fold r.refGitId == fold old)).length ≤ 1 →
    Spec.refsAt fold (refs.modify i (fun r => { r with refGitId := new })) u =
      (Spec.refsAt fold refs u).map (fun r => if fold r.refGitId = fold old then { r with refGitId := new } else r)
  | [], _, _, h, _, _, _ => by simp at h
  | a :: refs, 0, r, h, hp, ho, h1 => by
    cases Option.some.inj h
    have e : Spec.refsAt fold (a :: refs) u = a :: Spec.refsAt fold refs u := by
      unfold Spec.refsAt
      rw [List.filter_cons, if_pos (by simpa using hp)]
    rw [e, List.filter_cons, if_pos (by simpa using ho), List.length_cons] at h1
    have h1 : (Spec.refsAt fold refs u).filter (fun r => fold r.refGitId == fold old) = [] := List.length_eq_zero_iff.1 (by omega)
    have e' : Spec.refsAt fold ((a :: refs).modify 0 (fun r => { r with refGitId := new })) u = { a with refGitId := new } :: Spec.refsAt fold refs u := by
      unfold Spec.refsAt
      rw [List.modify_zero_cons, List.filter_cons, if_pos (by simpa using hp)]
    rw [e', e, List.map_cons, if_pos ho]
    congr 1
    refine (List.map_id _).symm.trans (List.map_congr_left (fun x hx => ?_))
    rw [if_neg]
    · rfl
    · intro hh
      have := List.filter_eq_nil_iff.1 h1 x hx
      exact this (by simpa using hh)
  | a :: refs, i + 1, r, h, hp, ho, h1 => by
    have h : refs[i]? = some r := by simpa using h
    by_cases ha : fold a.repoPath = fold u
    · have e : ∀ l, Spec.refsAt fold (a :: l) u = a :: Spec.refsAt fold l u := fun l => by
        unfold Spec.refsAt
        rw [List.filter_cons, if_pos (by simpa using ha)]
      have hr : r ∈ (Spec.refsAt fold refs u).filter (fun r => fold r.refGitId == fold old) :=
        List.mem_filter.2 ⟨refsAt_mem.2 ⟨List.mem_of_getElem? h, hp⟩, by simpa using ho⟩
      have hpos := List.length_pos_of_mem hr
      have hna : ¬ fold a.refGitId = fold old := by
        intro hh
        rw [e, List.filter_cons, if_pos (by simpa using hh), List.length_cons] at h1
        omega
      rw [List.modify_succ_cons, e, e, List.map_cons, if_neg hna, set_refsAt h hp ho]
      rw [e, List.filter_cons, if_neg (by simpa using hna)] at h1
      exact h1
    · have e : ∀ l, Spec.refsAt fold (a :: l) u = Spec.refsAt fold l u := fun l => by
        unfold Spec.refsAt
        rw [List.filter_cons, if_neg (by simpa using ha)]
      rw [List.modify_succ_cons, e, e]
      rw [e] at h1
      exact set_refsAt h hp ho h1

theorem stage_step {A : Prop} {X : Ext} {E : SqlExt} {u : Bytes} {cmd : RefCommand} {l : List RefRow} (hacc : A → ∀ n b, E.acceptRefs n b = true)
    (h1 : (l.filter (fun r => E.fold r.refGitId == E.fold cmd.oldId)).length ≤ 1) {db : Db} {a : Act} {as : List Act}
    (h : Stage A E.fold u cmd l (some (a :: as)) db.refs) : Stage A E.fold u cmd l ((a.step X E db).1.map (· ++ as)) (a.step X E db).2.refs := by
  generalize hk : some (a :: as) = k at h
  generalize hd : db.refs = d at h
  cases h with
  | before xs _ hxs hl =>
    have hk := Option.some.inj hk
    cases xs with
    | nil =>
      rw [List.nil_append] at hk
      unfold refActs at hk
      split at hk
      · rename_i hc
        cases hk
        simp only [Act.step, Option.map_some, List.nil_append]
        refine .done _ ?_
        split
        · left
          rw [refsAt_append, hd, hl]
          simp only [Spec.afterCommand, hc, Spec.refsAt]
          simp
        · rename_i hno
          exact .inr ⟨fun hA => hno (hacc hA _ _), hc, by simpa [hd] using hl⟩
      · cases hk
        exact .dead _
      · rename_i hc
        cases hk
        simp only [Act.step]
        split
        · rename_i i hi
          obtain ⟨hm, hx⟩ := List.mem_filter.1 ((E.order_perm _).mem_iff.1 (List.mem_of_head? hi))
          have hlt := List.mem_range.1 hm
          rw [List.getElem?_eq_getElem hlt, Option.any_some, updateMatches, Bool.and_eq_true] at hx
          exact .found i _ _ hc (List.getElem?_eq_getElem hlt) (eq_of_beq hx.2) (eq_of_beq hx.1) (by rw [hd]; exact hl)
        · exact .dead _
    | cons x xs =>
      rw [List.cons_append] at hk
      obtain ⟨rfl, rfl⟩ := List.cons.inj hk
      rcases hxs a (.head _) with ⟨b, rfl⟩ | ⟨b, rfl⟩ | rfl
      · simp only [Act.step]
        split
        · exact .before xs _ (fun a h => hxs a (.tail _ h)) (by simpa [hd] using hl)
        · exact .dead _
      · exact .before xs _ (fun a h => hxs a (.tail _ h)) (by simpa [Act.step, hd] using hl)
      · exact .dead _
  | failing _ =>
    cases Option.some.inj hk
    exact .dead _
  | found i r _ hc hi hp ho hl =>
    cases Option.some.inj hk
    subst hd
    simp only [Act.step]
    split
    swap
    · exact .dead _
    refine .done _ (.inl ?_)
    simp only [Spec.afterCommand, hc]
    rw [set_refsAt hi hp ho (by rw [hl]; exact h1), hl]
  | done _ _ => cases hk
  | dead _ => cases hk

theorem stage_refs {A : Prop} {fold : Bytes → Bytes} {u : Bytes} {cmd : RefCommand} {l refs refs' : List RefRow} {k : Option (List Act)} (h : Stage A fold u cmd l k refs)
    (e : Spec.refsAt fold refs' u = Spec.refsAt fold refs u)
    (hrow : ∀ (i : Nat) (r : RefRow), refs[i]? = some r → fold r.repoPath = fold u → refs'[i]? = some r) : Stage A fold u cmd l k refs' := by
  cases h with
  | before xs _ hxs hl => exact .before xs _ hxs (e.trans hl)
  | failing _ => exact .failing _
  | found i r _ hc hi hp ho hl => exact .found i r _ hc (hrow i r hi hp) hp ho (e.trans hl)
  | done _ hl => exact .done _ (hl.imp e.trans fun ⟨h1, h2, h3⟩ => ⟨h1, h2, e.trans h3⟩)
  | dead _ => exact .dead _

theorem stage_run {A : Prop} {Q : SqlExt → Prop} {X : Ext} {fold : Bytes → Bytes} {u : Bytes} {cmd : RefCommand} {l : List RefRow} {i : Nat} {W : Pack → RefCommand → Prop} {s t : Sys}
    (hQ : ∀ E, Q E → E.fold = fold ∧ (A → ∀ n b, E.acceptRefs n b = true)) (h1 : (l.filter (fun r => fold r.refGitId == fold cmd.oldId)).length ≤ 1) (hi : i < s.tasks.length) (ha : AwayBut fold u i s)
    (hst : ∀ k, s.tasks[i]? = some k → Stage A fold u cmd l k s.db.refs)
    (hs : SysRun X Q (Spec.OtherPath fold u) W s t) :
    i < t.tasks.length ∧ AwayBut fold u i t ∧ ∀ k, t.tasks[i]? = some k → Stage A fold u cmd l k t.db.refs := by
  induction hs with
  | refl => exact ⟨hi, ha, hst⟩
  | step t v _ hs ih =>
    obtain ⟨i1, i2, i3⟩ := ih
    obtain ⟨j1, j2, j3⟩ := awayBut_step (fun E h => (hQ E h).1) i1 i2 hs
    refine ⟨j1, j2, fun k hk => ?_⟩
    rcases j3 with ⟨e1, e2, e3⟩ | ⟨a, as, E, e1, hE, e2, e3⟩
    · rw [e1] at hk
      exact stage_refs (i3 k hk) e2 e3
    · obtain ⟨rfl, hacc⟩ := hQ E hE
      rw [e2] at hk
      cases hk
      rw [e3]
      exact stage_step hacc h1 (i3 _ e1)

/-- The refs of the repository when a push to it has finished that overlapped with requests to other repositories. -/
theorem push_refs {A : Prop} {Q : SqlExt → Prop} {X : Ext} {fold : Bytes → Bytes} {u : Bytes} {W : Pack → RefCommand → Prop} {s t : Sys} (ha : Away fold u s)
    (pool : PackCache → Res ObjDecodedMap) (fuel : Nat) (p : Pack) (cmd : RefCommand) (pushed : List (Nat × Bytes × Pack))
    (hQ : ∀ E, Q E → E.fold = fold ∧ (A → ∀ n b, E.acceptRefs n b = true)) (h1 : ((Spec.refsAt fold s.db.refs u).filter (fun r => fold r.refGitId == fold cmd.oldId)).length ≤ 1)
    (hs : SysRun X Q (Spec.OtherPath fold u) W
      { s with tasks := s.tasks ++ [some (pushActs pool fuel p u cmd)], pushed := pushed } t)
    (hd : t.tasks[s.tasks.length]? = some (some [])) :
    Away fold u t ∧ (Spec.refsAt fold t.db.refs u = Spec.afterCommand fold u cmd (Spec.refsAt fold s.db.refs u) ∨
      ¬ A ∧ cmd.commandType = .create ∧ Spec.refsAt fold t.db.refs u = Spec.refsAt fold s.db.refs u) := by
  obtain ⟨_, g2, g3⟩ := stage_run (A := A) (i := s.tasks.length) hQ h1 (by simp) (by
      intro j as hj hjs
      rcases Nat.lt_or_ge j s.tasks.length with hlt | hge
      · simp only [List.getElem?_append_left hlt] at hjs
        exact ha as (List.mem_of_getElem? hjs)
      · have hlt : j < (s.tasks ++ [some (pushActs pool fuel p u cmd)]).length := by
          rcases Nat.lt_or_ge j (s.tasks ++ [some (pushActs pool fuel p u cmd)]).length with h | h
          · exact h
          · simp only [List.getElem?_eq_none h] at hjs; cases hjs
        rw [List.length_append, List.length_singleton] at hlt
        omega) (by
      intro k hk
      simp only [List.getElem?_concat_length, Option.some.injEq] at hk
      rw [← hk]
      exact stage_push pool fuel p cmd) hs
  refine ⟨fun as hm a h => ?_, ?_⟩
  · obtain ⟨j, hj⟩ := List.mem_iff_getElem?.1 hm
    by_cases e : j = s.tasks.length
    · rw [e, hd] at hj
      cases hj
      cases h
    · exact g2 j as e hj a h
  · have := g3 _ hd
    generalize hk : some ([] : List Act) = k at this
    cases this with
    | before xs _ _ _ =>
      have hk := Option.some.inj hk
      have := List.append_eq_nil_iff.1 hk.symm
      unfold refActs at this
      split at this <;> cases this.2
    | failing _ => cases hk
    | found _ _ _ _ _ _ _ _ => cases hk
    | done _ h => exact h
    | dead _ => cases hk

/-- **C105 (partial)** From a moment when no request is being worked on: some requests to other repositories are made, then a push to the repository `u` that creates or moves a
branch arrives (state `s0`), and more requests to other repositories. However all these overlap, once the push is finished a client that asks for the refs of `u` (HEAD is looked
up at some moment, the refs at a later one) is shown the refs there were before, with the branch of the push created, or moved, and no other change. The repository has a branch
master then, its refs have different ids (C52), the database does not refuse refs, and at most one ref was at the old id (C53). -/
theorem C105_overlapping_push_partial (X : Ext) (fold : Bytes → Bytes) (W : Pack → RefCommand → Prop) {u : Bytes} (hb : (0x5c : UInt8) ∉ u) (s s0 s1 s2 s3 : Sys)
    (h0 : Spec.NobodyWorking s) (hr0 : SysRun X (fun E => E.fold = fold ∧ ∀ n b, E.acceptRefs n b = true) (Spec.OtherPath fold u) W s s0)
    (E : SqlExt) (fuel : Nat) (p : Pack) (cmd : RefCommand)
    (hr1 : SysRun X (fun E => E.fold = fold ∧ ∀ n b, E.acceptRefs n b = true) (Spec.OtherPath fold u) W
      { s0 with tasks := s0.tasks ++ [some (pushActs E.pool fuel p u cmd)], pushed := (s0.tasks.length, u, p) :: s0.pushed } s1)
    (hd : s1.tasks[s0.tasks.length]? = some (some []))
    (hr2 : SysRun X (fun E => E.fold = fold ∧ ∀ n b, E.acceptRefs n b = true) (Spec.OtherPath fold u) W s1 s2)
    (hr3 : SysRun X (fun E => E.fold = fold ∧ ∀ n b, E.acceptRefs n b = true) (Spec.OtherPath fold u) W s2 s3)
    (hone : ((Spec.refsAt fold s.db.refs u).filter (fun r => fold r.refGitId == fold cmd.oldId)).length ≤ 1)
    (hm : ∃ r ∈ Spec.afterCommand fold u cmd (Spec.refsAt fold s.db.refs u), r.repoPath = u ∧ Spec.isMaster fold r)
    (hid : ((Spec.afterCommand fold u cmd (Spec.refsAt fold s.db.refs u)).map RefRow.refGitId).Nodup)
    (ht : ∀ r ∈ Spec.afterCommand fold u cmd (Spec.refsAt fold s.db.refs u), Spec.RefText r)
    (E1 E2 : SqlExt) (hE1 : E1.fold = fold) (hE2 : E2.fold = fold) (t : ServiceType) :
    ∃ out head refs, refsAnswer X E1 E2 t s2.db s3.db u = .ok out ∧ Spec.Shows t out head refs ∧
      (∃ r ∈ Spec.afterCommand fold u cmd (Spec.refsAt fold s.db.refs u), r.repoPath = u ∧ Spec.isMaster fold r ∧ r.refGitId = head) ∧
      refs.Perm ((Spec.afterCommand fold u cmd (Spec.refsAt fold s.db.refs u)).map (fun r => (r.refGitId, r.refName))) := by
  obtain ⟨a0, e0⟩ := away_run (fun _ h => h.1) (idle_away h0) hr0
  obtain ⟨a1, e1⟩ := push_refs (A := True) a0 E.pool fuel p cmd _ (fun _ h => ⟨h.1, fun _ => h.2⟩) (by rw [e0]; exact hone) hr1 hd
  have e1 := e1.resolve_right fun h => h.1 trivial
  obtain ⟨a2, e2⟩ := away_run (fun _ h => h.1) a1 hr2
  obtain ⟨_, e3⟩ := away_run (fun _ h => h.1) a2 hr3
  rw [e0] at e1
  obtain ⟨_, out, r, refs, c1, c2, c3, c4, c5, c6⟩ := shown_twice (X := X) hb hE1 hE2 t (e2.trans e1) (e3.trans (e2.trans e1)) hm hid ht
  exact ⟨out, _, refs, c1, c2, ⟨r, c3, c4, c5, rfl⟩, c6⟩

/-- **C105 (partial)** The same if the database may refuse refs, which the server does not notice: once the push is finished, clients are shown the refs there were before, with the branch of the push
moved; or, if the push creates a branch, with the new branch, or without. Nothing else is ever changed. -/
theorem C105_refused_partial (X : Ext) (fold : Bytes → Bytes) (W : Pack → RefCommand → Prop) {u : Bytes} (hb : (0x5c : UInt8) ∉ u) (s s0 s1 s2 s3 : Sys)
    (h0 : Spec.NobodyWorking s) (hr0 : SysRun X (fun E => E.fold = fold) (Spec.OtherPath fold u) W s s0)
    (E : SqlExt) (fuel : Nat) (p : Pack) (cmd : RefCommand)
    (hr1 : SysRun X (fun E => E.fold = fold) (Spec.OtherPath fold u) W
      { s0 with tasks := s0.tasks ++ [some (pushActs E.pool fuel p u cmd)], pushed := (s0.tasks.length, u, p) :: s0.pushed } s1)
    (hd : s1.tasks[s0.tasks.length]? = some (some []))
    (hr2 : SysRun X (fun E => E.fold = fold) (Spec.OtherPath fold u) W s1 s2) (hr3 : SysRun X (fun E => E.fold = fold) (Spec.OtherPath fold u) W s2 s3)
    (hone : ((Spec.refsAt fold s.db.refs u).filter (fun r => fold r.refGitId == fold cmd.oldId)).length ≤ 1) :
    ∃ l, (l = Spec.afterCommand fold u cmd (Spec.refsAt fold s.db.refs u) ∨ cmd.commandType = .create ∧ l = Spec.refsAt fold s.db.refs u) ∧
      ((∃ r ∈ l, r.repoPath = u ∧ Spec.isMaster fold r) → (l.map RefRow.refGitId).Nodup → (∀ r ∈ l, Spec.RefText r) →
        ∀ (E1 E2 : SqlExt) (t : ServiceType), E1.fold = fold → E2.fold = fold →
          ∃ out head refs, refsAnswer X E1 E2 t s2.db s3.db u = .ok out ∧ Spec.Shows t out head refs ∧
            (∃ r ∈ l, r.repoPath = u ∧ Spec.isMaster fold r ∧ r.refGitId = head) ∧ refs.Perm (l.map (fun r => (r.refGitId, r.refName)))) := by
  obtain ⟨a0, e0⟩ := away_run (fun _ h => h) (idle_away h0) hr0
  obtain ⟨a1, e1⟩ := push_refs (A := False) a0 E.pool fuel p cmd _ (fun _ h => ⟨h, fun h => h.elim⟩) (by rw [e0]; exact hone) hr1 hd
  obtain ⟨a2, e2⟩ := away_run (fun _ h => h) a1 hr2
  obtain ⟨_, e3⟩ := away_run (fun _ h => h) a2 hr3
  rw [e0] at e1
  have key : ∃ l, (l = Spec.afterCommand fold u cmd (Spec.refsAt fold s.db.refs u) ∨ cmd.commandType = .create ∧ l = Spec.refsAt fold s.db.refs u) ∧ Spec.refsAt fold s1.db.refs u = l := by
    rcases e1 with e1 | ⟨_, h1, h2⟩
    · exact ⟨_, .inl rfl, e1⟩
    · exact ⟨_, .inr ⟨h1, rfl⟩, h2⟩
  obtain ⟨l, hl, e1⟩ := key
  refine ⟨l, hl, fun hm hid ht E1 E2 t hE1 hE2 => ?_⟩
  obtain ⟨_, out, r, refs, c1, c2, c3, c4, c5, c6⟩ := shown_twice (X := X) hb hE1 hE2 t (e2.trans e1) (e3.trans (e2.trans e1)) hm hid ht
  exact ⟨out, _, refs, c1, c2, ⟨r, c3, c4, c5, rfl⟩, c6⟩

/-! ## Examples -/

/-- The row of the branch that is pushed to `/app`. -/
def appRow : RefRow := { repoPath := ascii "/app", refName := ascii "refs/heads/master", refGitId := appCmd.new }

theorem appRow_text : Spec.RefText appRow := ⟨by decide +kernel, by decide +kernel, by decide +kernel, by decide +kernel⟩

theorem appRow_master : Spec.isMaster demoFold appRow := rfl

/-- The behaviour of the database of the examples for refs. -/
theorem demoSql_refs : demoSql.fold = demoFold ∧ ∀ n b, demoSql.acceptRefs n b = true := ⟨rfl, fun _ _ => rfl⟩

/-- C104: from a state in which `/app` has its branch and nothing is going on (`a`), a push to `/other` begins and is in the middle of its work (`b`): a client whose question
for HEAD of `/app` comes before and whose question for the refs comes then, is shown the one branch. -/
example : ∃ (a b : Sys) (out : Bytes) (head : Bytes) (refs : List (Bytes × Bytes)), a.db.refs = [appRow] ∧ Spec.NobodyWorking a ∧
    b.tasks = [some [], some (refActs appCreate (ascii "/other"))] ∧
    refsAnswer polyExt demoSql demoSqlRev .uploadPack a.db b.db (ascii "/app") = .ok out ∧ Spec.Shows .uploadPack out head refs ∧
    head = appCmd.new ∧ refs = [(appCmd.new, ascii "refs/heads/master")] := by
  obtain ⟨p, a, b0, h1, _, hobj, ha1, ha2, hrefs, _, _, _, objs, St, fuel0, file, hdec, hown, hsave⟩ := app_two
  obtain ⟨db3, s3⟩ := hsave demoSql (fun _ _ => rfl) (ascii "/other") a.db
  have p2 := SysStep.push (X := polyExt) (Q := fun E => E.fold = demoFold) (R := Spec.OtherPath demoFold (ascii "/app")) (W := fun _ _ => True) a _ _ _ p demoSql 2
    (ascii "/other") appCreate hdec (by decide) trivial
  have t2 := solo_save polyExt demoSql 2 p (ascii "/other") appCreate a.db
  rw [s3] at t2
  have u2 := t2.run (Q := fun E => E.fold = demoFold) (R := Spec.OtherPath demoFold (ascii "/app")) (W := fun _ _ => True) rfl
    (a.tasks ++ [some (pushActs demoSql.pool 2 p (ascii "/other") appCreate)]) ((a.tasks.length, ascii "/other", p) :: a.pushed) 1 (by rw [ha2]; rfl)
  have run := SysRun.trans (.step _ _ _ (.refl a) p2) u2
  have hrefs : a.db.refs = [appRow] := hrefs
  have idle : Spec.NobodyWorking a := by
    intro as h
    rw [ha2] at h
    cases List.mem_singleton.1 h
    rfl
  have eat : Spec.refsAt demoFold a.db.refs (ascii "/app") = [appRow] := by rw [hrefs]; rfl
  obtain ⟨_, out, head, refs, c1, c2, ⟨r, c3, _, _, c4⟩, c5⟩ := C104_overlapping_partial polyExt demoFold (fun _ _ => True) (u := ascii "/app") (by decide) a a _ idle
    ⟨appRow, by rw [hrefs]; exact .head _, rfl, appRow_master⟩ (by rw [eat]; simp) (by rw [eat]; intro r hr; rw [List.mem_singleton.1 hr]; exact appRow_text)
    (.refl _) run demoSql demoSqlRev rfl rfl .uploadPack
  refine ⟨a, _, out, head, refs, hrefs, idle, ?_, c1, c2, ?_, ?_⟩
  · rw [ha2]; rfl
  · rw [hrefs] at c3
    rw [← c4, List.mem_singleton.1 c3]
    rfl
  · rw [eat] at c5
    exact List.perm_singleton.1 c5

/-- C105: on a server without any refs the example repository is pushed to `/app` while another push of it, to `/other`, is in the middle of its work; once the first has finished,
a client is shown the branch. -/
example : ∃ (s0 s1 : Sys) (out : Bytes) (head : Bytes) (refs : List (Bytes × Bytes)), s0.tasks = [some (refActs appCreate (ascii "/other"))] ∧ s0.db.refs = [] ∧
    s1.tasks = [some (refActs appCreate (ascii "/other")), some []] ∧
    refsAnswer polyExt demoSql demoSqlRev .uploadPack s1.db s1.db (ascii "/app") = .ok out ∧ Spec.Shows .uploadPack out head refs ∧
    head = appCmd.new ∧ refs = [(appCmd.new, ascii "refs/heads/master")] := by
  obtain ⟨file, p, hdec, hown, hobj, hsave⟩ := app_task
  obtain ⟨db1, k1⟩ := hsave demoSql (fun _ _ => rfl) (ascii "/other") Sys.empty.db
  obtain ⟨db2, k2⟩ := hsave demoSql (fun _ _ => rfl) (ascii "/app") db1
  have r1 : db1.refs = [] := by
    obtain ⟨db', e1, e2⟩ := savePackfile_any (fun _ _ => rfl) k1 Sys.empty.db
    rw [k1] at e1
    rw [(Prod.mk.inj e1).2, e2]
    rfl
  have p1 := SysStep.push (X := polyExt) (Q := fun E => E.fold = demoFold ∧ ∀ n b, E.acceptRefs n b = true) (R := Spec.OtherPath demoFold (ascii "/app"))
    (W := fun _ _ => True) Sys.empty _ _ _ p demoSql 2 (ascii "/other") appCreate hdec (by decide) trivial
  have t1 := solo_save polyExt demoSql 2 p (ascii "/other") appCreate Sys.empty.db
  rw [k1] at t1
  have u1 := t1.run (Q := fun E => E.fold = demoFold ∧ ∀ n b, E.acceptRefs n b = true) (R := Spec.OtherPath demoFold (ascii "/app")) (W := fun _ _ => True) demoSql_refs
    [some (pushActs demoSql.pool 2 p (ascii "/other") appCreate)] [(0, ascii "/other", p)] 0 rfl
  have run0 := SysRun.trans (.step _ _ _ (.refl Sys.empty) p1) u1
  have t2 := solo_push polyExt demoSql 2 p (ascii "/app") appCreate db1
  rw [k2] at t2
  have u2 := t2.run (Q := fun E => E.fold = demoFold ∧ ∀ n b, E.acceptRefs n b = true) (R := Spec.OtherPath demoFold (ascii "/app")) (W := fun _ _ => True) demoSql_refs
    [some (refActs appCreate (ascii "/other")), some (pushActs demoSql.pool 2 p (ascii "/app") appCreate)] [(1, ascii "/app", p), (0, ascii "/other", p)] 1 rfl
  have eat : Spec.afterCommand demoFold (ascii "/app") appCreate (Spec.refsAt demoFold Sys.empty.db.refs (ascii "/app")) = [appRow] := rfl
  obtain ⟨out, head, refs, c1, c2, ⟨r, c3, _, _, c4⟩, c5⟩ := C105_overlapping_push_partial polyExt demoFold (fun _ _ => True) (u := ascii "/app") (by decide)
    Sys.empty _ _ _ _ (by intro as h; cases h) run0 demoSql 2 p appCreate u2 rfl (.refl _) (.refl _) (by decide)
    ⟨appRow, by rw [eat]; exact .head _, rfl, appRow_master⟩ (by rw [eat]; simp) (by rw [eat]; intro r hr; rw [List.mem_singleton.1 hr]; exact appRow_text)
    demoSql demoSqlRev rfl rfl .uploadPack
  refine ⟨⟨db1, [some (refActs appCreate (ascii "/other"))], []⟩, ⟨_, [some (refActs appCreate (ascii "/other")), some []], []⟩, out, head, refs, rfl, r1, rfl, c1, c2, ?_, ?_⟩
  · rw [eat] at c3
    rw [← c4, List.mem_singleton.1 c3]
    rfl
  · rw [eat] at c5
    exact List.perm_singleton.1 c5

/-- The database of the examples, when it refuses refs. -/
def refusingSql : SqlExt := { demoSql with acceptRefs := fun _ _ => false }

/-- C105: the example repository is pushed to `/app` and the database refuses the row of the branch. The push is finished, and `/app` has no branch: of the two cases of `C105_refused_partial` it is the second. -/
example : ∃ (p : Pack) (s1 : Sys) (l : List RefRow),
    SysRun polyExt (fun E => E.fold = demoFold) (Spec.OtherPath demoFold (ascii "/app")) (fun _ _ => True)
      { Sys.empty with tasks := [some (pushActs refusingSql.pool 2 p (ascii "/app") appCreate)], pushed := [(0, ascii "/app", p)] } s1 ∧ s1.tasks = [some []] ∧ Spec.refsAt demoFold s1.db.refs (ascii "/app") = [] ∧
    (l = Spec.afterCommand demoFold (ascii "/app") appCreate [] ∨ appCreate.commandType = .create ∧ l = []) := by
  obtain ⟨file, p, hdec, hown, hobj, hsave⟩ := app_task
  obtain ⟨db1, k1⟩ := hsave refusingSql (fun _ _ => rfl) (ascii "/app") Sys.empty.db
  have r1 : db1.refs = [] := by
    obtain ⟨db', e1, e2⟩ := savePackfile_any (fun _ _ => rfl) k1 Sys.empty.db
    rw [k1] at e1
    rw [(Prod.mk.inj e1).2, e2]
    rfl
  have t2 := solo_push polyExt refusingSql 2 p (ascii "/app") appCreate Sys.empty.db
  rw [k1] at t2
  have u2 := t2.run (Q := fun E => E.fold = demoFold) (R := Spec.OtherPath demoFold (ascii "/app")) (W := fun _ _ => True) rfl
    [some (pushActs refusingSql.pool 2 p (ascii "/app") appCreate)] [(0, ascii "/app", p)] 0 rfl
  obtain ⟨l, hl, _⟩ := C105_refused_partial polyExt demoFold (fun _ _ => True) (u := ascii "/app") (by decide) Sys.empty _ _ _ _ (by intro as h; cases h) (.refl _) refusingSql 2 p appCreate u2
    rfl (.refl _) (.refl _) (by decide)
  refine ⟨p, _, l, u2, rfl, ?_, hl⟩
  show Spec.refsAt demoFold (handleRefs refusingSql appCreate (ascii "/app") db1).2.refs (ascii "/app") = []
  rw [show (handleRefs refusingSql appCreate (ascii "/app") db1).2.refs = db1.refs from rfl, r1]
  rfl

end Gust

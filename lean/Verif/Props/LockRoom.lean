import Verif.Props.JsonServed
import Verif.Props.PagesServed
import Verif.Props.Schema
import Verif.Props.SchemaLfsExamples
import Verif.Base.Tactics

/-! # C121 for whole histories of requests: how many files can be locked

With the tables of the dump, and with the ids and times that a real server gives to locks. -/

namespace Gust

theorem run_rowsFit (D : DbExt) (t : LockTable) (q : LockReq) (h : RowsFit D t) : RowsFit D (q.run D t) := by
  cases q with
  | list q => exact h
  | verify r c n => exact h
  | create r p i n =>
    show RowsFit D (createLock D t r p i n).2
    rcases createLock_cases D t r p i n with ⟨-, e⟩ | ⟨-, -, e⟩ | ⟨-, t', ha, e⟩
    · rw [e]; exact h
    · rw [e]; exact h
    · rw [e]; exact rowsFit_add h ha
  | delete r i f =>
    show RowsFit D (deleteLock D t r i f).2
    rcases deleteLock_cases D t r i f with ⟨c, e⟩ | ⟨l, t', hd, e⟩
    · rw [e]; exact h
    · rw [e]; exact rowsFit_delete h hd

theorem served_room (P : ServerExt) (hD : Spec.DumpLimits P.D) (h : BothHist) (ref : Bytes) (ls : List Lock)
    (hl : Spec.Shown P (runBoth P .empty h) ref ls) : chars (jsonLocks ls) ≤ 10000 := by
  obtain ⟨q, e, -⟩ := served_locks P h
  rw [shown_iff, listed_iff, e] at hl
  have hfit : RowsFit P.D (runLocks P.D q) := by
    suffices ∀ (q : List LockReq) (t : LockTable), RowsFit P.D t → RowsFit P.D (q.foldl (LockReq.run P.D) t) from
      this q noLocks (fun k l e => by cases e)
    intro q
    induction q with
    | nil => exact fun t ht => ht
    | cons x q ih => exact fun t ht => ih _ (run_rowsFit P.D t x ht)
  subst hl
  cases e' : runLocks P.D q (P.D.fold ref) with
  | none => decide
  | some l =>
    obtain ⟨r', h'⟩ := hfit _ _ e'
    exact hD.locks r' l h'

theorem rfc3339_length {t : ClockTime} (h : Spec.OnClock t) : 25 ≤ (rfc3339 t).length ∧ (rfc3339 t).length ≤ 35 := by
  unfold rfc3339 yearText utcOffset
  rw [if_pos h.1]
  simp only [List.length_append, digitsN_length]
  have h1 : (ascii "-").length = 1 := by decide
  have h2 : (ascii "T").length = 1 := by decide
  have h3 : (ascii ":").length = 1 := by decide
  have h4 : (ascii "+00:00").length = 6 := by decide
  have h5 : (fracText t.nano).length ≤ 10 := by
    unfold fracText
    have : (ascii ".").length = 1 := by decide
    split
    · simp
    · split
      · simp [digitsN_length, this]
      · split <;> simp [digitsN_length, this]
  omega

/-- Ids and times of the locks that a real server shows. -/
theorem served_sizes (P : ServerExt) (h : BothHist) (hreal : ∀ p ∈ h, Spec.RealMoment p.1) (ref : Bytes) (ls : List Lock)
    (hl : Spec.Shown P (runBoth P .empty h) ref ls) :
    ∀ l ∈ ls, ∃ p ∈ h, l.id = p.1.lockId ∧ l.lockedAt = p.1.now := by
  rw [shown_iff, listed_iff] at hl
  subst hl
  exact fun l hm => served_times P h ref l hm

theorem real_chars {m : Moment} (h : Spec.RealMoment m) : chars m.lockId = 8 ∧ 25 ≤ chars m.now ∧ chars m.now ≤ 35 := by
  have h1 := real_id h
  have h2 : chars m.lockId = 8 := by
    rw [chars_ascii (fun c hc => by have := (h1.2 c hc).2; omega)]
    exact h1.1
  obtain ⟨-, t, ht, e⟩ := h
  rw [e, chars_ascii (rfc3339_ascii t)]
  exact ⟨h2, rfc3339_length ht⟩

/-- **C121 is false**: with the tables of the dump, after every history of the two servers, never more than 123 files of a ref are locked; when every locked
file has a path of at least `b` characters, there are fewer than 10000 / (81 + `b`). -/
theorem C121_served_false (P : ServerExt) (hD : Spec.DumpLimits P.D) (h : BothHist) (hreal : ∀ p ∈ h, Spec.RealMoment p.1) (ref : Bytes)
    (ls : List Lock) (hl : Spec.Shown P (runBoth P .empty h) ref ls) :
    ls.length ≤ 123 ∧ ∀ b, (∀ l ∈ ls, b ≤ chars l.path) → ls.length * (81 + b) < 10000 := by
  have h1 := served_room P hD h ref ls hl
  rw [jsonLocks_chars] at h1
  have hs := served_sizes P h hreal ref ls hl
  have key : ∀ b, (∀ l ∈ ls, b ≤ chars l.path) → ls.length * (81 + b) < 10000 := by
    intro b hb
    have := sum_bound (fun l => chars (jsonLock l) + 1) (81 + b) ls (fun l hm => by
      obtain ⟨p, hp, e1, e2⟩ := hs l hm
      have h2 := jsonLock_chars l
      have h3 := hb l hm
      have h4 := real_chars (hreal p hp)
      rw [← e1, ← e2] at h4
      omega)
    omega
  refine ⟨?_, key⟩
  have := key 0 (fun l _ => Nat.zero_le _)
  omega

/-- **C121 is false**: when the JSON text of the locks of the ref, with the new one, has more than 10000 characters, a request to lock a file
that nobody has locked is answered with status 500, and nothing changes. -/
theorem C121_refused_false (P : ServerExt) (hD : Spec.DumpLimits P.D) (h : BothHist) (m : Moment) (r : HttpReq) (ref path : Bytes)
    (hr : Spec.AsksLock P r ref path) (hp : path ≠ []) (ls : List Lock) (hl : Spec.Shown P (runBoth P .empty h) ref ls) (hfree : ∀ l ∈ ls, l.path ≠ path)
    (hfull : 10000 < chars (jsonLocks ({ id := m.lockId, path := path, lockedAt := m.now, owner := none } :: ls))) :
    (serve P m (runBoth P .empty h).web r).1 = .reply (.status 500) ∧ runBoth P .empty (h ++ [(m, .http r)]) = runBoth P .empty h := by
  have hs := serve_lock P m (runBoth P .empty h).web r ref path hr
  rw [C121_full_false P.D hD _ ref path m.lockId m.now ls ((shown_iff P _ ref ls).1 hl) hp hfree hfull] at hs
  refine ⟨by rw [hs]; rfl, ?_⟩
  rw [runBoth_concat]
  simp only [bothStep, hs]

/-- A path that JSON needs no escapes for. -/
def Spec.PlainText (p : Bytes) : Prop := ∀ c ∈ p, 32 ≤ c.toNat ∧ c ≠ 0x22 ∧ c ≠ 0x5c

theorem jsonText_plain {p : Bytes} (h : Spec.PlainText p) : chars (jsonText p) = chars p + 2 := by
  have e : p.flatMap jsonByte = p := by
    induction p with
    | nil => rfl
    | cons b p ih =>
      rw [List.flatMap_cons, ih (fun c hc => h c (List.mem_cons_of_mem _ hc))]
      have hb := h b List.mem_cons_self
      have hn : ∀ n : UInt8, n.toNat < 32 → b ≠ n := fun n hn e => by rw [e] at hb; omega
      unfold jsonByte
      rw [if_neg hb.2.1, if_neg hb.2.2, if_neg (hn _ (by decide)), if_neg (hn _ (by decide)), if_neg (hn _ (by decide)), if_neg (hn _ (by decide)),
        if_neg (hn _ (by decide)), if_neg (by omega)]
      rfl
  unfold jsonText
  rw [e, chars_append, chars_append, show chars (ascii "\"") = 1 by decide]
  omega

theorem jsonLock_plain {l : Lock} (h1 : Spec.PlainText l.id) (h2 : Spec.PlainText l.path) (h3 : Spec.PlainText l.lockedAt) (ho : l.owner = none) :
    chars (jsonLock l) = 47 + chars l.id + chars l.path + chars l.lockedAt := by
  unfold jsonLock
  rw [ho]
  simp only [chars_append, jsonText_plain h1, jsonText_plain h2, jsonText_plain h3]
  have e1 : chars (ascii "{\"id\":") = 6 := by decide
  have e2 : chars (ascii ",\"path\":") = 8 := by decide
  have e3 : chars (ascii ",\"locked_at\":") = 13 := by decide
  have e4 : chars (ascii ",\"owner\":") = 9 := by decide
  have e5 : chars (ascii "}") = 1 := by decide
  have e6 : chars (ascii "null") = 4 := by decide
  omega

theorem digitsN_plain : ∀ w n, Spec.PlainText (digitsN w n)
  | 0, _ => fun _ h => nomatch h
  | w + 1, n => by
    intro c hc
    rw [digitsN] at hc
    rcases List.mem_append.1 hc with hc | hc
    · exact digitsN_plain w _ c hc
    · rw [List.mem_singleton.1 hc]
      have : ∀ d < 10, 32 ≤ (digitChar d).toNat ∧ digitChar d ≠ 0x22 ∧ digitChar d ≠ 0x5c := by decide
      exact this _ (Nat.mod_lt _ (by decide))

theorem plain_append {a b : Bytes} (ha : Spec.PlainText a) (hb : Spec.PlainText b) : Spec.PlainText (a ++ b) :=
  fun c hc => (List.mem_append.1 hc).elim (ha c) (hb c)

theorem real_plain {m : Moment} (h : Spec.RealMoment m) : Spec.PlainText m.lockId ∧ Spec.PlainText m.now := by
  refine ⟨fun c hc => ?_, ?_⟩
  · have := (real_id h).2 c hc
    refine ⟨by omega, ?_, ?_⟩ <;> rintro rfl <;> revert this <;> decide
  · obtain ⟨-, t, ht, e⟩ := h
    rw [e]
    have h1 : Spec.PlainText (ascii "-") := by unfold Spec.PlainText; decide
    have h2 : Spec.PlainText (ascii "T") := by unfold Spec.PlainText; decide
    have h3 : Spec.PlainText (ascii ":") := by unfold Spec.PlainText; decide
    have h4 : Spec.PlainText utcOffset := by unfold Spec.PlainText; decide
    have h5 : Spec.PlainText (ascii ".") := by unfold Spec.PlainText; decide
    have h6 : Spec.PlainText (fracText t.nano) := by
      unfold fracText
      split
      · exact fun _ h => nomatch h
      · split
        · exact plain_append h5 (digitsN_plain _ _)
        · split <;> exact plain_append h5 (digitsN_plain _ _)
    have h7 : Spec.PlainText (yearText t.year) := by
      unfold yearText
      rw [if_pos ht.1]
      exact digitsN_plain _ _
    unfold rfc3339
    repeat' first | assumption | exact digitsN_plain _ _ | apply plain_append

theorem sum_bound_above {α : Type} (f g : α → Nat) : ∀ l : List α, (∀ x ∈ l, f x ≤ g x) → (l.map f).sum ≤ (l.map g).sum
  | [], _ => by simp
  | x :: l, h => by
    have h1 := sum_bound_above f g l (fun y hy => h y (List.mem_cons_of_mem _ hy))
    have h2 := h x List.mem_cons_self
    rw [List.map_cons, List.sum_cons, List.map_cons, List.sum_cons]
    omega

/-- **C121** With the tables of the dump and a database that does not fail otherwise, after every history of the two servers: a request to lock a file that
nobody has locked is answered with the lock, and from then on it is shown with the others, as long as the paths of all locked files (without
quotation marks, backslashes and control characters), each counted with 91 more characters, have together less than 10000 characters.
(Missing: more or longer paths, `C121_served_false`, `C121_refused_false`; refs with names of more than 200 characters; requests that overlap in time.) -/
theorem C121_served_partial (P : ServerExt) (hD : Spec.DumpLimitsOnly P.D) (h : BothHist) (hreal : ∀ p ∈ h, Spec.RealMoment p.1) (m : Moment)
    (hm : Spec.RealMoment m) (r : HttpReq) (ref path : Bytes) (hr : Spec.AsksLock P r ref path) (href : chars ref ≤ 200) (hp : path ≠ []) (ls : List Lock)
    (hl : Spec.Shown P (runBoth P .empty h) ref ls) (hfree : ∀ l ∈ ls, l.path ≠ path) (hplain : ∀ p ∈ path :: ls.map (·.path), Spec.PlainText p)
    (hroom : ((path :: ls.map (·.path)).map (fun p => chars p + 91)).sum < 10000) :
    ∃ l ls', (serve P m (runBoth P .empty h).web r).1 = .reply (.ok (.lock l)) ∧ l.path = path ∧ l.id = m.lockId ∧ l.lockedAt = m.now ∧
      Spec.Shown P (runBoth P .empty (h ++ [(m, .http r)])) ref ls' ∧ ls'.Perm (l :: ls) := by
  have hone : ∀ l : Lock, l.owner = none → Spec.PlainText l.path → (∃ m, Spec.RealMoment m ∧ l.id = m.lockId ∧ l.lockedAt = m.now) →
      chars (jsonLock l) + 1 ≤ chars l.path + 91 := by
    rintro l ho hpl ⟨m', hm', e1, e2⟩
    have hpl' := real_plain hm'
    have hch := real_chars hm'
    rw [← e1, ← e2] at hpl' hch
    rw [jsonLock_plain hpl'.1 hpl hpl'.2 ho]
    omega
  have hown : ∀ l ∈ ls, l.owner = none := by
    have hl' := hl
    rw [shown_iff, listed_iff] at hl'
    exact fun l hm => served_noOwner P h ref l (hl' ▸ hm)
  have hs := served_sizes P h hreal ref ls hl
  have hfit : chars (jsonLocks ({ id := m.lockId, path := path, lockedAt := m.now, owner := none } :: ls)) ≤ 10000 := by
    rw [jsonLocks_chars, if_neg (by simp)]
    have := sum_bound_above (fun l => chars (jsonLock l) + 1) (fun l : Lock => chars l.path + 91)
      ({ id := m.lockId, path := path, lockedAt := m.now, owner := none } :: ls) (by
        intro l hx
        rcases List.mem_cons.1 hx with rfl | hx
        · exact hone _ rfl (hplain path List.mem_cons_self) ⟨m, hm, rfl, rfl⟩
        · obtain ⟨p, hp, e1, e2⟩ := hs l hx
          exact hone l (hown l hx) (hplain _ (List.mem_cons_of_mem _ (List.mem_map_of_mem hx))) ⟨p.1, hreal p hp, e1, e2⟩)
    have e : (({ id := m.lockId, path := path, lockedAt := m.now, owner := none } :: ls : List Lock).map (fun l : Lock => chars l.path + 91)) =
        (path :: ls.map (·.path)).map (fun p => chars p + 91) := by simp
    rw [e] at this
    omega
  obtain ⟨t', ls', h1, h2, h3⟩ := C121_create_partial P.D hD _ ref path m.lockId m.now href ls ((shown_iff P _ ref ls).1 hl) hp hfree hfit
  have hsv := serve_lock P m (runBoth P .empty h).web r ref path hr
  rw [h1] at hsv
  refine ⟨_, ls', by rw [hsv]; rfl, rfl, rfl, rfl, ?_, h3⟩
  rw [shown_iff, runBoth_concat]
  simp only [bothStep, hsv]
  exact h2

/-- **C121** With the tables of the dump and a database that does not fail otherwise, after every history of the two servers, however full the ref is: every lock that is
shown can be removed by a request to the URL made of its id, and is then not shown any more. (Refs with names of at most 200 characters; whoever asks, see C66.) -/
theorem C121_removed_partial (P : ServerExt) (hD : Spec.DumpLimitsOnly P.D) (h : BothHist) (hreal : ∀ p ∈ h, Spec.RealMoment p.1) (ref : Bytes)
    (href : chars ref ≤ 200) (ls : List Lock) (hl : Spec.Shown P (runBoth P .empty h) ref ls) (l : Lock) (hx : l ∈ ls) (m : Moment) (pre body : Bytes)
    (hb : body ≠ []) (hj : P.J.unlock body = some (ref, none)) :
    (∃ l', (serve P m (runBoth P .empty h).web { method := .post, path := pre ++ ascii "/locks/" ++ l.id ++ ascii "/unlock", body := body }).1 =
        .reply (.ok (.lock l')) ∧ l'.id = l.id) ∧
    ∃ ls', Spec.Shown P (runBoth P .empty (h ++ [(m, .http { method := .post, path := pre ++ ascii "/locks/" ++ l.id ++ ascii "/unlock", body := body })])) ref ls' ∧
      l ∉ ls' := by
  obtain ⟨p, hp, e1, -⟩ := served_sizes P h hreal ref ls hl l hx
  refine C66_unlock_false P h m _ ref l.id ⟨C42_url P h hreal ref ls hl l hx pre none, hb, hj⟩ ls hl l hx rfl ?_ (fun x hsub _ => ?_)
  · rw [e1]
    intro e
    have := (real_id (hreal p hp)).1
    rw [e] at this
    cases this
  · exact hD.locks_ok ref x href (Nat.le_trans (jsonLocks_sublist hsub) (served_room P hD.toDumpLimits h ref ls hl))

/-! ## A concrete run -/

/-- The demo server with the tables of the dump. -/
def dumpServer : ServerExt := { demoServer with D := dumpDb }

theorem lockReq_dump (p : Bytes) (hp : p ≠ []) : Spec.AsksLock dumpServer (lockReq p) (ascii "refs/heads/main") p :=
  ⟨show route .post (ascii "/org/locks") none = .createLock by decide +kernel, if_neg hp⟩

/-- Two files with paths of 4000 characters are locked. -/
def longLocked : BothHist := [(realFirst, .http (lockReq (longFile 0x61 4000))), (realSecond, .http (lockReq (longFile 0x62 4000)))]

def longShown : List Lock :=
  [{ bLock with path := longFile 0x61 4000 }, { bigLock with path := longFile 0x62 4000 }]

theorem longLocked_real : ∀ p ∈ longLocked, Spec.RealMoment p.1 := by
  intro p hp
  rcases List.mem_cons.1 hp with rfl | hp
  · exact realFirst_real
  · rw [List.mem_singleton.1 hp]; exact realSecond_real

theorem realThird_real : Spec.RealMoment realThird :=
  ⟨⟨_, ⟨rfl, by decide⟩, rfl⟩, _, by unfold Spec.OnClock; decide, rfl⟩

theorem longLocked_shown : Spec.Shown dumpServer (runBoth dumpServer .empty longLocked) (ascii "refs/heads/main") longShown := by
  rw [shown_iff, listed_iff]; decide +kernel

/-- A third path of that length cannot be locked, a shorter one can, and the first file can be unlocked. -/
example : longShown.length * (81 + 4000) < 10000 ∧
    (serve dumpServer realThird (runBoth dumpServer .empty longLocked).web (lockReq (longFile 0x63 4000))).1 = .reply (.status 500) ∧
    (∃ l, (serve dumpServer realThird (runBoth dumpServer .empty longLocked).web (lockReq (ascii "c.psd"))).1 = .reply (.ok (.lock l))) ∧
    ∃ ls', Spec.Shown dumpServer (runBoth dumpServer .empty (longLocked ++ [(realThird, .http
      { method := .post, path := ascii "/org" ++ ascii "/locks/" ++ ascii "04182273" ++ ascii "/unlock", body := ascii "refs/heads/main" })])) (ascii "refs/heads/main") ls' ∧
      { bLock with path := longFile 0x61 4000 } ∉ ls' := by
  refine ⟨(C121_served_false dumpServer dumpDb_limits.toDumpLimits longLocked longLocked_real _ _ longLocked_shown).2 4000 (by decide +kernel),
    (C121_refused_false dumpServer dumpDb_limits.toDumpLimits longLocked realThird _ _ _ (lockReq_dump _ (by decide +kernel)) (by decide +kernel) _ longLocked_shown
      (by decide +kernel) (by decide +kernel)).1, ?_,
    (C121_removed_partial dumpServer dumpDb_limits longLocked longLocked_real _ (by decide +kernel) _ longLocked_shown { bLock with path := longFile 0x61 4000 }
      List.mem_cons_self realThird (ascii "/org") (ascii "refs/heads/main") (by decide) (by decide +kernel)).2⟩
  obtain ⟨l, -, h, -⟩ := C121_served_partial dumpServer dumpDb_limits longLocked longLocked_real realThird realThird_real _ _ _ (lockReq_dump (ascii "c.psd") (by decide))
    (by decide +kernel) (by decide) _ longLocked_shown (by decide +kernel) (by unfold Spec.PlainText; decide +kernel) (by decide +kernel)
  exact ⟨l, h⟩

end Gust

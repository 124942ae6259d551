import Verif.Model.Clock
import Verif.Props.LocksServed

/-! # C42 and C67 with the real ids and times of locks

The server sorts locks by the *texts* of their times. C67 speaks of the times. -/

namespace Gust

/-! ## Times and their texts -/

/-- The fields of a time, the most significant first. -/
def ClockTime.fields (t : ClockTime) : List Nat := [t.year, t.month, t.day, t.hour, t.minute, t.second, t.nano]

/-- One time is before another. -/
def Spec.Before (a b : ClockTime) : Prop := a.fields < b.fields

/-- A time that a clock can show (before the year 10000). -/
def Spec.OnClock (t : ClockTime) : Prop :=
  t.year ≤ 9999 ∧ t.month ≤ 12 ∧ t.day ≤ 31 ∧ t.hour < 24 ∧ t.minute < 60 ∧ t.second < 60 ∧ t.nano < 10 ^ 9

theorem digitsN_length : ∀ w n, (digitsN w n).length = w
  | 0, _ => rfl
  | w + 1, n => by rw [digitsN, List.length_append, digitsN_length w]; rfl

theorem lt_append_left {p x y : Bytes} (h : x < y) : p ++ x < p ++ y := List.append_left_lt h

theorem lt_append {p q : Bytes} (hl : p.length = q.length) (h : p < q) (x y : Bytes) : p ++ x < q ++ y := by
  induction p generalizing q with
  | nil =>
    cases q with
    | nil => cases h
    | cons b q => cases hl
  | cons a p ih =>
    cases q with
    | nil => cases hl
    | cons b q =>
      rw [List.cons_append, List.cons_append, List.cons_lt_cons_iff]
      rcases List.cons_lt_cons_iff.1 h with h | ⟨h1, h2⟩
      · exact .inl h
      · exact .inr ⟨h1, ih (by simpa using hl) h2⟩

theorem digitChar_lt {a b : Nat} (hb : b < 10) (h : a < b) : digitChar a < digitChar b := by
  have : ∀ b < 10, ∀ a < b, digitChar a < digitChar b := by decide
  exact this b hb a h

theorem digitsN_lt : ∀ (w a b : Nat), b < 10 ^ w → a < b → digitsN w a < digitsN w b
  | 0, a, b, hb, h => by simp at hb; omega
  | w + 1, a, b, hb, h => by
    rw [digitsN, digitsN]
    by_cases hq : a / 10 = b / 10
    · rw [hq]
      refine lt_append_left (List.cons_lt_cons_iff.2 (.inl (digitChar_lt (Nat.mod_lt _ (by decide)) (by omega))))
    · exact lt_append (by rw [digitsN_length, digitsN_length]) (digitsN_lt w _ _ (by rw [Nat.pow_succ] at hb; omega) (by omega)) _ _

/-- Two numbers of fixed width followed by anything. -/
theorem field_lt (w a b : Nat) (hb : b < 10 ^ w) (h : a < b) (x y : Bytes) : digitsN w a ++ x < digitsN w b ++ y :=
  lt_append (by rw [digitsN_length, digitsN_length]) (digitsN_lt w a b hb h) x y

theorem digitsN_add (v : Nat) : ∀ w n, digitsN (v + w) n = digitsN v (n / 10 ^ w) ++ digitsN w n
  | 0, n => by simp [digitsN]
  | w + 1, n => by
    show digitsN (v + w + 1) n = _
    rw [digitsN, digitsN_add v w, digitsN, List.append_assoc, Nat.pow_succ, Nat.mul_comm, ← Nat.div_div_eq_div_mul]

theorem digitsN_mod : ∀ w n, digitsN w (n % 10 ^ w) = digitsN w n
  | 0, _ => rfl
  | w + 1, n => by
    rw [digitsN, digitsN]
    have h1 : n % 10 ^ (w + 1) / 10 = n / 10 % 10 ^ w := by
      rw [Nat.pow_succ, Nat.mul_comm, Nat.mod_mul_right_div_self]
    have h2 : n % 10 ^ (w + 1) % 10 = n % 10 := Nat.mod_mod_of_dvd _ (Dvd.intro_left (10 ^ w) rfl)
    rw [h1, h2, digitsN_mod w]

/-- What follows the seconds, in groups of three digits. -/
theorem tail_eq (n : Nat) : fracText n ++ utcOffset = if n = 0 then utcOffset else
    ascii "." ++ (digitsN 3 (n / 1000000) ++ (if n % 1000000 = 0 then utcOffset else
      digitsN 3 (n / 1000 % 1000) ++ (if n % 1000 = 0 then utcOffset else digitsN 3 (n % 1000) ++ utcOffset))) := by
  have h6 : ∀ k, digitsN 6 k = digitsN 3 (k / 1000) ++ digitsN 3 (k % 1000) := by
    intro k
    rw [show (6 : Nat) = 3 + 3 from rfl, digitsN_add 3 3, ← digitsN_mod 3 k]
    rfl
  unfold fracText
  split
  · rfl
  · split
    · simp only [List.append_assoc]
    · have hd : n / 1000 / 1000 = n / 1000000 := by rw [Nat.div_div_eq_div_mul]
      split
      · rw [h6, hd]; simp only [List.append_assoc]
      · rw [show (9 : Nat) = 6 + 3 from rfl, digitsN_add 6 3, show (10 : Nat) ^ 3 = 1000 from rfl, h6, hd, ← digitsN_mod 3 n]
        simp only [List.append_assoc]
        rfl

theorem offset_lt_digits (k : Nat) (x : Bytes) : utcOffset < digitsN 3 k ++ x := by
  have h : ∀ d < 10, (43 : UInt8) < digitChar d := by decide
  show (43 : UInt8) :: ascii "00:00" < digitChar (k / 10 / 10 % 10) :: _
  exact List.cons_lt_cons_iff.2 (.inl (h _ (Nat.mod_lt _ (by decide))))

/-- The texts of fractions, with the offset, are in the order of the fractions. -/
theorem tail_lt {a b : Nat} (hb : b < 10 ^ 9) (h : a < b) : fracText a ++ utcOffset < fracText b ++ utcOffset := by
  rw [tail_eq, tail_eq, if_neg (show b ≠ 0 by omega)]
  split
  · exact List.cons_lt_cons_iff.2 (.inl (by decide))
  · refine lt_append_left ?_
    by_cases h1 : a / 1000000 = b / 1000000
    · rw [h1]
      refine lt_append_left ?_
      rw [if_neg (show b % 1000000 ≠ 0 by omega)]
      split
      · exact offset_lt_digits _ _
      · by_cases h2 : a / 1000 % 1000 = b / 1000 % 1000
        · rw [h2]
          refine lt_append_left ?_
          rw [if_neg (show b % 1000 ≠ 0 by omega)]
          split
          · exact offset_lt_digits _ _
          · exact field_lt 3 _ _ (by omega) (by omega) _ _
        · exact field_lt 3 _ _ (by omega) (by omega) _ _
    · exact field_lt 3 _ _ (by omega) (by omega) _ _

/-- A later time has a later text. -/
theorem rfc3339_lt {a b : ClockTime} (ha : Spec.OnClock a) (hb : Spec.OnClock b) (h : Spec.Before a b) : rfc3339 a < rfc3339 b := by
  obtain ⟨ha1, -⟩ := ha
  obtain ⟨b1, b2, b3, b4, b5, b6, b7⟩ := hb
  unfold Spec.Before ClockTime.fields at h
  simp only [List.cons_lt_cons_iff] at h
  simp only [rfc3339, yearText, if_pos ha1, if_pos b1, List.append_assoc]
  rcases h with h | ⟨e, h⟩
  · exact field_lt 4 _ _ (by omega) h _ _
  rw [e]
  refine lt_append_left (lt_append_left ?_)
  rcases h with h | ⟨e, h⟩
  · exact field_lt 2 _ _ (by omega) h _ _
  rw [e]
  refine lt_append_left (lt_append_left ?_)
  rcases h with h | ⟨e, h⟩
  · exact field_lt 2 _ _ (by omega) h _ _
  rw [e]
  refine lt_append_left (lt_append_left ?_)
  rcases h with h | ⟨e, h⟩
  · exact field_lt 2 _ _ (by omega) h _ _
  rw [e]
  refine lt_append_left (lt_append_left ?_)
  rcases h with h | ⟨e, h⟩
  · exact field_lt 2 _ _ (by omega) h _ _
  rw [e]
  refine lt_append_left (lt_append_left ?_)
  rcases h with h | ⟨e, h⟩
  · exact field_lt 2 _ _ (by omega) h _ _
  rw [e]
  refine lt_append_left ?_
  rcases h with h | ⟨-, h⟩
  · exact tail_lt b7 h
  · cases h

/-! ## Ids -/

/-- Numbers as `lfs_create_lock` draws them. -/
def Spec.Draws (l : List Nat) : Prop := l.length = 8 ∧ ∀ d ∈ l, d < 9

/-- What a real server has for a lock: an id of numbers that were drawn, and the time of its clock. -/
def Spec.RealMoment (m : Moment) : Prop := (∃ l, Spec.Draws l ∧ m.lockId = lockIdText l) ∧ ∃ t, Spec.OnClock t ∧ m.now = rfc3339 t

theorem decStr_digit : ∀ d < 9, decStr d = [digitChar d] := by decide +kernel

theorem lockId_digits {l : List Nat} (h : Spec.Draws l) : lockIdText l = l.map digitChar := by
  obtain ⟨-, h⟩ := h
  induction l with
  | nil => rfl
  | cons d l ih =>
    rw [lockIdText, List.flatMap_cons, decStr_digit d (h d (by simp)), List.map_cons]
    exact congrArg _ (ih (fun x hx => h x (List.mem_cons_of_mem _ hx)))

theorem real_id {m : Moment} (h : Spec.RealMoment m) : m.lockId.length = 8 ∧ ∀ c ∈ m.lockId, 48 ≤ c.toNat ∧ c.toNat ≤ 56 := by
  obtain ⟨⟨l, hl, e⟩, -⟩ := h
  rw [e, lockId_digits hl]
  refine ⟨by rw [List.length_map, hl.1], ?_⟩
  intro c hc
  obtain ⟨d, hd, rfl⟩ := List.mem_map.1 hc
  have : ∀ d < 9, 48 ≤ (digitChar d).toNat ∧ (digitChar d).toNat ≤ 56 := by decide
  exact this d (hl.2 d hd)

/-! ## The claims -/

/-- Where the locks of a history come from. -/
theorem served_times (P : ServerExt) (h : BothHist) (ref : Bytes) :
    ∀ l ∈ ((runBoth P .empty h).web.locks (P.D.fold ref)).getD [], ∃ p ∈ h, l.id = p.1.lockId ∧ l.lockedAt = p.1.now := by
  obtain ⟨q, e, -, hc, -⟩ := history_locks P h .empty
  rw [e]
  have hc' : ∀ r p i n, LockReq.create r p i n ∈ q → ∃ x ∈ h, i = x.1.lockId ∧ n = x.1.now := by
    intro r p i n hx
    obtain ⟨m, r', h1, -, h2, h3⟩ := hc r i n p hx
    exact ⟨_, h1, h2, h3⟩
  clear hc e
  suffices ∀ (q : List LockReq) (t : LockTable), (∀ r p i n, LockReq.create r p i n ∈ q → ∃ x ∈ h, i = x.1.lockId ∧ n = x.1.now) →
      (∀ k, ∀ l ∈ (t k).getD [], ∃ p ∈ h, l.id = p.1.lockId ∧ l.lockedAt = p.1.now) →
      ∀ k, ∀ l ∈ (q.foldl (LockReq.run P.D) t k).getD [], ∃ p ∈ h, l.id = p.1.lockId ∧ l.lockedAt = p.1.now from
    this q _ hc' (fun k => by simp [Both.empty, ServerState.empty, noLocks]) _
  intro q
  induction q with
  | nil => exact fun t _ ht => ht
  | cons x q ih =>
    intro t hq ht
    refine ih _ (fun r p i n hx => hq r p i n (List.mem_cons_of_mem _ hx))
      (run_invariant P.D (fun ls => ∀ l ∈ ls, ∃ p ∈ h, l.id = p.1.lockId ∧ l.lockedAt = p.1.now) (fun a b hp ha y hy => ha y (hp.mem_iff.2 hy))
        (fun a b hs hb y hy => hb y (hs.subset hy)) x ?_ t ht)
    rintro r p i n rfl l hl _ y hy
    rcases List.mem_append.1 hy with hy | hy
    · exact hl y hy
    · rw [List.mem_singleton.1 hy]
      obtain ⟨x, hx, h1, h2⟩ := hq r p i n List.mem_cons_self
      exact ⟨x, hx, h1, h2⟩

/-- **C67** After every history of the two servers every lock that is shown has the time at which it was taken, and the locks are shown in the order
of these times: none is before an earlier one in the list. (The server compares the texts of the times, of different lengths.) -/
theorem C67_times (P : ServerExt) (h : BothHist) (hreal : ∀ p ∈ h, Spec.RealMoment p.1) (ref : Bytes) (ls : List Lock)
    (hl : Spec.Shown P (runBoth P .empty h) ref ls) :
    ∃ ts : List ClockTime, ls.map (·.lockedAt) = ts.map rfc3339 ∧ (∀ t ∈ ts, Spec.OnClock t ∧ ∃ p ∈ h, p.1.now = rfc3339 t) ∧
      ts.Pairwise (fun a b => ¬ Spec.Before b a) := by
  have hs := C67_served P h ref ls hl
  rw [shown_iff, listed_iff] at hl
  have hm : ∀ l ∈ ls, ∃ t, l.lockedAt = rfc3339 t ∧ Spec.OnClock t ∧ ∃ p ∈ h, p.1.now = rfc3339 t := by
    intro l hx
    obtain ⟨p, hp, -, e⟩ := served_times P h ref l (hl ▸ hx)
    obtain ⟨-, t, ht, e'⟩ := hreal p hp
    exact ⟨t, e.trans e', ht, p, hp, e'⟩
  clear hl
  induction ls with
  | nil => exact ⟨[], rfl, by simp, .nil⟩
  | cons l ls ih =>
    obtain ⟨h1, h2⟩ := List.pairwise_cons.1 hs
    obtain ⟨ts, e, hts, hp⟩ := ih h2 (fun x hx => hm x (List.mem_cons_of_mem _ hx))
    obtain ⟨t, et, hc, hx⟩ := hm l List.mem_cons_self
    refine ⟨t :: ts, by rw [List.map_cons, List.map_cons, et, e], ?_, List.pairwise_cons.2 ⟨?_, hp⟩⟩
    · intro t' ht'
      rcases List.mem_cons.1 ht' with rfl | ht'
      · exact ⟨hc, hx⟩
      · exact hts t' ht'
    · intro t' ht' hb
      have : rfc3339 t' ∈ ls.map (·.lockedAt) := e ▸ List.mem_map_of_mem ht'
      obtain ⟨l', hl', e'⟩ := List.mem_map.1 this
      exact h1 l' hl' (by rw [e', et]; exact rfc3339_lt (hts t' ht').1 hc hb)

/-- What `C67_times` needs of the clock: in the year 10000 the texts get a sign, and are before those of the year 9999. -/
example : ∃ a b : ClockTime, Spec.Before a b ∧ rfc3339 b < rfc3339 a :=
  ⟨⟨9999, 12, 31, 23, 59, 59, 0⟩, ⟨10000, 1, 1, 0, 0, 0, 0⟩, by unfold Spec.Before ClockTime.fields; decide, by decide +kernel⟩

/-- Texts of different lengths. -/
example : rfc3339 ⟨2023, 5, 23, 7, 0, 9, 0⟩ = ascii "2023-05-23T07:00:09+00:00" ∧
    rfc3339 ⟨2023, 5, 23, 7, 0, 9, 120000000⟩ = ascii "2023-05-23T07:00:09.120+00:00" ∧
    rfc3339 ⟨2023, 5, 23, 7, 0, 9, 120000450⟩ = ascii "2023-05-23T07:00:09.120000450+00:00" := by decide +kernel

/-- **C42** With ids as they are really drawn: after every history of the two servers in which no id was drawn twice, an unlock request that is
answered with success returns the lock with the id of the request, and afterwards all the locks of the ref are shown except this one. An unlock
request that is not answered with success changes nothing. (Missing: ids drawn twice; refs that are equal for the database; requests that overlap.) -/
theorem C42_drawn_partial (P : ServerExt) (h : BothHist) (hreal : ∀ p ∈ h, Spec.RealMoment p.1) (hd : (h.map (·.1.lockId)).Nodup)
    (m : Moment) (r : HttpReq) (ref i : Bytes) (force : Option Bool) (hr : Spec.AsksUnlock P r ref i force) (ls : List Lock)
    (hl : Spec.Shown P (runBoth P .empty h) ref ls) :
    (∃ l, (serve P m (runBoth P .empty h).web r).1 = .reply (.ok (.lock l)) ∧ l ∈ ls ∧ l.id = i ∧
      Spec.Shown P (runBoth P .empty (h ++ [(m, .http r)])) ref (ls.erase l)) ∨
    ∃ c, (serve P m (runBoth P .empty h).web r).1 = .reply (.status c) ∧ runBoth P .empty (h ++ [(m, .http r)]) = runBoth P .empty h := by
  have hne : [] ∉ h.map (·.1.lockId) := by
    intro hm
    obtain ⟨p, hp, e⟩ := List.mem_map.1 hm
    have := (real_id (hreal p hp)).1
    rw [e] at this
    cases this
  rcases C42_served_partial P h hd hne m r ref i force hr ls hl with ⟨l, h1, h2, h3, h4, -⟩ | h1
  · exact .inl ⟨l, h1, h2, h3, h4⟩
  · exact .inr h1

/-- **C42** Every lock that is shown can be named in a URL: after every history, the request to the URL made of the prefix of the repository, the id
of the lock and `/unlock` is a request to remove the lock with this id. -/
theorem C42_url (P : ServerExt) (h : BothHist) (hreal : ∀ p ∈ h, Spec.RealMoment p.1) (ref : Bytes) (ls : List Lock)
    (hl : Spec.Shown P (runBoth P .empty h) ref ls) (l : Lock) (hm : l ∈ ls) (pre : Bytes) (s : Option Bytes) :
    route .post (pre ++ ascii "/locks/" ++ l.id ++ ascii "/unlock") s = .deleteLock l.id := by
  rw [shown_iff, listed_iff] at hl
  obtain ⟨p, hp, e, -⟩ := served_times P h ref l (hl ▸ hm)
  obtain ⟨-, h2⟩ := real_id (hreal p hp)
  rw [← e] at h2
  exact C57_routed_partial (.deleteLock pre l.id s (fun hs => absurd (h2 _ hs).1 (by decide))) (by intro h; cases h)

/-! ## Examples -/

/-- Two moments of a real server, half a second apart. -/
def realFirst : Moment := { demoMoment with lockId := lockIdText [0, 4, 1, 8, 2, 2, 7, 3], now := rfc3339 ⟨2023, 5, 23, 7, 0, 9, 0⟩ }
def realSecond : Moment := { demoMoment with lockId := lockIdText [5, 5, 1, 0, 0, 3, 8, 6], now := rfc3339 ⟨2023, 5, 23, 7, 0, 9, 500000000⟩ }

theorem realFirst_real : Spec.RealMoment realFirst :=
  ⟨⟨_, ⟨rfl, by decide⟩, rfl⟩, _, by unfold Spec.OnClock; decide, rfl⟩
theorem realSecond_real : Spec.RealMoment realSecond :=
  ⟨⟨_, ⟨rfl, by decide⟩, rfl⟩, _, by unfold Spec.OnClock; decide, rfl⟩

/-- The two locks are taken, the later one first (the clock was set back in between). -/
def realLocked : BothHist := [(realSecond, .http (lockReq (ascii "big.psd"))), (realFirst, .http (lockReq (ascii "b.psd")))]

def realShown : List Lock :=
  [{ id := ascii "04182273", path := ascii "b.psd", lockedAt := ascii "2023-05-23T07:00:09+00:00", owner := none },
   { id := ascii "55100386", path := ascii "big.psd", lockedAt := ascii "2023-05-23T07:00:09.500+00:00", owner := none }]

theorem realLocked_shown : Spec.Shown demoServer (runBoth demoServer .empty realLocked) (ascii "refs/heads/main") realShown := by
  rw [shown_iff, listed_iff]; decide +kernel

theorem realLocked_real : ∀ p ∈ realLocked, Spec.RealMoment p.1 := by
  intro p hp
  rcases List.mem_cons.1 hp with rfl | hp
  · exact realSecond_real
  · rw [List.mem_singleton.1 hp]; exact realFirst_real

/-- C67 and C42 at work. -/
example : (∃ ts : List ClockTime, realShown.map (·.lockedAt) = ts.map rfc3339 ∧ (∀ t ∈ ts, Spec.OnClock t ∧ ∃ p ∈ realLocked, p.1.now = rfc3339 t) ∧
      ts.Pairwise (fun a b => ¬ Spec.Before b a)) ∧
    route .post (ascii "/org" ++ ascii "/locks/" ++ ascii "55100386" ++ ascii "/unlock") none = .deleteLock (ascii "55100386") :=
  ⟨C67_times demoServer realLocked realLocked_real _ _ realLocked_shown,
    C42_url demoServer realLocked realLocked_real _ _ realLocked_shown _ (List.mem_cons_of_mem _ List.mem_cons_self) (ascii "/org") none⟩

example : ∃ l, (serve demoServer demoMoment (runBoth demoServer .empty realLocked).web (unlockReq (ascii "55100386"))).1 = .reply (.ok (.lock l)) ∧
    Spec.Shown demoServer (runBoth demoServer .empty (realLocked ++ [(demoMoment, .http (unlockReq (ascii "55100386")))])) (ascii "refs/heads/main") (realShown.erase l) := by
  rcases C42_drawn_partial demoServer realLocked realLocked_real (by decide +kernel) demoMoment (unlockReq (ascii "55100386")) (ascii "refs/heads/main")
    (ascii "55100386") none ⟨by decide +kernel, by decide +kernel, by decide +kernel⟩ _ realLocked_shown with ⟨l, h1, -, -, h4⟩ | ⟨c, h1, -⟩
  · exact ⟨l, h1, h4⟩
  · exact absurd h1 (by
      rw [show (serve demoServer demoMoment (runBoth demoServer .empty realLocked).web (unlockReq (ascii "55100386"))).1 =
        .reply (.ok (.lock { id := ascii "55100386", path := ascii "big.psd", lockedAt := ascii "2023-05-23T07:00:09.500+00:00", owner := none })) by decide +kernel]
      exact fun h => nomatch h)

end Gust

import Verif.Props.JsonReply
import Verif.Props.LockTimes
import Verif.Lemmas.JsonOut

/-! # C132 with the real ids and times, for both servers -/

namespace Gust

theorem digitsN_ascii : ∀ w n, ∀ c ∈ digitsN w n, c.toNat < 128
  | 0, _, c, h => by cases h
  | w + 1, n, c, h => by
    rw [digitsN] at h
    rcases List.mem_append.1 h with h | h
    · exact digitsN_ascii w _ c h
    · rw [List.mem_singleton.1 h]
      have : ∀ d < 10, (digitChar d).toNat < 128 := by decide
      exact this _ (Nat.mod_lt _ (by decide))

theorem decStr_ascii (n : Nat) : ∀ c ∈ decStr n, c.toNat < 128 := by
  intro c hc
  have := decStr_range n c hc
  have h2 : c.toNat ≤ 57 := this.2
  omega

/-- The text of every time is ASCII. -/
theorem rfc3339_ascii (t : ClockTime) : ∀ c ∈ rfc3339 t, c.toNat < 128 := by
  have hy : ∀ c ∈ yearText t.year, c.toNat < 128 := by
    intro c hc
    unfold yearText at hc
    split at hc
    · exact digitsN_ascii _ _ c hc
    · rcases List.mem_append.1 hc with hc | hc
      · have hplus : ∀ c ∈ ascii "+", c.toNat < 128 := by decide
        exact hplus c hc
      · exact decStr_ascii _ c hc
  have hdot : ∀ c ∈ ascii ".", c.toNat < 128 := by decide
  have hf : ∀ c ∈ fracText t.nano, c.toNat < 128 := by
    intro c hc
    unfold fracText at hc
    split at hc
    · cases hc
    · split at hc
      · rcases List.mem_append.1 hc with hc | hc
        exacts [hdot c hc, digitsN_ascii _ _ c hc]
      · split at hc <;> rcases List.mem_append.1 hc with hc | hc
        exacts [hdot c hc, digitsN_ascii _ _ c hc, hdot c hc, digitsN_ascii _ _ c hc]
  intro c hc
  have h1 : ∀ c ∈ ascii "-", c.toNat < 128 := by decide
  have h2 : ∀ c ∈ ascii ":", c.toNat < 128 := by decide
  have h3 : ∀ c ∈ ascii "T", c.toNat < 128 := by decide
  have h4 : ∀ c ∈ utcOffset, c.toNat < 128 := by decide
  simp only [rfc3339, List.mem_append] at hc
  rcases hc with (((((((((((hc | hc) | hc) | hc) | hc) | hc) | hc) | hc) | hc) | hc) | hc) | hc) | hc
  exacts [hy c hc, h1 c hc, digitsN_ascii _ _ c hc, h1 c hc, digitsN_ascii _ _ c hc, h3 c hc, digitsN_ascii _ _ c hc, h2 c hc, digitsN_ascii _ _ c hc, h2 c hc,
    digitsN_ascii _ _ c hc, hf c hc, h4 c hc]

theorem real_texts {m : Moment} (h : Spec.RealMoment m) : Spec.Texts m := by
  refine ⟨utf8Valid_ascii _ (fun c hc => by have := ((real_id h).2 c hc).2; omega), ?_⟩
  obtain ⟨-, t, -, e⟩ := h
  rw [e]
  exact utf8Valid_ascii _ (rfc3339_ascii t)

theorem runBoth_tidy (P : ServerExt) (hJ : P.J = serdeJson) (ho : utf8Valid P.S.origin = true) : ∀ (h : BothHist) (s : Both), Tidy s.web →
    (∀ p ∈ h, Spec.Texts p.1) → Tidy (runBoth P s h).web
  | [], _, hs, _ => hs
  | (m, v) :: h, s, hs, hm => by
    rw [runBoth_cons]
    refine runBoth_tidy P hJ ho h _ ?_ (fun p hp => hm p (List.mem_cons_of_mem _ hp))
    cases v with
    | http r => exact (serve_clean P hJ ho m (hm (m, .http r) List.mem_cons_self) s.web hs r).1
    | ssh i e => exact hs

/-- **C132** for both servers, with the ids and times that a real server has (nothing is assumed of the texts that the random number generator and
the clock give): after every history, every successful reply about locks and large files is the text of exactly one JSON value, and this value shows
what the server found; links expire at the time `e`. -/
theorem C132_served (P : ServerExt) (hJ : P.J = serdeJson) (ho : utf8Valid P.S.origin = true) (h : BothHist) (hm : ∀ p ∈ h, Spec.RealMoment p.1)
    (m : Moment) (hm' : Spec.RealMoment m) (r : HttpReq) (p : Payload) (hok : (serve P m (runBoth P .empty h).web r).1 = .reply (.ok p))
    (hp : ∀ b, p ≠ .bytes b) (e : ClockTime) :
    ∃ v, Spec.JsonDoc v (replyText (rfc3339 e) p) ∧ Spec.ShowsReply (rfc3339 e) v p ∧ ∀ v', Spec.JsonDoc v' (replyText (rfc3339 e) p) → v' = v := by
  have hc := (serve_clean P hJ ho m (real_texts hm') _ (runBoth_tidy P hJ ho h .empty empty_tidy (fun p hp => real_texts (hm p hp))) r).2 p hok hp
  obtain ⟨v, hv, hs⟩ := shows_reply (utf8Valid_ascii _ (rfc3339_ascii e)) hc
  have hd : Spec.JsonDoc v (replyText (rfc3339 e) p) := ⟨[], _, [], ws_nil, hv, ws_nil, by simp⟩
  exact ⟨v, hd, hs, fun v' h' => doc_unique h' hd⟩

/-- The reply to a request for a lock, at a moment with a real id and a real time, after somebody has connected over SSH. -/
theorem real_reply (X : Ext) (u : Bytes) (s : Both) (hs : s.web.locks = noLocks) : (serve (jsonServer X) realFirst s.web ((Spec.LfsAsk.lock trickyBody).to u)).1 =
    .reply (.ok (.lock (newLock trickyPath realFirst.lockId realFirst.now))) := by
  rw [serve_call _ rfl _ _ _ (.lock (ascii "refs/heads/main") trickyPath) (.lock trickyBody) tricky_body]
  show (createLock demoDb s.web.locks (ascii "refs/heads/main") trickyPath realFirst.lockId realFirst.now).1.outcome .lock = _
  rw [hs]
  have : (createLock demoDb noLocks (ascii "refs/heads/main") trickyPath realFirst.lockId realFirst.now).1 = .ok (newLock trickyPath realFirst.lockId realFirst.now) := by
    decide +kernel
  rw [this]; rfl

example (X : Ext) (u : Bytes) (e : ClockTime) : ∃ v, Spec.JsonDoc v (replyText (rfc3339 e) (.lock (newLock trickyPath realFirst.lockId realFirst.now))) ∧
    Spec.ShowsReply (rfc3339 e) v (.lock (newLock trickyPath realFirst.lockId realFirst.now)) := by
  obtain ⟨v, h1, h2, -⟩ := C132_served (jsonServer X) rfl (by decide +kernel : utf8Valid (ascii "http://localhost:8000") = true)
    [(realSecond, .ssh 3 (.exec 0 (ascii "git-upload-pack '/app.git'")))] (by intro p hp; rw [List.mem_singleton.1 hp]; exact realSecond_real) realFirst realFirst_real
    _ _ (real_reply X u _ rfl) (by intro b h; cases h) e
  exact ⟨v, h1, h2⟩

end Gust

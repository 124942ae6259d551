import Verif.Model.Ssh
import Verif.Props.Protocol

/-! # Lemmas about the SSH server -/

namespace Gust

/-! ## UTF-8 -/

theorem utf8Valid_append_aux : ∀ (n : Nat) (a b : Bytes), a.length ≤ n → utf8Valid a = true → utf8Valid b = true → utf8Valid (a ++ b) = true
  | _, [], _, _, _, hb => hb
  | 0, _ :: _, _, hn, _, _ => by simp at hn
  | n + 1, x :: s, b, hn, ha, hb => by
    have ih := utf8Valid_append_aux n
    simp only [List.length_cons] at hn
    rw [List.cons_append]
    unfold utf8Valid at ha ⊢
    simp only at ha ⊢
    split at ha
    · rename_i h1
      rw [if_pos h1]
      exact ih s b (by omega) ha hb
    · rename_i h1
      rw [if_neg h1]
      split at ha
      · rename_i h2
        rw [if_pos h2]
        match s, ha, hn with
        | y :: s', ha, hn =>
          simp only [Bool.and_eq_true, List.cons_append] at ha ⊢
          exact ⟨ha.1, ih s' b (by simp at hn; omega) ha.2 hb⟩
      · rename_i h2
        rw [if_neg h2]
        split at ha
        · rename_i h3
          rw [if_pos h3]
          match s, ha, hn with
          | y :: z :: s', ha, hn =>
            rw [List.cons_append, List.cons_append]
            dsimp only at ha ⊢
            rw [Bool.and_eq_true] at ha ⊢
            exact ⟨ha.1, ih s' b (by simp at hn; omega) ha.2 hb⟩
        · rename_i h3
          rw [if_neg h3]
          split at ha
          · rename_i h4
            rw [if_pos h4]
            match s, ha, hn with
            | y :: z :: w :: s', ha, hn =>
              rw [List.cons_append, List.cons_append, List.cons_append]
              dsimp only at ha ⊢
              rw [Bool.and_eq_true] at ha ⊢
              exact ⟨ha.1, ih s' b (by simp at hn; omega) ha.2 hb⟩
          · cases ha

/-- Well-formed texts one after the other are a well-formed text. -/
theorem utf8Valid_append {a b : Bytes} (ha : utf8Valid a = true) (hb : utf8Valid b = true) : utf8Valid (a ++ b) = true :=
  utf8Valid_append_aux a.length a b (Nat.le_refl _) ha hb

theorem hex4_text (n : Nat) : utf8Valid (hex4 n) = true := by
  refine utf8Valid_ascii _ (fun c hc => ?_)
  simp only [hex4, List.mem_append, List.mem_replicate] at hc
  rcases hc with ⟨_, rfl⟩ | hc
  · decide
  · rcases hexStr_range n c hc with h | h <;> omega

theorem addPktLine_text {s b : Bytes} (hs : utf8Valid s = true) (hb : utf8Valid b = true) : utf8Valid (addPktLine s b) = true :=
  utf8Valid_append (utf8Valid_append hs (hex4_text _)) hb

theorem foldl_addPktLine_text (ls : List Bytes) : ∀ s, utf8Valid s = true → (∀ l ∈ ls, utf8Valid l = true) → utf8Valid (ls.foldl addPktLine s) = true := by
  induction ls with
  | nil => intro s hs _; exact hs
  | cons l ls ih => intro s hs h; exact ih _ (addPktLine_text hs (h l (.head _))) (fun x hx => h x (.tail _ hx))

/-! ## Fetch -/

/-- All ids of a request are texts. -/
def FetchText (s : FetchState) : Prop := (∀ x ∈ s.want, utf8Valid x = true) ∧ ∀ x ∈ s.have_, utf8Valid x = true

theorem mem_insertNew {x y : Bytes} {l : List Bytes} (h : x ∈ insertNew y l) : x = y ∨ x ∈ l := by
  unfold insertNew at h
  split at h
  · exact .inr h
  · rcases List.mem_append.1 h with h | h
    · exact .inr h
    · exact .inl (List.mem_singleton.1 h)

theorem lineId_text {dst id : Bytes} (h : lineId dst = .ok id) : utf8Valid id = true := by
  unfold lineId at h
  rw [Res.bind_eq_ok] at h
  obtain ⟨a, _, h⟩ := h
  split at h
  · rename_i hv
    cases h
    exact hv
  · cases h

theorem firstCaps_ids {s s' : FetchState} {dst : Bytes} (h : firstCaps s dst = .ok s') : s'.want = s.want ∧ s'.have_ = s.have_ := by
  unfold firstCaps at h
  split at h
  · rw [Res.bind_eq_ok] at h
    obtain ⟨a, _, h⟩ := h
    split at h
    · cases h; exact ⟨rfl, rfl⟩
    · cases h
  · cases h; exact ⟨rfl, rfl⟩

theorem fetchLine_text {s s' : FetchState} {dst : Bytes} (hs : FetchText s) (h : fetchLine s dst = .ok (some s')) : FetchText s' := by
  unfold fetchLine at h
  rw [Res.bind_eq_ok] at h
  obtain ⟨cmd, _, h⟩ := h
  split at h
  · rw [Res.bind_eq_ok] at h
    obtain ⟨id, hid, h⟩ := h
    rw [Res.bind_eq_ok] at h
    obtain ⟨s1, h1, h⟩ := h
    cases h
    obtain ⟨e1, e2⟩ := firstCaps_ids h1
    refine ⟨fun x hx => ?_, fun x hx => hs.2 x (by rw [e2] at hx; exact hx)⟩
    rw [e1] at hx
    rcases mem_insertNew hx with rfl | hx
    · exact lineId_text hid
    · exact hs.1 x hx
  · split at h
    · rw [Res.bind_eq_ok] at h
      obtain ⟨id, hid, h⟩ := h
      rw [Res.bind_eq_ok] at h
      obtain ⟨s1, h1, h⟩ := h
      cases h
      obtain ⟨e1, e2⟩ := firstCaps_ids h1
      refine ⟨fun x hx => hs.1 x (by rw [e1] at hx; exact hx), fun x hx => ?_⟩
      rw [e2] at hx
      rcases mem_insertNew hx with rfl | hx
      · exact lineId_text hid
      · exact hs.2 x hx
    · split at h
      · cases h
      · cases h; exact hs

theorem fetchLoop_text : ∀ (fuel : Nat) {s s' : FetchState} {body rest : Bytes}, FetchText s → fetchLoop fuel s body = .ok (s', rest) → FetchText s'
  | 0, _, _, _, _, _, h => by cases h
  | fuel + 1, s, s', body, rest, hs, h => by
    rw [fetchLoop, Res.bind_eq_ok] at h
    obtain ⟨⟨⟨n, line⟩, rest1⟩, _, h⟩ := h
    simp only at h
    split at h
    · exact fetchLoop_text fuel hs h
    · rw [Res.bind_eq_ok] at h
      obtain ⟨r, hr, h⟩ := h
      cases r with
      | none => cases h; exact hs
      | some s1 => exact fetchLoop_text fuel (fetchLine_text hs hr) h

theorem ascii_text (s : String) (h : ∀ c ∈ ascii s, c.toNat < 128) : utf8Valid (ascii s) = true := utf8Valid_ascii _ h

theorem ackLine_text {id t : Bytes} (h : utf8Valid id = true) (ht : utf8Valid t = true) : utf8Valid (ackLine id t) = true :=
  utf8Valid_append (utf8Valid_append (utf8Valid_append (utf8Valid_append (by decide +kernel) h) (by decide +kernel)) ht) (by decide +kernel)

/-- The pkt-lines in front of a pack are text. -/
theorem fetchAnswer_text {St : FetchStore} {caps : List Capability} {wants haves : List Bytes} {pack buf : Bytes} (hw : ∀ x ∈ wants, utf8Valid x = true)
    (hh : ∀ x ∈ haves, utf8Valid x = true) (h : fetchAnswer St caps wants haves = .ok (pack, buf)) : utf8Valid buf = true := by
  have hard : ∀ s, utf8Valid s = true → utf8Valid (addPktLine s (ascii "ACK " ++ hardCodedAck ++ ascii " \n")) = true := fun s hs =>
    addPktLine_text hs (by decide +kernel)
  unfold fetchAnswer at h
  split at h
  · rw [Res.bind_eq_ok] at h
    obtain ⟨a, _, h⟩ := h
    cases h
    decide +kernel
  · split at h
    · simp only [Res.bind_eq_ok, Res.pure_eq] at h
      obtain ⟨a, _, h⟩ := h
      simp only [Res.ok.injEq, Prod.mk.injEq] at h
      rw [← h.2]
      refine hard _ (foldl_addPktLine_text _ _ (foldl_addPktLine_text _ _ rfl ?_) ?_)
      · intro l hl
        obtain ⟨x, hx, hl⟩ := List.mem_flatMap.1 hl
        split at hl
        · rw [List.mem_singleton.1 hl]
          exact ackLine_text (hh x hx) (by decide +kernel)
        · cases hl
      · intro l hl
        obtain ⟨x, hx, hl⟩ := List.mem_flatMap.1 hl
        rcases List.mem_append.1 hl with hl | hl
        · split at hl
          · rw [List.mem_singleton.1 hl]
            exact ackLine_text (hw x hx) (by decide +kernel)
          · cases hl
        · split at hl
          · rw [List.mem_singleton.1 hl]
            exact ackLine_text (hw x hx) (by decide +kernel)
          · cases hl
    · cases h
      exact hard [] rfl

/-- A fetch on a new session is answered with the body of the reply over HTTP. -/
theorem sshUploadPack_http (St : FetchStore) (ord : List Bytes → List Bytes) (hord : ∀ l x, x ∈ ord l → x ∈ l) (cut : Bytes → List Bytes) (data : Bytes) :
    (sshUploadPack St ord cut [] data >>= fun r => .ok r.1) = httpUploadPack St ord cut data := by
  unfold sshUploadPack httpUploadPack
  cases h1 : fetchLoop (data.length + 1) { want := [], have_ := [], caps := [], firstLine := true } data with
  | ok a =>
    obtain ⟨s, rest⟩ := a
    simp only [Res.bind_ok]
    cases h2 : fetchAnswer St s.caps (ord s.want) (ord s.have_) with
    | ok b =>
      obtain ⟨pack, buf⟩ := b
      have ht : FetchText s := fetchLoop_text _ ⟨(by intro x hx; cases hx), (by intro x hx; cases hx)⟩ h1
      have := fetchAnswer_text (fun x hx => ht.1 x (hord _ x hx)) (fun x hx => ht.2 x (hord _ x hx)) h2
      simp only [Res.bind_ok, this, if_true, Res.pure_eq]
    | _ => rfl
  | _ => rfl

/-! ## Steps -/

theorem sshRun_append (X : Ext) (s : SshState) (h h' : SshHist) : sshRun X s (h ++ h') = sshRun X (sshRun X s h) h' := List.foldl_append

theorem sshRun_one (X : Ext) (s : SshState) (m : Moment) (i : Nat) (e : SshEvent) : sshRun X s [(m, i, e)] = (sshStep X m s i e).2 := rfl

theorem sshSent_cons (X : Ext) (i : Nat) (s : SshState) (p : Moment × Nat × SshEvent) (h : SshHist) :
    sshSent X i s (p :: h) = (if p.2.1 = i then (sshStep X p.1 s p.2.1 p.2.2).1 else []) ++ sshSent X i (sshStep X p.1 s p.2.1 p.2.2).2 h := rfl

theorem sshStep_other {X : Ext} {m : Moment} {s : SshState} {i j : Nat} {e : SshEvent} (h : j ≠ i) : (sshStep X m s i e).2.link j = s.link j := by
  show (if j = i then _ else _) = _
  rw [if_neg h]

theorem sshStep_self {X : Ext} {m : Moment} {s : SshState} {i : Nat} {e : SshEvent} :
    (sshStep X m s i e).2.link i = (sshLinkStep X m s.db (s.link i) e).2.1 := by
  exact if_pos rfl

theorem sshStep_db {X : Ext} {m : Moment} {s : SshState} {i : Nat} {e : SshEvent} :
    (sshStep X m s i e).2.db = (sshLinkStep X m s.db (s.link i) e).2.2 := rfl

theorem sshStep_out {X : Ext} {m : Moment} {s : SshState} {i : Nat} {e : SshEvent} :
    (sshStep X m s i e).1 = (sshLinkStep X m s.db (s.link i) e).1 := rfl

/-- Messages of other connections leave a connection as it is. -/
theorem sshRun_other {X : Ext} {i : Nat} : ∀ (h : SshHist) {s : SshState}, (∀ p ∈ h, p.2.1 ≠ i) → (sshRun X s h).link i = s.link i
  | [], _, _ => rfl
  | p :: h, s, hn => by
    show (sshRun X (sshStep X p.1 s p.2.1 p.2.2).2 h).link i = _
    rw [sshRun_other h (fun q hq => hn q (.tail _ hq)), sshStep_other (fun e => hn p (.head _) e.symm)]

/-- The connection after an exec request that was answered. -/
theorem sshExec_ready {X : Ext} {m : Moment} {db : Db} {channel : Nat} {command path : Bytes} {t : ServiceType} {p : Option SshProto}
    (hc : sshCommand command = .ok (path, t)) (h : (sshExec X m db channel command).2.1 = .ready p) :
    p = some { service := t, path := path, caps := [], commands := [] } := by
  unfold sshExec at h
  rw [hc] at h
  simp only at h
  revert h
  generalize ((advertise X m.sql Protocol.ssh t db path).1 >>= fun b => if utf8Valid b then Res.ok b else .panic) = r
  cases r <;> intro h <;> simp only [Res.link, SshLink.ready.injEq, reduceCtorEq] at h
  exact h.symm

end Gust

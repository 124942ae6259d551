import Verif.Props.BatchServed
import Verif.Props.LockLedger
import Verif.Props.DiskServed

/-! # C160: what can be downloaded follows from the requests and their replies -/

namespace Gust

/-! ## Spec -/

/-- What somebody who watches the requests about one object, and their replies, has noted: the size that was announced, if that is still valid, and the bytes that were sent last. -/
structure Spec.ObjectNote where
  announced : Option Int := none
  sent : Option Bytes := none

/-- What one request and its reply mean. An announcement that was answered counts, unless there is a valid one already. An upload that was answered, with success or with 406 (these are not the
bytes that were announced), has replaced the bytes; in the second case the announcement is no longer valid. -/
def Spec.noteObject (P : ServerExt) (oid : Bytes) (n : Spec.ObjectNote) : HttpReq × Outcome → Spec.ObjectNote
  | (r, .reply (.ok (.objects _))) =>
    match route r.method r.path r.service, P.J.batch r.body with
    | .batch, some (op, vs) => if op = ascii "upload" then { n with announced := n.announced.or ((vs.find? (fun v => v.oid = oid)).map (·.size)) } else n
    | _, _ => n
  | (r, .reply (.ok (.bytes _))) => if route r.method r.path r.service = .upload oid then { n with sent := some r.body } else n
  | (r, .reply (.status 406)) => if route r.method r.path r.service = .upload oid then { announced := none, sent := some r.body } else n
  | _ => n

def Spec.objectNote (P : ServerExt) (oid : Bytes) (x : List (HttpReq × Outcome)) : Spec.ObjectNote := x.foldl (Spec.noteObject P oid) {}

/-- Everybody spells the oid in the same way, every announcement of it was answered, and no upload for it was longer than one write. -/
def Spec.AnsweredAll (P : ServerExt) (oid : Bytes) (x : HttpReq × Outcome) : Prop :=
  (∀ op vs, Spec.AsksBatch P x.1 op vs → (∀ v ∈ vs, P.D.fold v.oid = P.D.fold oid → v.oid = oid) ∧
    (op = ascii "upload" → (∃ v ∈ vs, v.oid = oid) → ∃ rs, x.2 = .reply (.ok (.objects rs)))) ∧
  (Spec.AsksUpload x.1 oid → x.1.body.length ≤ P.S.maxWrite)

/-! ## Lemmas -/

theorem find_congr {α : Type} {f g : α → Bool} : ∀ {l : List α}, (∀ x ∈ l, f x = g x) → l.find? f = l.find? g
  | [], _ => rfl
  | x :: l, h => by rw [List.find?_cons, List.find?_cons, h x List.mem_cons_self, find_congr (fun y hy => h y (List.mem_cons_of_mem _ hy))]

/-- The rows after an upload batch that was answered. -/
theorem batchLoop_after (D : DbExt) (E : StoreExt) (disk : Disk) (k : Bytes) : ∀ (vs : List RequestVars) (m : MetaTable) (rs : List Rep),
    (batchLoop D E disk true vs m).1 = .ok rs →
    (batchLoop D E disk true vs m).2 k = (m k).or ((vs.find? (fun v => D.fold v.oid = k)).map (fun v => (v.oid, v.size)))
  | [], m, rs, _ => by simp [batchLoop]
  | v :: vs, m, rs, h => by
    have hone : ∀ r, (batchOne D E disk m true v).1 = .ok r → (batchOne D E disk m true v).2 k = if D.fold v.oid = k then (m k).or (some (v.oid, v.size)) else m k := by
      intro r hr
      unfold batchOne lfsGetMeta lfsPutMeta at hr ⊢
      by_cases hf : D.fold v.oid = k
      · subst hf
        cases hm : m (D.fold v.oid) with
        | some row =>
          simp only [hm, if_true] at hr ⊢
          split at hr <;> simp_all
        | none =>
          simp only [hm, if_true] at hr ⊢
          split at hr
          · rename_i e
            split at e
            · cases e
              rename_i hfit
              simp [setAt_same, hfit]
            · cases e
          · cases hr
      · rw [if_neg hf]
        cases hm : m (D.fold v.oid) with
        | some row =>
          simp only [hm, if_true] at hr ⊢
          split at hr <;> simp_all
        | none =>
          simp only [hm, if_true] at hr ⊢
          split at hr
          · rename_i e
            split at e
            · cases e
              rename_i hfit
              simp [setAt_other _ _ (Ne.symm hf), hfit]
            · cases e
          · cases hr
    rw [batchLoop] at h ⊢
    cases hb : batchOne D E disk m true v with
    | mk r m1 =>
      rw [hb] at h hone
      cases r with
      | ok r =>
        have hm1 := hone r rfl
        simp only at h hm1 ⊢
        cases hl : batchLoop D E disk true vs m1 with
        | mk rs' m2 =>
          rw [hl] at h
          cases rs' with
          | ok rs' =>
            have ih := batchLoop_after D E disk k vs m1 rs' (by rw [hl])
            rw [hl] at ih
            simp only at ih ⊢
            rw [ih, hm1, List.find?_cons]
            by_cases hf : D.fold v.oid = k
            · simp only [hf, if_true, decide_true, Option.map_some]
              cases m k <;> rfl
            · simp only [hf, if_false, decide_false]
          | _ => cases h
      | _ => cases h

theorem batchLoop_reads (D : DbExt) (E : StoreExt) (disk : Disk) : ∀ (vs : List RequestVars) (m : MetaTable), (batchLoop D E disk false vs m).2 = m
  | [], _ => rfl
  | v :: vs, m => by
    have hone : (batchOne D E disk m false v).2 = m := by
      unfold batchOne
      simp only [Bool.false_eq_true, if_false]
      split <;> (try split) <;> rfl
    rw [batchLoop]
    cases hb : batchOne D E disk m false v with
    | mk r m1 =>
      rw [hb] at hone
      subst hone
      have ih := batchLoop_reads D E disk vs m1
      cases r with
      | ok r =>
        simp only
        cases hl : batchLoop D E disk false vs m1 with
        | mk rs' m2 =>
          rw [hl] at ih
          cases rs' <;> exact ih
      | _ => rfl

/-- Where the content of an oid is kept. -/
abbrev contentAt (E : StoreExt) (oid : Bytes) : Bool × List Bytes := ((components E.base).1, (components E.base).2 ++ oidParts oid)

/-- The state is as noted. -/
def Noted (P : ServerExt) (oid : Bytes) (s : LfsState) (n : Spec.ObjectNote) : Prop :=
  (∀ k < (components P.S.base).2.length, ∀ c, s.disk ((components P.S.base).1, (components P.S.base).2.take (k + 1)) ≠ some (.file c)) ∧ Keyed P.D s.metas ∧
  s.metas (P.D.fold oid) = n.announced.map (fun z => (oid, z)) ∧ ∀ c, s.disk (contentAt P.S oid) = some (.file c) ↔ n.sent = some c

theorem noteObject_other {P : ServerExt} {oid : Bytes} {n : Spec.ObjectNote} {r : HttpReq} {o : Outcome} (h1 : route r.method r.path r.service ≠ .batch ∨ ∀ op vs, P.J.batch r.body = some (op, vs) → op ≠ ascii "upload")
    (h2 : route r.method r.path r.service ≠ .upload oid) : Spec.noteObject P oid n (r, o) = n := by
  unfold Spec.noteObject
  split
  · rename_i e
    cases e
    split
    · rename_i e1 e2
      rcases h1 with h1 | h1
      · exact absurd e1 h1
      · rw [if_neg (h1 _ _ e2)]
    · rfl
  · rename_i e
    cases e
    rw [if_neg h2]
  · rename_i e
    cases e
    rw [if_neg h2]
  · rfl

/-- The directories above the content are never files. -/
theorem base_step {P : ServerExt} (hD : Spec.CollationOk P.D) {s : LfsState} (hk : Keyed P.D s.metas) {q : LfsReq} (hq : ∀ oid body, q = .upload oid body → Spec.RouteOid oid)
    (hb : ∀ k < (components P.S.base).2.length, ∀ c, s.disk ((components P.S.base).1, (components P.S.base).2.take (k + 1)) ≠ some (.file c)) :
    ∀ k < (components P.S.base).2.length, ∀ c, (q.run P.D P.S s).disk ((components P.S.base).1, (components P.S.base).2.take (k + 1)) ≠ some (.file c) := by
  intro k hk' c he
  rcases run_file P.D P.S s q _ c with h1 | ⟨oid', body', o', n', rfl, hm', hp', -⟩
  · exact hb k hk' c (h1.1 he)
  · have hr := hq _ _ rfl
    have hpl := hD o' oid' hr (hk _ _ _ hm')
    have := storePath_plain P.S ⟨hpl.1, hpl.2.1, hpl.2.2.1⟩ hp'
    have hl := congrArg (fun x : Bool × List Bytes => x.2.length) this
    simp only [List.length_append, List.length_take] at hl
    have hne : oidParts o' ≠ [] := by unfold oidParts; split <;> simp
    have := List.length_pos_iff.2 hne
    omega

theorem noteObject_step (P : ServerExt) (hD : Spec.CollationOk P.D) {oid : Bytes} (ho : Spec.RouteOid oid) (m : Moment) (s : ServerState) (r : HttpReq) {n : Spec.ObjectNote}
    (hn : Noted P oid s.lfs n) (hx : Spec.AnsweredAll P oid (r, (serve P m s r).1)) :
    Noted P oid (serve P m s r).2.lfs (Spec.noteObject P oid n (r, (serve P m s r).1)) := by
  obtain ⟨hb, hk, hmeta, hfile⟩ := hn
  have hpath := storePath_ascii P.S (routeOid_plain ho) (routeOid_ascii ho)
  have hs := serve_lfsOf P m s r
  cases hq : lfsOf P r with
  | none =>
    rw [hq] at hs
    have h2 : route r.method r.path r.service ≠ .upload oid := by
      intro e
      unfold lfsOf at hq
      rw [e] at hq
      cases hq
    have h1 : route r.method r.path r.service ≠ .batch ∨ ∀ op vs, P.J.batch r.body = some (op, vs) → op ≠ ascii "upload" := by
      by_cases e : route r.method r.path r.service = .batch
      · right
        intro op vs hj
        unfold lfsOf at hq
        rw [e] at hq
        simp only [hj] at hq
        cases hq
      · exact .inl e
    rw [noteObject_other h1 h2]
    simp only at hs
    rw [hs]
    exact ⟨hb, hk, hmeta, hfile⟩
  | some q =>
    rw [hq] at hs
    simp only at hs
    have hroute : ∀ oid' body, q = .upload oid' body → Spec.AsksUpload r oid' ∧ r.body = body ∧ Spec.RouteOid oid' := by
      rintro oid' body rfl
      obtain ⟨r', e, h1, h2, h3⟩ := visit_upload (v := .http r) hq
      cases e
      exact ⟨h1, h2, h3⟩
    have hb' := base_step hD hk (q := q) (fun oid' body e => (hroute oid' body e).2.2) hb
    have hk' := run_keyed P.D P.S s.lfs q hk
    refine ⟨by rw [hs]; exact hb', by rw [hs]; exact hk', ?_⟩
    rw [hs]
    cases q with
    | download o =>
      have e : route r.method r.path r.service = .download o := by
        unfold lfsOf at hq
        cases e : route r.method r.path r.service <;> rw [e] at hq <;> simp only at hq <;> (try (cases hq; done))
        · cases hq; rfl
        · cases hj : P.J.batch r.body <;> rw [hj] at hq <;> cases hq
      rw [noteObject_other (.inl (by rw [e]; exact fun h => nomatch h)) (by rw [e]; exact fun h => nomatch h)]
      simp only [LfsReq.run, downloadObject_state]
      exact ⟨hmeta, fun c => (storeNew_grown P.S s.lfs.disk).file.trans (hfile c)⟩
    | batch op vs =>
      obtain ⟨r', e, hr⟩ := visit_batch (v := .http r) hq
      cases e
      have hnu : route r.method r.path r.service ≠ .upload oid := by rw [hr.1]; exact fun h => nomatch h
      obtain ⟨hspell, hans⟩ := hx.1 op vs hr
      have hst := processBatch_state P.D P.S s.lfs op vs
      have hfind : vs.find? (fun v => decide (P.D.fold v.oid = P.D.fold oid)) = vs.find? (fun v => decide (v.oid = oid)) := by
        exact find_congr (fun v hv => by rw [decide_eq_decide]; exact ⟨hspell v hv, fun e => by rw [e]⟩)
      have he : (serve P m s r).1 = (processBatch P.D P.S s.lfs op vs).1.outcome .objects := by
        unfold serve
        rw [hr.1]
        simp only [hr.2]
      have hdisk : ∀ c, (LfsReq.run P.D P.S s.lfs (.batch op vs)).disk (contentAt P.S oid) = some (.file c) ↔ n.sent = some c := fun c => hst.1.file.trans (hfile c)
      by_cases hop : op = ascii "upload"
      · by_cases hin : ∃ v ∈ vs, v.oid = oid
        · obtain ⟨rs, hrs⟩ := hans hop hin
          have hrs' := serve_batch hr.1 hr.2 hrs
          rw [show (serve P m s r).1 = _ from hrs]
          have hnote : Spec.noteObject P oid n (r, .reply (.ok (.objects rs))) = { n with announced := n.announced.or ((vs.find? (fun v => v.oid = oid)).map (·.size)) } := by
            simp only [Spec.noteObject, hr.1, hr.2, if_pos hop]
          rw [hnote]
          refine ⟨?_, hdisk⟩
          have hl := batchLoop_after P.D P.S (storeNew P.S s.lfs.disk).1 (P.D.fold oid) vs s.lfs.metas rs (by
            have := processBatch_ok P.D P.S s.lfs op vs rs hrs'
            rw [hop] at this
            exact this)
          have hm2 : (processBatch P.D P.S s.lfs op vs).2.metas = (batchLoop P.D P.S (storeNew P.S s.lfs.disk).1 true vs s.lfs.metas).2 := by
            subst hop
            unfold processBatch at hrs' ⊢
            simp only at hrs' ⊢
            split
            · rename_i hh
              rw [if_pos hh] at hrs'
              cases hrs'
            · rfl
          show (processBatch P.D P.S s.lfs op vs).2.metas (P.D.fold oid) = _
          rw [hm2, hl, hmeta, hfind]
          cases hann : n.announced with
          | some z => rfl
          | none =>
            simp only [Option.map_none, Option.none_or, Option.map_map]
            cases hf : vs.find? (fun v => decide (v.oid = oid)) with
            | none => rfl
            | some v =>
              have := List.find?_some hf
              simp only [decide_eq_true_eq] at this
              simp [this]
        · have hnote : Spec.noteObject P oid n (r, (serve P m s r).1) = n := by
            have hnone : vs.find? (fun v => decide (v.oid = oid)) = none := by
              rw [List.find?_eq_none]
              intro v hv
              simp only [decide_eq_true_eq]
              exact fun e => hin ⟨v, hv, e⟩
            generalize (serve P m s r).1 = out
            unfold Spec.noteObject
            split
            · rename_i e
              cases e
              simp only [hr.1, hr.2, hnone, Option.map_none, Option.or_none, ite_self]
            · rename_i e
              cases e
              rw [if_neg hnu]
            · rename_i e
              cases e
              rw [if_neg hnu]
            · rfl
          rw [hnote]
          refine ⟨?_, hdisk⟩
          rcases hst.2.2 (P.D.fold oid) with e | ⟨-, v, hv, e, -⟩
          · exact e.trans hmeta
          · exact absurd ⟨v, hv, hspell v hv e⟩ hin
      · rw [noteObject_other (.inr (fun op' vs' hj => by rw [hr.2] at hj; cases hj; exact hop)) hnu]
        refine ⟨?_, hdisk⟩
        have hf : (op == ascii "upload") = false := by rw [beq_eq_false_iff_ne]; exact hop
        show (processBatch P.D P.S s.lfs op vs).2.metas (P.D.fold oid) = _
        rw [← hmeta]
        unfold processBatch
        simp only [hf]
        split
        · rfl
        · exact congrFun (batchLoop_reads P.D P.S _ vs s.lfs.metas) _
    | upload oid' body =>
      obtain ⟨hr, rfl, hro⟩ := hroute _ _ rfl
      have he := serve_upload P m s r oid' hr
      by_cases hoo : oid' = oid
      · subst hoo
        have hlen := hx.2 hr
        have htake : r.body.take P.S.maxWrite = r.body := List.take_of_length_le hlen
        have hr' : route r.method r.path r.service = .upload oid' := hr
        rcases uploadObject_cases P.D P.S s.lfs oid' r.body with ⟨e, em, hg⟩ | ⟨o, z, p, d1, hm, hnew, hp, hg, hnd, -, hd, hc⟩
        · rw [he, e]
          exact ⟨by simp only [LfsReq.run, em]; exact hmeta, fun c => hg.file.trans (hfile c)⟩
        · have hoo : o = oid' := by
            rw [hmeta] at hm
            cases ha : n.announced with
            | none => rw [ha] at hm; cases hm
            | some z' => rw [ha] at hm; cases hm; rfl
          subst hoo
          rw [hpath] at hp
          cases hp
          have hdisk : ∀ c, (LfsReq.run P.D P.S s.lfs (.upload o r.body)).disk (contentAt P.S o) = some (.file c) ↔ some r.body = some c := by
            intro c
            simp only [LfsReq.run, hd, setAt_same, htake, Option.some.injEq, Node.file.injEq]
          rcases hc with ⟨e, em, -⟩ | ⟨e, em, -⟩
          · rw [he, e]
            have hnote : Spec.noteObject P o n (r, (Reply.ok ()).outcome (fun _ => .bytes [])) = { n with sent := some r.body } := by
              simp only [Spec.noteObject, Reply.outcome, hr', if_true]
            rw [hnote]
            exact ⟨by simp only [LfsReq.run, em]; exact hmeta, hdisk⟩
          · rw [he, e]
            have hnote : Spec.noteObject P o n (r, (Reply.status 406 : Reply Unit).outcome (fun _ => .bytes [])) = { announced := none, sent := some r.body } := by
              simp only [Spec.noteObject, Reply.outcome, hr', if_true]
            rw [hnote]
            exact ⟨by simp only [LfsReq.run, em, setAt_same, Option.map_none], hdisk⟩
      · have hfold : P.D.fold oid' ≠ P.D.fold oid := fun e => hoo ((hD oid' oid ho e).2.2.2 hro)
        rw [noteObject_other (.inl (by rw [show route r.method r.path r.service = .upload oid' from hr]; exact fun h => nomatch h))
          (by rw [show route r.method r.path r.service = .upload oid' from hr]; exact fun h => hoo (by cases h; rfl))]
        refine ⟨?_, fun c => ?_⟩
        · simp only [LfsReq.run]
          rcases uploadObject_cases P.D P.S s.lfs oid' r.body with ⟨e, em, -⟩ | ⟨o, z, p, d1, -, -, -, -, -, -, -, ⟨-, em, -⟩ | ⟨-, em, -⟩⟩
          · rw [em]; exact hmeta
          · rw [em]; exact hmeta
          · rw [em, setAt_other _ _ (Ne.symm hfold)]; exact hmeta
        · rcases run_file P.D P.S s.lfs (.upload oid' r.body) (contentAt P.S oid) c with h1 | ⟨oid2, body2, o', n', e, hm', hp', -⟩
          · exact h1.trans (hfile c)
          · cases e
            have hpl := hD o' oid' hro (hk _ _ _ hm')
            have e : o' = oid := storePath_inj P.S ⟨hpl.1, hpl.2.1, hpl.2.2.1⟩ (routeOid_plain ho) hp' hpath
            subst e
            exact absurd (hk _ _ _ hm').symm hfold

theorem noted_from (P : ServerExt) (hD : Spec.CollationOk P.D) {oid : Bytes} (ho : Spec.RouteOid oid) : ∀ (h : BothHist) (s : Both) (n : Spec.ObjectNote), Noted P oid s.web.lfs n →
    (∀ x ∈ Spec.exchanges P s h, Spec.AnsweredAll P oid x) → Noted P oid (runBoth P s h).web.lfs ((Spec.exchanges P s h).foldl (Spec.noteObject P oid) n)
  | [], _, _, hn, _ => hn
  | (m, .http r) :: h, s, n, hn, hx =>
    noted_from P hD ho h (bothStep P m s (.http r)) _ (noteObject_step P hD ho m s.web r hn (hx _ (by simp [Spec.exchanges]))) (fun x hm => hx x (by simp [Spec.exchanges, hm]))
  | (m, .ssh i e) :: h, s, n, hn, hx => noted_from P hD ho h (bothStep P m s (.ssh i e)) n hn hx

theorem fresh_nofile (E : StoreExt) (q : Bool × List Bytes) (c : Bytes) : Both.empty.web.lfs.disk q ≠ some (.file c) := by
  show (if q.2 = [] then some Node.dir else none) ≠ some (.file c)
  split <;> exact fun e => nomatch e

theorem noted_run (P : ServerExt) (hD : Spec.CollationOk P.D) {oid : Bytes} (ho : Spec.RouteOid oid) (h : BothHist) (hx : ∀ x ∈ Spec.exchanges P .empty h, Spec.AnsweredAll P oid x) :
    Noted P oid (runBoth P .empty h).web.lfs (Spec.objectNote P oid (Spec.exchanges P .empty h)) := by
  refine noted_from P hD ho h .empty {} ⟨?_, fresh_keyed P.D (empty_fresh P.S), ?_, ?_⟩ hx
  · exact fun k hk c => fresh_nofile P.S _ c
  · rfl
  · exact fun c => ⟨fun e => absurd e (fresh_nofile P.S _ c), fun e => nomatch e⟩

/-- With long oids, an upload for an announced object is not answered by a crash. -/
theorem upload_answered (D : DbExt) (E : StoreExt) (hD : Spec.CollationOk D) (s0 : LfsState) (hs : Spec.FreshStore E s0) (h : List LfsReq) (hq : ∀ q ∈ h, Spec.LongOids q)
    (oid body : Bytes) (z : Int) (ho : Spec.RouteOid oid) (hm : (runLfs D E s0 h).metas (D.fold oid) = some (oid, z)) :
    (uploadObject D E (runLfs D E s0 h) oid body).1 ≠ .panic := by
  obtain ⟨hl, hsh⟩ := runLfs_shape D E hD s0 hs h hq
  generalize runLfs D E s0 h = s at *
  have hs0 : Shape E (storeNew E s.disk).1 := shape_grown hsh (storeNew_grown E s.disk) (storeNew_short E s.disk)
  have hnew := storeNew_ok hsh
  have hp := storePath_ascii E (routeOid_plain ho) (routeOid_ascii ho)
  obtain ⟨a, b, c, habc⟩ := oidParts_long (hl _ _ _ hm)
  rw [habc] at hp
  unfold uploadObject lfsGetMeta
  cases hn : storeNew E s.disk with
  | mk d ok =>
    rw [hn] at hs0 hnew
    have hnew : ok = true := hnew
    subst hnew
    simp only [Bool.not_true, Bool.false_eq_true, if_false, hm]
    have hdl : (((components E.base).2 ++ [a, b, c])).dropLast = (components E.base).2 ++ [a, b] := by
      rw [List.dropLast_append_of_ne_nil (by simp)]; rfl
    have hmk : (mkdirs (components E.base).1 d [] ((components E.base).2 ++ [a, b])).2 = true := by
      refine mkdirs_ok _ _ _ _ (fun k hk c' => ?_)
      rw [List.nil_append]
      by_cases hkl : k + 1 ≤ (components E.base).2.length
      · rw [List.take_append_of_le_length hkl]
        exact hs0.1 _ c'
      · rw [List.take_append, List.take_of_length_le (by omega)]
        exact hs0.2.1 _ (by simp) c'
    have hdir : (mkdirs (components E.base).1 d [] ((components E.base).2 ++ [a, b])).1 ((components E.base).1, (components E.base).2 ++ [a, b, c]) ≠ some .dir := by
      have hsh1 : Shape E (mkdirs (components E.base).1 d [] ((components E.base).2 ++ [a, b])).1 := by
        refine shape_grown hs0 (mkdirs_grown _ _ _ _) (fun q => ?_)
        rcases mkdirs_only (components E.base).1 ((components E.base).2 ++ [a, b]) [] d q with h | ⟨k, hk', rfl⟩
        · exact .inl h
        · refine .inr ?_
          simp only [List.nil_append, List.length_take, List.length_append, List.length_cons, List.length_nil]
          omega
      exact hsh1.2.2 _ rfl
    rcases storePut_cases E d oid z body with ⟨h1, -⟩ | ⟨p, d1, -, -, -, -, -, h2⟩
    · exfalso
      revert h1
      unfold storePut
      rw [hp]
      simp only [hdl]
      cases hmm : mkdirs (components E.base).1 d [] ((components E.base).2 ++ [a, b]) with
      | mk d1 ok =>
        rw [hmm] at hmk hdir
        have hmk : ok = true := hmk
        subst hmk
        simp only [Bool.not_true, Bool.false_eq_true, if_false]
        split
        · exact fun e => nomatch e
        · split <;> exact fun e => nomatch e
    · cases hst : storePut E d oid z body with
      | mk d' r =>
        rw [hst] at h2
        simp only at h2
        subst h2
        generalize (decide ((min body.length E.maxWrite : Nat) = z) && decide (E.digest body = oid)) = x
        cases x <;> exact fun e => nomatch e

/-! ## The theorems -/

/-- **C160 (partial)** After every history of both servers, whatever was refused, not understood or answered by a crash, requests for an object are answered with the bytes that follow from the
requests and replies about it: those that were sent last, if its announcement is valid. If it is not, or if nothing was sent, they are answered by a crash. (Missing: announcements that were
not answered, `C160_crash_false`; other spellings of the oid; uploads longer than one write.) -/
theorem C160_download_partial (P : ServerExt) (hD : Spec.CollationOk P.D) (oid : Bytes) (h : BothHist) (hx : ∀ x ∈ Spec.exchanges P .empty h, Spec.AnsweredAll P oid x)
    (m : Moment) (r : HttpReq) (hr : Spec.AsksObject r oid) :
    (serve P m (runBoth P .empty h).web r).1 =
      match Spec.objectNote P oid (Spec.exchanges P .empty h) with
      | { announced := some _, sent := some c } => .reply (.ok (.bytes c))
      | _ => .reply .panic := by
  have ho := object_route hr
  obtain ⟨hb, hk, hmeta, hfile⟩ := noted_run P hD ho h hx
  have hpath := storePath_ascii P.S (routeOid_plain ho) (routeOid_ascii ho)
  rw [serve_object P m _ r oid hr]
  generalize Spec.objectNote P oid (Spec.exchanges P .empty h) = n at *
  generalize (runBoth P .empty h).web.lfs = s at *
  have hnew : (storeNew P.S s.disk).2 = true := mkdirs_ok _ _ _ _ (fun k hk' c => by rw [List.nil_append]; exact hb k hk' c)
  have hno : (∀ c, (downloadObject P.D P.S s oid).1 ≠ .ok c) → (downloadObject P.D P.S s oid).1 = .panic := by
    intro hne
    unfold downloadObject at hne ⊢
    simp only [hnew, Bool.not_true, Bool.false_eq_true, if_false] at hne ⊢
    split
    · rfl
    · rename_i row hrow
      simp only [hrow] at hne
      cases hg : storeGet P.S (storeNew P.S s.disk).1 row.1 with
      | ok c => rw [hg] at hne; exact absurd rfl (hne c)
      | _ => rfl
  obtain ⟨ann, sent⟩ := n
  cases ann with
  | none =>
    rw [hno]
    · cases sent <;> rfl
    · intro c hc
      obtain ⟨o, z, p, h1, -⟩ := downloadObject_ok_inv P.D P.S s oid c hc
      rw [hmeta] at h1
      cases h1
  | some z =>
    cases sent with
    | some c =>
      rw [downloadObject_ok P.D P.S s oid oid z _ c hnew hmeta hpath ((hfile c).2 rfl)]
      rfl
    | none =>
      rw [hno]
      · rfl
      · intro c hc
        obtain ⟨o, z', p, h1, h2, h3⟩ := downloadObject_ok_inv P.D P.S s oid c hc
        rw [hmeta] at h1
        cases h1
        rw [hpath] at h2
        cases h2
        cases (hfile c).1 h3

/-- **C160 (partial)**, uploads: after every history of both servers in which only oids of at least five characters were named, an upload for an oid is accepted exactly if its announcement is valid,
gave the size of these bytes, and the oid is their SHA-256; with a valid announcement it is otherwise refused with 406; without one it is answered by a crash. (Missing: as in
`C160_download_partial`; shorter oids, `C68_short_oid_false`.) -/
theorem C160_upload_partial (P : ServerExt) (hD : Spec.CollationOk P.D) (oid : Bytes) (ho : Spec.RouteOid oid) (h : BothHist) (hl : Spec.LongNames P h)
    (hx : ∀ x ∈ Spec.exchanges P .empty h, Spec.AnsweredAll P oid x) (m : Moment) (r : HttpReq) (hr : Spec.AsksUpload r oid) (hlen : r.body.length ≤ P.S.maxWrite) :
    (serve P m (runBoth P .empty h).web r).1 =
      match (Spec.objectNote P oid (Spec.exchanges P .empty h)).announced with
      | some z => if z = r.body.length ∧ P.S.digest r.body = oid then .reply (.ok (.bytes [])) else .reply (.status 406)
      | none => .reply .panic := by
  obtain ⟨hb, hk, hmeta, hfile⟩ := noted_run P hD ho h hx
  rw [serve_upload P m _ r oid hr]
  generalize Spec.objectNote P oid (Spec.exchanges P .empty h) = n at *
  cases ha : n.announced with
  | none =>
    rw [ha] at hmeta
    rcases uploadObject_cases P.D P.S (runBoth P .empty h).web.lfs oid r.body with ⟨e, -⟩ | ⟨o, z, p, d1, hm, -⟩
    · rw [e]; rfl
    · rw [hmeta] at hm; cases hm
  | some z =>
    rw [ha] at hmeta
    simp only
    have hmin : min r.body.length P.S.maxWrite = r.body.length := Nat.min_eq_left hlen
    have hno : (uploadObject P.D P.S (runBoth P .empty h).web.lfs oid r.body).1 ≠ .panic := by
      rw [both_lfs] at hmeta ⊢
      exact upload_answered P.D P.S hD _ (empty_fresh P.S) _ (longNames_lfs hl) oid r.body z ho hmeta
    rcases uploadObject_cases P.D P.S (runBoth P .empty h).web.lfs oid r.body with ⟨e, -⟩ | ⟨o, z', p, d1, hm, -, -, -, -, -, -, hc⟩
    · exact absurd e hno
    · rw [hmeta] at hm
      cases hm
      rw [hmin] at hc
      rcases hc with ⟨e, -, h1, h2⟩ | ⟨e, -, h1⟩
      · rw [e, if_pos ⟨h1.symm, h2⟩]; rfl
      · rw [e, if_neg (fun hh => h1 ⟨hh.1.symm, hh.2⟩)]; rfl

/-- A server on the tables of the dump, and a batch request that announces the object of `rightOid` and then another one of 3 GiB. -/
def twoServer : ServerExt :=
  { dumpServer with J := { demoJson with batch := fun b => if b = ascii "both" then some (ascii "upload", [{ oid := rightOid, size := 5 }, { oid := demoStore.digest (ascii "big"), size := 3 * 2 ^ 30 }]) else demoJson.batch b } }

/-- An object is announced, wrong bytes are uploaded (406), and it is announced again together with one that is too big for the database, which is answered by a crash. -/
def twoHistory : BothHist :=
  [(demoMoment, .http (batchReq rightOid)), (demoMoment, .http (objectReq .put rightOid (ascii "wrong"))), (demoMoment, .http (batchReq (ascii "both")))]

/-- **C160 is false** when an announcement is answered by a crash: it may count all the same. By the replies, the announcement of the object is not valid (its only valid one was followed by a
refused upload); and still it can be downloaded. -/
theorem C160_crash_false : ∃ (P : ServerExt) (h : BothHist) (m : Moment) (r : HttpReq) (oid c : Bytes), Spec.AsksObject r oid ∧
    (Spec.objectNote P oid (Spec.exchanges P .empty h)).announced = none ∧ (serve P m (runBoth P .empty h).web r).1 = .reply (.ok (.bytes c)) :=
  ⟨twoServer, twoHistory, demoMoment, objectReq .get rightOid [], rightOid, ascii "wrong", by unfold Spec.AsksObject; decide +kernel, by decide +kernel, by decide +kernel⟩

/-! ## Examples -/

/-- An object is announced, wrong bytes are uploaded (406), somebody connects over SSH and a file is locked. -/
def refusedOnce : BothHist :=
  [(demoMoment, .http (batchReq rightOid)), (demoMoment, .http (objectReq .put rightOid (ascii "wrong"))), (demoMoment, .ssh 3 (.exec 0 (ascii "git-upload-pack '/app.git'"))),
    (demoMoment, .http (lockReq (ascii "big.psd")))]

/-- It is announced again and uploaded. -/
def thenRight : BothHist := refusedOnce ++ [(demoMoment, .http (batchReq rightOid)), (demoMoment, .http (objectReq .put rightOid (ascii "right")))]

/-- A check of one exchange. -/
def checkExchange (x : HttpReq × Outcome) : Bool :=
  decide (route x.1.method x.1.path x.1.service = .batch → x.1.body = rightOid ∧ (match x.2 with | .reply (.ok (.objects _)) => true | _ => false) = true) && decide (x.1.body.length ≤ demoStore.maxWrite)

theorem orderly_demo {l : List (HttpReq × Outcome)} (h : l.all checkExchange = true) : ∀ x ∈ l, Spec.AnsweredAll lowerServer rightOid x := by
  intro x hx
  have h1 := List.all_eq_true.1 h x hx
  simp only [checkExchange, Bool.and_eq_true, decide_eq_true_eq] at h1
  refine ⟨fun op vs hb => ?_, fun _ => h1.2⟩
  obtain ⟨e, h2⟩ := h1.1 hb.1
  have h3 : demoJson.batch x.1.body = some (op, vs) := hb.2
  rw [e] at h3
  have h4 : (op, vs) = (ascii "upload", [{ oid := rightOid, size := 5 }]) := by
    have : demoJson.batch rightOid = some (ascii "upload", [{ oid := rightOid, size := 5 }]) := by
      show (if rightOid = [] then none else some (ascii "upload", [({ oid := rightOid, size := 5 } : RequestVars)])) = _
      exact if_neg (by decide +kernel)
    exact Option.some.inj (h3.symm.trans this)
  cases h4
  refine ⟨fun v hv _ => by rw [List.mem_singleton.1 hv], fun _ _ => ?_⟩
  split at h2
  · exact ⟨_, ‹_›⟩
  · cases h2

/-- C160: after the refused upload the object cannot be downloaded, and uploads are not accepted. -/
example : (serve lowerServer demoMoment (runBoth lowerServer .empty refusedOnce).web (objectReq .get rightOid [])).1 = .reply .panic ∧
    (serve lowerServer demoMoment (runBoth lowerServer .empty refusedOnce).web (objectReq .put rightOid (ascii "right"))).1 = .reply .panic := by
  have hx := orderly_demo (l := Spec.exchanges lowerServer .empty refusedOnce) (by decide +kernel)
  have hl : Spec.LongNames lowerServer refusedOnce := by
    intro p hp r op vs e hb
    refine demo_long ?_ hb
    simp only [refusedOnce, List.mem_cons, List.not_mem_nil, or_false] at hp
    rcases hp with rfl | rfl | rfl | rfl <;> cases e <;> decide +kernel
  have e : Spec.objectNote lowerServer rightOid (Spec.exchanges lowerServer .empty refusedOnce) = { announced := none, sent := some (ascii "wrong") } := by rfl
  have h1 := C160_download_partial lowerServer lowerDb_ok rightOid refusedOnce hx demoMoment (objectReq .get rightOid []) (by unfold Spec.AsksObject; decide +kernel)
  have h2 := C160_upload_partial lowerServer lowerDb_ok rightOid rightOid_accepted refusedOnce hl hx demoMoment (objectReq .put rightOid (ascii "right")) (by unfold Spec.AsksUpload; decide +kernel)
    (by decide +kernel)
  rw [e] at h1 h2
  exact ⟨h1, h2⟩

/-- C160: after it was announced again and the right bytes were uploaded, these are downloaded. -/
example : (serve lowerServer demoMoment (runBoth lowerServer .empty thenRight).web (objectReq .get rightOid [])).1 = .reply (.ok (.bytes (ascii "right"))) := by
  have hx := orderly_demo (l := Spec.exchanges lowerServer .empty thenRight) (by decide +kernel)
  have e : Spec.objectNote lowerServer rightOid (Spec.exchanges lowerServer .empty thenRight) = { announced := some 5, sent := some (ascii "right") } := by rfl
  have h1 := C160_download_partial lowerServer lowerDb_ok rightOid thenRight hx demoMoment (objectReq .get rightOid []) (by unfold Spec.AsksObject; decide +kernel)
  rw [e] at h1
  exact h1

end Gust

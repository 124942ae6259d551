import Verif.Props.BatchServed
import Verif.Props.LockRoom
import Verif.Base.Tactics

/-! # C69 and C120 for whole histories of requests

Statements in terms of HTTP requests and their replies, after any history of requests and messages to the two servers. -/

namespace Gust

/-! ## C69 -/

/-- New servers on a machine that has these files. -/
def Both.onDisk (d : Disk) : Both := { Both.empty with web := { ServerState.empty with lfs := ⟨fun _ => none, d⟩ } }

/-- If this is a batch request, it names only oids that the object routes accept. -/
def Spec.NamesRouted (P : ServerExt) (r : HttpReq) : Prop := ∀ op vs, Spec.AsksBatch P r op vs → ∀ v ∈ vs, Spec.RouteOid v.oid

theorem namesRouted_lfs {P : ServerExt} {r : HttpReq} (h : Spec.NamesRouted P r) {q : LfsReq} (e : lfsOf P r = some q) : Spec.Routed q := by
  unfold lfsOf at e
  cases e' : route r.method r.path r.service <;> rw [e'] at e <;> simp only at e <;> (try (cases e; done))
  · cases e; exact object_route e'
  · cases hb : P.J.batch r.body with
    | none => rw [hb] at e; cases e
    | some x => rw [hb] at e; cases e; exact h _ _ ⟨e', hb⟩
  · cases e; exact upload_route e'

/-- All but the LFS part of the state does not depend on the LFS part. -/
theorem runBoth_rest (P : ServerExt) : ∀ (h : BothHist) (s t : Both), s.web.db = t.web.db → s.web.locks = t.web.locks → s.link = t.link →
    (runBoth P s h).web.db = (runBoth P t h).web.db ∧ (runBoth P s h).web.locks = (runBoth P t h).web.locks ∧ (runBoth P s h).link = (runBoth P t h).link
  | [], _, _, h1, h2, h3 => ⟨h1, h2, h3⟩
  | (m, v) :: h, s, t, h1, h2, h3 => by
    rw [runBoth_cons, runBoth_cons]
    cases v with
    | http r => exact runBoth_rest P h _ _ (serve_db_congr h1) (serve_locks_congr h2) h3
    | ssh i e =>
      have hs : s.ssh = t.ssh := by simp only [Both.ssh, h1, h3]
      exact runBoth_rest P h _ _ (by simp only [bothStep, hs]) h2 (by simp only [bothStep, hs])

/-- The reply to a request, when the LFS part gives the same reply. -/
theorem serve_reply_congr {P : ServerExt} {m : Moment} {s t : ServerState} {r : HttpReq} (h1 : s.db = t.db) (h2 : s.locks = t.locks)
    (h3 : ∀ q, lfsOf P r = some q → q.reply P.D P.S s.lfs = q.reply P.D P.S t.lfs) : (serve P m s r).1 = (serve P m t r).1 := by
  unfold lfsOf at h3
  unfold serve
  cases e : route r.method r.path r.service with
  | download oid =>
    rw [e] at h3
    have := h3 _ rfl
    simp only [LfsReq.reply, Prod.mk.injEq] at this
    simp only [this.2.2]
  | batch =>
    rw [e] at h3
    cases hb : P.J.batch r.body with
    | none => rfl
    | some x =>
      rw [hb] at h3
      have := h3 _ rfl
      simp only [LfsReq.reply, Prod.mk.injEq] at this
      simp only [this.1]
  | upload oid =>
    rw [e] at h3
    have := h3 _ rfl
    simp only [LfsReq.reply, Prod.mk.injEq] at this
    simp only [this.2.1]
  | verifyLocks => simp only [h2]; split <;> rfl
  | createLock => simp only [h2]; split <;> rfl
  | deleteLock id =>
    simp only [h2]
    split
    · rfl
    · split <;> rfl
  | _ => simp only [h1, h2]

/-- **C69** Two machines that have the same files in the content directory and are arbitrarily different elsewhere: after every history of the two servers in which
batch requests name only oids that the object routes accept, every such request and every SSH message is answered in the same way on both; and nothing
outside the content directory, and the directories above it, has changed. (Missing: other oids in batch requests, for which it is false, `C69_served_false`.) -/
theorem C69_served_partial (P : ServerExt) (hD : Spec.CollationOk P.D) (d d' : Disk) (hd : Spec.Agree P.S d d') (h : BothHist)
    (hh : ∀ p ∈ h, ∀ r, p.2 = .http r → Spec.NamesRouted P r) :
    (∀ m r, Spec.NamesRouted P r → (serve P m (runBoth P (.onDisk d) h).web r).1 = (serve P m (runBoth P (.onDisk d') h).web r).1) ∧
    (∀ m i e, (sshStep P.X m (runBoth P (.onDisk d) h).ssh i e).1 = (sshStep P.X m (runBoth P (.onDisk d') h).ssh i e).1) ∧
    ∀ q, ¬ Spec.Inside P.S q → (runBoth P (.onDisk d) h).web.lfs.disk q = d q := by
  have hq : ∀ q ∈ h.filterMap (fun p => visitLfs P p.2), Spec.Routed q := by
    intro q hq
    obtain ⟨p, hp, e⟩ := List.mem_filterMap.1 hq
    cases hv : p.2 with
    | ssh i e' => rw [hv] at e; cases e
    | http r => rw [hv] at e; exact namesRouted_lfs (hh p hp r hv) e
  obtain ⟨h1, h2, h3⟩ := runBoth_rest P h (.onDisk d) (.onDisk d') rfl rfl rfl
  obtain ⟨k1, k2⟩ := C69_confined_partial P.D P.S hD d d' hd _ hq
  refine ⟨fun m r hr => serve_reply_congr h1 h2 fun q e => ?_, fun m i e => ?_, ?_⟩
  · rw [both_lfs, both_lfs]
    exact k1 q (namesRouted_lfs hr e)
  · have : (runBoth P (.onDisk d) h).ssh = (runBoth P (.onDisk d') h).ssh := by simp only [Both.ssh, h1, h3]
    rw [this]
  · rw [both_lfs]
    exact k2

/-! ## C120 -/

/-- Every batch request that names the object says that it has 2 GiB or more. -/
def Spec.AnnouncedBig (P : ServerExt) (oid : Bytes) (r : HttpReq) : Prop :=
  ∀ op vs, Spec.AsksBatch P r op vs → ∀ v ∈ vs, P.D.fold v.oid = P.D.fold oid → 2 ^ 31 ≤ v.size

theorem batchOne_big {D : DbExt} (hD : Spec.DumpLimits D) (E : StoreExt) (d : Disk) (m : MetaTable) (up : Bool) (v : RequestVars) {oid : Bytes}
    (hm : m (D.fold oid) = none) (hv : D.fold v.oid = D.fold oid → 2 ^ 31 ≤ v.size) :
    (batchOne D E d m up v).2 (D.fold oid) = none ∧ (D.fold v.oid = D.fold oid → up = true → (batchOne D E d m up v).1 = .panic) := by
  have put : ∀ row m', lfsPutMeta D m v.oid v.size = some (row, m') → m' (D.fold oid) = none ∧ D.fold v.oid ≠ D.fold oid := by
    intro row m' e
    unfold lfsPutMeta at e
    cases hr : m (D.fold v.oid) with
    | some row' =>
      rw [hr] at e
      cases e
      exact ⟨hm, fun e => by rw [e, hm] at hr; cases hr⟩
    | none =>
      rw [hr] at e
      simp only at e
      split at e
      · rename_i hf
        cases e
        have hne : D.fold v.oid ≠ D.fold oid := fun e => by
          have h1 := hv e
          have h2 := hD.metas _ _ hf
          omega
        exact ⟨by rw [setAt_other _ _ (fun e => hne e.symm)]; exact hm, hne⟩
      · cases e
  have hput : ∀ x : Res Rep × MetaTable, x = (if up then
      match lfsPutMeta D m v.oid v.size with
      | some (row, m') => (.ok { oid := row.1, size := row.2, offer := .upload (internalLink E.origin v) }, m')
      | none => (.panic, m)
    else (.ok { oid := v.oid, size := v.size, offer := .error 404 }, m)) →
      x.2 (D.fold oid) = none ∧ (D.fold v.oid = D.fold oid → up = true → x.1 = .panic) := by
    rintro x rfl
    cases up with
    | false => exact ⟨hm, fun _ e => nomatch e⟩
    | true =>
      rw [if_pos rfl]
      cases e : lfsPutMeta D m v.oid v.size with
      | none => exact ⟨hm, fun _ _ => rfl⟩
      | some x => obtain ⟨row, m'⟩ := x; exact ⟨(put row m' e).1, fun e' => absurd e' (put row m' e).2⟩
  unfold batchOne lfsGetMeta
  cases e : m (D.fold v.oid) with
  | none => exact hput _ rfl
  | some row =>
    have hne : D.fold v.oid ≠ D.fold oid := fun e' => by rw [e', hm] at e; cases e
    simp only
    split
    · exact ⟨hm, fun e' => absurd e' hne⟩
    · exact hput _ rfl
    · exact ⟨hm, fun e' => absurd e' hne⟩

theorem batchLoop_big {D : DbExt} (hD : Spec.DumpLimits D) (E : StoreExt) (d : Disk) (up : Bool) {oid : Bytes} : ∀ (vs : List RequestVars) (m : MetaTable),
    m (D.fold oid) = none → (∀ v ∈ vs, D.fold v.oid = D.fold oid → 2 ^ 31 ≤ v.size) →
    (batchLoop D E d up vs m).2 (D.fold oid) = none ∧ ((∃ v ∈ vs, D.fold v.oid = D.fold oid) → up = true → (batchLoop D E d up vs m).1 = .panic)
  | [], m, hm, _ => ⟨hm, fun ⟨_, h, _⟩ => nomatch h⟩
  | v :: vs, m, hm, hv => by
    obtain ⟨h1, h2⟩ := batchOne_big hD E d m up v hm (hv v List.mem_cons_self)
    rw [batchLoop]
    generalize e : batchOne D E d m up v = x at h1 h2
    obtain ⟨r, m1⟩ := x
    cases r with
    | ok r =>
      obtain ⟨h3, h4⟩ := batchLoop_big hD E d up vs m1 h1 (fun w hw => hv w (List.mem_cons_of_mem _ hw))
      simp only
      generalize batchLoop D E d up vs m1 = y at h3 h4
      obtain ⟨rs, m2⟩ := y
      have key : (∃ w ∈ v :: vs, D.fold w.oid = D.fold oid) → up = true → rs = .panic := by
        rintro ⟨w, hw, hf⟩ hup
        rcases List.mem_cons.1 hw with rfl | hw
        · cases h2 hf hup
        · exact h4 ⟨w, hw, hf⟩ hup
      cases rs with
      | ok rs => exact ⟨h3, fun hx hup => by cases key hx hup⟩
      | _ => exact ⟨h3, fun _ _ => rfl⟩
    | _ => exact ⟨h1, fun _ _ => rfl⟩

theorem run_big {D : DbExt} (hD : Spec.DumpLimits D) (E : StoreExt) {oid : Bytes} (s : LfsState) (q : LfsReq) (hs : s.metas (D.fold oid) = none)
    (hq : Spec.BigObject D oid q) : (q.run D E s).metas (D.fold oid) = none := by
  cases q with
  | batch op vs =>
    show (processBatch D E s op vs).2.metas _ = none
    unfold processBatch
    simp only
    split
    · exact hs
    · exact (batchLoop_big hD E _ _ vs s.metas hs (hq op vs rfl)).1
  | upload o b =>
    show (uploadObject D E s o b).2.metas _ = none
    unfold uploadObject
    simp only
    split
    · exact hs
    · split
      · exact hs
      · split
        · exact hs
        · show setAt s.metas (D.fold o) none (D.fold oid) = none
          unfold setAt
          split
          · rfl
          · exact hs
        · exact hs
  | download o =>
    show (downloadObject D E s o).2.metas _ = none
    unfold downloadObject
    simp only
    repeat' split
    all_goals exact hs

theorem served_big (P : ServerExt) (hD : Spec.DumpLimits P.D) (oid : Bytes) (h : BothHist)
    (hh : ∀ p ∈ h, ∀ r, p.2 = .http r → Spec.AnnouncedBig P oid r) : (runBoth P .empty h).web.lfs.metas (P.D.fold oid) = none := by
  rw [both_lfs]
  have hq : ∀ q ∈ h.filterMap (fun p => visitLfs P p.2), Spec.BigObject P.D oid q := by
    intro q hq op vs e
    subst e
    obtain ⟨p, hp, e⟩ := List.mem_filterMap.1 hq
    obtain ⟨r, h1, h2⟩ := visit_batch e
    exact hh p hp r h1 op vs h2
  generalize h.filterMap (fun p => visitLfs P p.2) = qs at hq
  suffices ∀ (qs : List LfsReq) (s : LfsState), s.metas (P.D.fold oid) = none → (∀ q ∈ qs, Spec.BigObject P.D oid q) →
      (runLfs P.D P.S s qs).metas (P.D.fold oid) = none from this qs _ rfl hq
  intro qs
  induction qs with
  | nil => exact fun s hs _ => hs
  | cons q qs ih =>
    exact fun s hs hq => ih _ (run_big hD P.S s q hs (hq q List.mem_cons_self)) (fun q' h' => hq q' (List.mem_cons_of_mem _ h'))

/-- **C120 is false**: with the tables of the dump, after every history of the two servers in which whoever announced the object said that it has 2 GiB or more: an announcement that
says so is not answered, whatever other objects it names, and neither are uploads of the object nor requests for it. -/
theorem C120_served_false (P : ServerExt) (hD : Spec.DumpLimits P.D) (oid : Bytes) (h : BothHist)
    (hh : ∀ p ∈ h, ∀ r, p.2 = .http r → Spec.AnnouncedBig P oid r) (m : Moment) (r : HttpReq) :
    (∀ vs, Spec.AsksBatch P r (ascii "upload") vs → Spec.AnnouncedBig P oid r → (∃ v ∈ vs, v.oid = oid) →
      (serve P m (runBoth P .empty h).web r).1 = .reply .panic) ∧
    (Spec.AsksUpload r oid ∨ Spec.AsksObject r oid → (serve P m (runBoth P .empty h).web r).1 = .reply .panic) := by
  have hn := served_big P hD oid h hh
  refine ⟨?_, ?_⟩
  · rintro vs hr hb ⟨v, hv, rfl⟩
    unfold serve
    rw [hr.1]
    simp only [hr.2]
    unfold processBatch
    simp only
    split
    · rfl
    · have := (batchLoop_big hD P.S (storeNew P.S (runBoth P .empty h).web.lfs.disk).1 (ascii "upload" == ascii "upload") vs _ hn (hb _ _ hr)).2
        ⟨v, hv, rfl⟩ (beq_self_eq_true _)
      rw [this]
      rfl
  · rintro (hr | hr)
    · rw [serve_upload P m _ r oid hr]
      unfold uploadObject lfsGetMeta
      rw [hn]
      simp only
      split <;> rfl
    · rw [serve_object P m _ r oid hr]
      unfold downloadObject lfsGetMeta
      rw [hn]
      simp only
      split <;> rfl

theorem batchLoop_fits {D : DbExt} (E : StoreExt) (d : Disk) (up : Bool) : ∀ (vs : List RequestVars) (m : MetaTable), Keyed D m →
    (∀ v ∈ vs, D.metaFits v.oid v.size = true ∧ ∀ o, D.fold o = D.fold v.oid → ∃ p, storePath E o = .ok p) →
    ∃ rs m', batchLoop D E d up vs m = (.ok rs, m') ∧ rs.length = vs.length
  | [], m, _, _ => ⟨[], m, rfl, rfl⟩
  | v :: vs, m, hk, hv => by
    obtain ⟨hf, hp⟩ := hv v List.mem_cons_self
    have put : ∃ row m', lfsPutMeta D m v.oid v.size = some (row, m') ∧ Keyed D m' := by
      unfold lfsPutMeta
      cases e : m (D.fold v.oid) with
      | some row => exact ⟨row, m, rfl, hk⟩
      | none =>
        refine ⟨(v.oid, v.size), setAt m (D.fold v.oid) (some (v.oid, v.size)), by simp only [hf, if_true], ?_⟩
        intro k o n e'
        unfold setAt at e'
        split at e'
        · rename_i h; cases e'; exact h.symm
        · exact hk k o n e'
    obtain ⟨row, m1, e1, hk1⟩ := put
    have one : ∃ r m', batchOne D E d m up v = (.ok r, m') ∧ Keyed D m' := by
      have hput : ∃ r m', (if up then
          match lfsPutMeta D m v.oid v.size with
          | some (row, m') => (.ok { oid := row.1, size := row.2, offer := .upload (internalLink E.origin v) }, m')
          | none => (.panic, m)
        else (.ok { oid := v.oid, size := v.size, offer := .error 404 }, m) : Res Rep × MetaTable) = (.ok r, m') ∧ Keyed D m' := by
        cases up with
        | false => exact ⟨_, _, rfl, hk⟩
        | true => rw [if_pos rfl, e1]; exact ⟨_, _, rfl, hk1⟩
      unfold batchOne lfsGetMeta
      cases e : m (D.fold v.oid) with
      | none => exact hput
      | some row =>
        obtain ⟨o, n⟩ := row
        obtain ⟨p, hp⟩ := hp o (hk _ _ _ e)
        have hex : storeExist E d o = .ok (d p).isSome := by unfold storeExist; rw [hp]; rfl
        simp only [hex]
        cases (d p).isSome with
        | true => exact ⟨_, _, rfl, hk⟩
        | false => exact hput
    obtain ⟨r, m2, e2, hk2⟩ := one
    obtain ⟨rs, m3, e3, hlen⟩ := batchLoop_fits E d up vs m2 hk2 (fun w hw => hv w (List.mem_cons_of_mem _ hw))
    exact ⟨r :: rs, m3, by rw [batchLoop, e2]; simp only [e3], by simp [hlen]⟩

/-- **C120** With the tables of the dump and a database that does not fail otherwise, after every history of the two servers in which only oids of at least five characters
were named: every batch request for objects of less than 2 GiB, with names of at most 100 characters, is answered with one entry per object. What the entries offer is C47,
and that the upload then works is C74. (Missing: bigger objects, `C120_served_false`; requests that overlap in time, `C120_announced_partial`. Assumed: names that the
database takes for the same are not cut inside a character.) -/
theorem C120_served_partial (P : ServerExt) (hD : Spec.CollationOk P.D) (hL : Spec.DumpLimitsOnly P.D) (h : BothHist) (hl : Spec.LongNames P h) (m : Moment)
    (r : HttpReq) (op : Bytes) (vs : List RequestVars) (hr : Spec.AsksBatch P r op vs)
    (hv : ∀ v ∈ vs, 0 ≤ v.size ∧ v.size < 2 ^ 31 ∧ chars v.oid ≤ 100 ∧ ∀ o, P.D.fold o = P.D.fold v.oid → ∃ p, storePath P.S o = .ok p) :
    ∃ rs, (serve P m (runBoth P .empty h).web r).1 = .reply (.ok (.objects rs)) ∧ rs.length = vs.length := by
  have hshape : Shape P.S (runBoth P .empty h).web.lfs.disk := by
    rw [both_lfs]
    exact (runLfs_shape P.D P.S hD _ (empty_fresh P.S) _ (longNames_lfs hl)).2
  obtain ⟨rs, m', e, hlen⟩ := batchLoop_fits (D := P.D) P.S (storeNew P.S (runBoth P .empty h).web.lfs.disk).1 (op == ascii "upload") vs _ (both_keyed P h)
    (fun v hm => by
      obtain ⟨h1, h2, h3, h4⟩ := hv v hm
      exact ⟨hL.metas_ok _ _ h3 (by omega) h2, h4⟩)
  refine ⟨rs, ?_, hlen⟩
  unfold serve
  rw [hr.1]
  simp only [hr.2]
  unfold processBatch
  simp only [storeNew_ok hshape, Bool.not_true, Bool.false_eq_true, if_false, e]
  rfl

/-! ## Concrete runs -/

/-- A disk without files, and one with a secret outside the content directory. -/
def plainDisk : Disk := fun _ => none
def secretDisk : Disk := setAt (fun _ => none) (true, [ascii "etc", ascii "passwd"]) (some (.file (ascii "secret")))

theorem secret_agree : Spec.Agree demoStore plainDisk secretDisk := by
  intro q hq
  unfold plainDisk secretDisk
  rw [setAt_other]
  rintro rfl
  have hc : components demoStore.base = (false, [ascii "lfs"]) := by decide +kernel
  rcases hq with hq | ⟨tl, -, hq⟩
  · have := hq.1
    rw [hc] at this
    cases this
  · rw [hc] at hq
    cases hq

/-- **C69 is false** in general: a client announces an object called `abcd/etc/passwd`, twice; the second reply tells whether the server has a file `/etc/passwd`. -/
theorem C69_served_false : ∃ (P : ServerExt) (d d' : Disk) (m : Moment) (r : HttpReq) (l l' : Bytes), Spec.CollationOk P.D ∧ Spec.Agree P.S d d' ∧
    (serve P m (runBoth P (.onDisk d) [(m, .http r)]).web r).1 = .reply (.ok (.objects [{ oid := ascii "abcd/etc/passwd", size := 5, offer := .upload l }])) ∧
    (serve P m (runBoth P (.onDisk d') [(m, .http r)]).web r).1 = .reply (.ok (.objects [{ oid := ascii "abcd/etc/passwd", size := 5, offer := .download l' }])) :=
  ⟨lowerServer, plainDisk, secretDisk, demoMoment, batchReq (ascii "abcd/etc/passwd"), ascii "http://host/objects/abcd/etc/passwd",
    ascii "http://host/objects/abcd/etc/passwd", lowerDb_ok, secret_agree, by decide +kernel, by decide +kernel⟩

theorem demo_routed {r : HttpReq} (hb : Spec.RouteOid r.body ∨ route r.method r.path r.service ≠ .batch) : Spec.NamesRouted lowerServer r := by
  intro op vs h
  rcases hb with hb | hb
  · have h2 : demoJson.batch r.body = some (op, vs) := h.2
    simp only [demoJson] at h2
    split at h2
    · cases h2
    · cases h2
      intro v hv
      rw [List.mem_singleton.1 hv]
      exact hb
  · exact absurd h.1 hb

/-- C69 at work: an object is announced and uploaded, somebody connects over SSH, a file is locked; then a client asks for the object. -/
example : (serve lowerServer demoMoment (runBoth lowerServer (.onDisk plainDisk) objectStored).web (objectReq .get rightOid [])).1 =
      (serve lowerServer demoMoment (runBoth lowerServer (.onDisk secretDisk) objectStored).web (objectReq .get rightOid [])).1 ∧
    (serve lowerServer demoMoment (runBoth lowerServer (.onDisk secretDisk) objectStored).web (objectReq .get rightOid [])).1 = .reply (.ok (.bytes (ascii "right"))) := by
  refine ⟨(C69_served_partial lowerServer lowerDb_ok _ _ secret_agree objectStored ?_).1 demoMoment _ (demo_routed (.inr (by decide +kernel))), by decide +kernel⟩
  intro p hp r e
  simp only [objectStored, List.mem_cons, List.not_mem_nil, or_false] at hp
  rcases hp with rfl | rfl | rfl | rfl
  · cases e; exact demo_routed (.inl rightOid_accepted)
  · cases e; exact demo_routed (.inr (by decide +kernel))
  · cases e
  · cases e; exact demo_routed (.inr (by decide +kernel))

/-- The server with the tables of the dump; its clients announce files of 3 GiB. -/
def bigServer : ServerExt :=
  { dumpServer with J := { demoJson with batch := fun b => if b = [] then none else some (ascii "upload", [{ oid := b, size := 3 * 2 ^ 30 }]) } }

theorem bigServer_big (oid : Bytes) (r : HttpReq) : Spec.AnnouncedBig bigServer oid r := by
  intro op vs h v hv _
  have h2 : (if r.body = [] then none else some (ascii "upload", [({ oid := r.body, size := 3 * 2 ^ 30 } : RequestVars)])) = some (op, vs) := h.2
  split at h2
  · cases h2
  · cases h2
    rw [List.mem_singleton.1 hv]
    show (2 ^ 31 : Int) ≤ 3 * 2 ^ 30
    decide

/-- C120: whatever happened before, the announcement of a file of 3 GiB is not answered, and neither is its upload. -/
example (h : BothHist) (body : Bytes) : (serve bigServer demoMoment (runBoth bigServer .empty h).web (batchReq rightOid)).1 = .reply .panic ∧
    (serve bigServer demoMoment (runBoth bigServer .empty h).web (objectReq .put rightOid body)).1 = .reply .panic :=
  ⟨(C120_served_false bigServer dumpDb_limits.toDumpLimits rightOid h (fun _ _ r _ => bigServer_big _ r) _ _).1 [{ oid := rightOid, size := 3 * 2 ^ 30 }]
      ⟨show route .post (ascii "/org/objects/batch") none = .batch by decide +kernel,
        show (if rightOid = [] then none else some (ascii "upload", [({ oid := rightOid, size := 3 * 2 ^ 30 } : RequestVars)])) = _ from if_neg (by decide +kernel)⟩
      (bigServer_big _ _) ⟨_, List.mem_singleton.2 rfl, rfl⟩,
    (C120_served_false bigServer dumpDb_limits.toDumpLimits rightOid h (fun _ _ r _ => bigServer_big _ r) _ _).2
      (.inl (show route .put (ascii "/org/objects/" ++ rightOid) none = .upload rightOid by decide +kernel))⟩

/-- A file of 5 bytes is announced on the server with the tables of the dump. -/
example : ∃ rs, (serve dumpServer demoMoment (runBoth dumpServer .empty objectStored).web (batchReq rightOid)).1 = .reply (.ok (.objects rs)) ∧ rs.length = 1 :=
  C120_served_partial dumpServer dumpDb_ok dumpDb_limits objectStored (fun p hp r op vs e h => objectStored_long p hp r op vs e h) demoMoment _ (ascii "upload")
    [{ oid := rightOid, size := 5 }] batchReq_asks (by
      intro v hv
      rw [List.mem_singleton.1 hv]
      exact ⟨by decide, by decide, by decide +kernel, fun o ho => lower_storePath rightOid_accepted ho⟩)

end Gust

import Verif.Model.ObjectsFail
import Verif.Props.LfsStore

/-! # C167: LFS objects while the database fails -/

namespace Gust

/-- The files are as without the failure, and the rows as without it or as before. -/
theorem under_state (D : DbExt) (E : StoreExt) (f : MetaFault) (s : LfsState) (q : LfsReq) :
    (q.under D E f s).disk = (q.run (D.underMeta f) E s).disk ∧ ((q.under D E f s).metas = (q.run (D.underMeta f) E s).metas ∨ (q.under D E f s).metas = s.metas) := by
  cases q with
  | batch op vs => exact ⟨rfl, .inl rfl⟩
  | upload oid body =>
    simp only [LfsReq.under, LfsReq.run, uploadUnder]
    split
    · exact ⟨rfl, .inr rfl⟩
    · exact ⟨rfl, .inl rfl⟩
  | download oid => exact ⟨rfl, .inl rfl⟩

theorem under_keyed (D : DbExt) (E : StoreExt) (f : MetaFault) (s : LfsState) (q : LfsReq) (h : Keyed D s.metas) : Keyed D (q.under D E f s).metas := by
  rcases (under_state D E f s q).2 with e | e <;> rw [e]
  · exact run_keyed (D.underMeta f) E s q h
  · exact h

theorem lfsUnder_append (D : DbExt) (E : StoreExt) (s : LfsState) (h1 h2 : List (MetaFault × LfsReq)) : lfsUnder D E s (h1 ++ h2) = lfsUnder D E (lfsUnder D E s h1) h2 := List.foldl_append

theorem lfsUnder_keyed (D : DbExt) (E : StoreExt) (s : LfsState) (h : List (MetaFault × LfsReq)) (hk : Keyed D s.metas) : Keyed D (lfsUnder D E s h).metas := by
  induction h generalizing s with
  | nil => exact hk
  | cons x h ih => exact ih _ (under_keyed D E x.1 s x.2 hk)

/-- **C167 (partial)** Whatever statements the database refuses, before and after: when an upload of at most one write's length is answered with success, and any further requests follow except uploads for the same
oid, a download delivers exactly the uploaded bytes. (Missing from the full claim: longer bodies, see `C45_upload_download_false`; other uploads for the oid, see `C167_wrong_false`.) -/
theorem C167_kept_partial (D : DbExt) (E : StoreExt) (hD : Spec.CollationOk D) (hE : Spec.HexDigest E) (s0 : LfsState)
    (hs : Spec.FreshStore E s0) (h1 h2 : List (MetaFault × LfsReq)) (f : MetaFault) (oid body : Bytes) (ho : Spec.RouteOid oid) (hlen : body.length ≤ E.maxWrite)
    (hacc : (uploadUnder D E f (lfsUnder D E s0 h1) oid body).1 = .ok ())
    (hup : ∀ f' oid' body', (f', .upload oid' body') ∈ h2 → Spec.RouteOid oid' ∧ oid' ≠ oid) :
    (downloadObject D E (lfsUnder D E s0 (h1 ++ (f, .upload oid body) :: h2)) oid).1 = .ok body := by
  have hkey := lfsUnder_keyed D E s0 h1 (fresh_keyed D hs)
  have hpath := storePath_ascii E (routeOid_plain ho) (routeOid_ascii ho)
  have hD' : ∀ g : MetaFault, Spec.CollationOk (D.underMeta g) := fun g => hD
  generalize hs1 : lfsUnder D E s0 h1 = s1 at *
  have hsame : uploadUnder D E f s1 oid body = uploadObject (D.underMeta f) E s1 oid body := by
    unfold uploadUnder at hacc ⊢
    simp only at hacc ⊢
    split at hacc
    · cases hacc
    · rename_i e
      rw [if_neg e]
  rw [hsame] at hacc
  -- after the upload
  have hafter : ∃ n, Keyed D (uploadObject (D.underMeta f) E s1 oid body).2.metas ∧ (uploadObject (D.underMeta f) E s1 oid body).2.metas (D.fold oid) = some (oid, n) ∧
      (uploadObject (D.underMeta f) E s1 oid body).2.disk ((components E.base).1, (components E.base).2 ++ oidParts oid) = some (.file body) ∧
      ∀ k < (components E.base).2.length, (uploadObject (D.underMeta f) E s1 oid body).2.disk ((components E.base).1, (components E.base).2.take (k + 1)) = some .dir := by
    have hk' := run_keyed (D.underMeta f) E s1 (.upload oid body) hkey
    rcases uploadObject_cases (D.underMeta f) E s1 oid body with ⟨e, -⟩ | ⟨o, sz, p, d1, hm, hnew, hp, hg, hnd, -, hd, ⟨-, e, -, hdig⟩ | ⟨e, -⟩⟩
    · rw [e] at hacc; cases hacc
    · have hr : Spec.RouteOid o := hdig ▸ hexDigest_route hE body
      have : o = oid := (hD o oid ho (hkey _ _ _ hm)).2.2.2 hr
      subst this
      have hpe : p = ((components E.base).1, (components E.base).2 ++ oidParts o) := by
        rw [hpath] at hp; cases hp; rfl
      refine ⟨sz, hk', by rw [e]; exact hm, by rw [hd, ← hpe, setAt_same, List.take_of_length_le hlen], ?_⟩
      intro k hk
      have h1 : (storeNew E s1.disk).1 ((components E.base).1, (components E.base).2.take (k + 1)) = some .dir :=
        mkdirs_dirs _ _ [] _ hnew k hk
      have h2 := hg.dir h1
      rw [hd, setAt_other _ _ (by intro e; rw [e] at h2; exact hnd h2)]
      exact h2
    · rw [e] at hacc; cases hacc
  -- afterwards
  have hinv : ∀ s, (∃ n, Keyed D s.metas ∧ s.metas (D.fold oid) = some (oid, n) ∧
      s.disk ((components E.base).1, (components E.base).2 ++ oidParts oid) = some (.file body) ∧
      ∀ k < (components E.base).2.length, s.disk ((components E.base).1, (components E.base).2.take (k + 1)) = some .dir) →
      ∃ n, Keyed D (lfsUnder D E s h2).metas ∧ (lfsUnder D E s h2).metas (D.fold oid) = some (oid, n) ∧
      (lfsUnder D E s h2).disk ((components E.base).1, (components E.base).2 ++ oidParts oid) = some (.file body) ∧
      ∀ k < (components E.base).2.length, (lfsUnder D E s h2).disk ((components E.base).1, (components E.base).2.take (k + 1)) = some .dir := by
    induction h2 with
    | nil => exact fun s h => h
    | cons x h2 ih =>
      rintro s ⟨n, hk, hm, hf, hdir⟩
      obtain ⟨g, q⟩ := x
      obtain ⟨u1, u2⟩ := under_state D E g s q
      refine ih (fun a b c hab => hup a b c (List.mem_cons_of_mem _ hab)) _ ⟨n, under_keyed D E g s q hk, ?_, ?_, fun k hk => by rw [u1]; exact run_dir (D.underMeta g) E s q _ (hdir k hk)⟩
      · rcases u2 with u2 | u2 <;> rw [u2]
        · rcases run_metas (D.underMeta g) E s q _ _ hm with h | ⟨oid', body', rfl, hfold, -⟩
          · exact h
          · obtain ⟨hr, hne⟩ := hup g oid' body' (by simp)
            exact absurd ((hD oid' oid ho hfold).2.2.2 hr) hne
        · exact hm
      · rw [u1]
        rcases run_file (D.underMeta g) E s q ((components E.base).1, (components E.base).2 ++ oidParts oid) body with h | ⟨oid', body', o, n', rfl, hm', hp', -⟩
        · exact h.2 hf
        · obtain ⟨hr, hne⟩ := hup g oid' body' (by simp)
          have hfold := hk _ _ _ hm'
          have hpl := hD o oid' hr hfold
          have : o = oid := storePath_inj E ⟨hpl.1, hpl.2.1, hpl.2.2.1⟩ (routeOid_plain ho) hp' hpath
          subst this
          exact absurd (hpl.2.2.2 ho).symm hne
  have hrun : lfsUnder D E s0 (h1 ++ (f, .upload oid body) :: h2) = lfsUnder D E (uploadObject (D.underMeta f) E s1 oid body).2 h2 := by
    rw [lfsUnder_append, hs1, ← hsame]; rfl
  rw [hrun]
  obtain ⟨n, -, hm, hf, hdir⟩ := hinv _ hafter
  refine downloadObject_ok D E _ oid oid n _ body ?_ hm hpath hf
  refine mkdirs_ok _ _ _ _ ?_
  intro k hk c
  rw [List.nil_append, hdir k hk]
  simp

/-- A request with a failing database keeps the store in shape. -/
theorem lfsUnder_shape (D : DbExt) (E : StoreExt) (hD : Spec.CollationOk D) (s0 : LfsState) (hs : Spec.FreshStore E s0) (h : List (MetaFault × LfsReq))
    (hq : ∀ x ∈ h, Spec.LongOids x.2) : LongRows (lfsUnder D E s0 h).metas ∧ Shape E (lfsUnder D E s0 h).disk := by
  induction h using List.reverseRecOn with
  | nil =>
    refine ⟨fun k o n e => ?_, fresh_shape hs⟩
    have e : s0.metas k = some (o, n) := e
    rw [hs.1 k] at e
    cases e
  | append_singleton h x ih =>
    obtain ⟨h1, h2⟩ := ih (fun q hq' => hq q (List.mem_append_left _ hq'))
    obtain ⟨g, q⟩ := x
    have hr := run_shape (D.underMeta g) E hD _ q (hq (g, q) (by simp)) (lfsUnder_keyed D E s0 h (fresh_keyed D hs)) h1 h2
    rw [lfsUnder_append]
    obtain ⟨u1, u2⟩ := under_state D E g (lfsUnder D E s0 h) q
    refine ⟨?_, ?_⟩
    · rcases u2 with u2 | u2
      · show LongRows (q.under D E g (lfsUnder D E s0 h)).metas
        rw [u2]; exact hr.1
      · show LongRows (q.under D E g (lfsUnder D E s0 h)).metas
        rw [u2]; exact h1
    · show Shape E (q.under D E g (lfsUnder D E s0 h)).disk
      rw [u1]; exact hr.2

theorem upload_accepts (D : DbExt) (E : StoreExt) (s : LfsState) (hl : LongRows s.metas) (hsh : Shape E s.disk) (oid body : Bytes) (ho : Spec.RouteOid oid)
    (hm : s.metas (D.fold oid) = some (oid, (body.length : Int))) (hdig : E.digest body = oid) (hlen : body.length ≤ E.maxWrite) :
    (uploadObject D E s oid body).1 = .ok () := by
  have hs0 : Shape E (storeNew E s.disk).1 := shape_grown hsh (storeNew_grown E s.disk) (storeNew_short E s.disk)
  have hnew := storeNew_ok hsh
  have hp := storePath_ascii E (routeOid_plain ho) (routeOid_ascii ho)
  obtain ⟨a, b, c, habc⟩ := oidParts_long (hl _ _ _ hm)
  rw [habc] at hp
  unfold uploadObject lfsGetMeta
  cases hn : storeNew E s.disk with
  | mk d ok =>
    rw [hn] at hs0 hnew
    have hnew : ok = true := hnew
    subst hnew
    simp only [Bool.not_true, Bool.false_eq_true, if_false, hm]
    have hdl : (((components E.base).2 ++ [a, b, c])).dropLast = (components E.base).2 ++ [a, b] := by
      rw [List.dropLast_append_of_ne_nil (by simp)]; rfl
    have hmk : (mkdirs (components E.base).1 d [] ((components E.base).2 ++ [a, b])).2 = true := by
      refine mkdirs_ok _ _ _ _ (fun k hk c' => ?_)
      rw [List.nil_append]
      by_cases hkl : k + 1 ≤ (components E.base).2.length
      · rw [List.take_append_of_le_length hkl]
        exact hs0.1 _ c'
      · rw [List.take_append, List.take_of_length_le (by omega)]
        exact hs0.2.1 _ (by simp) c'
    have hdir : (mkdirs (components E.base).1 d [] ((components E.base).2 ++ [a, b])).1 ((components E.base).1, (components E.base).2 ++ [a, b, c]) ≠ some .dir := by
      have hsh1 : Shape E (mkdirs (components E.base).1 d [] ((components E.base).2 ++ [a, b])).1 := by
        refine shape_grown hs0 (mkdirs_grown _ _ _ _) (fun q => ?_)
        rcases mkdirs_only (components E.base).1 ((components E.base).2 ++ [a, b]) [] d q with h | ⟨k, hk', rfl⟩
        · exact .inl h
        · refine .inr ?_
          simp only [List.nil_append, List.length_take, List.length_append, List.length_cons, List.length_nil]
          omega
      exact hsh1.2.2 _ rfl
    have hput : (storePut E d oid (body.length : Int) body).2 = .ok true := by
      unfold storePut
      rw [hp]
      simp only [hdl]
      cases hmm : mkdirs (components E.base).1 d [] ((components E.base).2 ++ [a, b]) with
      | mk d1 ok =>
        rw [hmm] at hmk hdir
        have hmk : ok = true := hmk
        subst hmk
        simp only [Bool.not_true, Bool.false_eq_true, if_false]
        have hmin : min body.length E.maxWrite = body.length := Nat.min_eq_left hlen
        rw [hmin, if_neg (show ¬ ((body.length : Nat) : Int) ≠ (body.length : Int) by simp), if_neg (show ¬ E.digest body ≠ oid by simp [hdig])]
    cases hst : storePut E d oid (body.length : Int) body with
    | mk d' r =>
      rw [hst] at hput
      have hput : r = .ok true := hput
      subst hput
      rfl

/-- **C167 (partial)** Whatever statements the database refused before and refuses now: the right bytes for an oid that is on record with the right size are accepted. (Missing from the full claim: oids of fewer than five
characters, see `C68_short_oid_false`; bytes longer than one write; a SELECT statement that fails.) -/
theorem C167_accepted_partial (D : DbExt) (E : StoreExt) (hD : Spec.CollationOk D) (s0 : LfsState) (hs : Spec.FreshStore E s0) (h : List (MetaFault × LfsReq))
    (hq : ∀ x ∈ h, Spec.LongOids x.2) (f : MetaFault) (oid body : Bytes) (ho : Spec.RouteOid oid)
    (hm : (lfsUnder D E s0 h).metas (D.fold oid) = some (oid, (body.length : Int))) (hdig : E.digest body = oid) (hlen : body.length ≤ E.maxWrite) :
    (uploadUnder D E f (lfsUnder D E s0 h) oid body).1 = .ok () := by
  obtain ⟨hl, hsh⟩ := lfsUnder_shape D E hD s0 hs h hq
  have ha := upload_accepts (D.underMeta f) E _ hl hsh oid body ho hm hdig hlen
  unfold uploadUnder
  simp only
  rw [if_neg (by rw [ha]; exact fun e => nomatch e.1)]
  exact ha

/-- **C167 (partial)** Whatever statements the database refuses: as long as no upload for the oid was rejected or left unanswered (and none was longer than one write), a download that succeeds delivers bytes whose
digest is the oid. (Missing from the full claim: such uploads, see `C167_wrong_false` and `C44_download_false`.) -/
theorem C167_content_partial (D : DbExt) (E : StoreExt) (hD : Spec.CollationOk D) (hE : Spec.HexDigest E) (s0 : LfsState) (hs : Spec.FreshStore E s0)
    (h : List (MetaFault × LfsReq)) (hup : ∀ f oid body, (f, .upload oid body) ∈ h → Spec.RouteOid oid ∧ body.length ≤ E.maxWrite) (oid : Bytes) (ho : Spec.RouteOid oid)
    (hrej : ∀ pre f body post, h = pre ++ (f, .upload oid body) :: post →
      (uploadUnder D E f (lfsUnder D E s0 pre) oid body).1 ≠ .status 406 ∧ (uploadUnder D E f (lfsUnder D E s0 pre) oid body).1 ≠ .panic)
    (c : Bytes) (hd : (downloadObject D E (lfsUnder D E s0 h) oid).1 = .ok c) : E.digest c = oid := by
  have inv : ∀ o p c, D.fold o = D.fold oid → storePath E o = .ok p → (lfsUnder D E s0 h).disk p = some (.file c) → E.digest c = o := by
    clear hd
    induction h using List.reverseRecOn with
    | nil =>
      intro o p c hf hp hc
      have hpl := hD o oid ho hf
      have hpath := storePath_plain E ⟨hpl.1, hpl.2.1, hpl.2.2.1⟩ hp
      have hnone := hs.2.1 p ⟨oidParts o, by unfold oidParts; split <;> simp, hpath⟩
      rw [show (lfsUnder D E s0 []).disk p = s0.disk p from rfl, hnone] at hc
      cases hc
    | append_singleton h x ih =>
      have ih := ih (fun f o b hm => hup f o b (List.mem_append_left _ hm))
        (fun pre f body post e => hrej pre f body (post ++ [x]) (by rw [e]; simp))
      intro o p c hf hp hc
      obtain ⟨g, q⟩ := x
      rw [lfsUnder_append] at hc
      have hc : (q.under D E g (lfsUnder D E s0 h)).disk p = some (.file c) := hc
      rw [(under_state D E g (lfsUnder D E s0 h) q).1] at hc
      rcases run_file (D.underMeta g) E (lfsUnder D E s0 h) q p c with e | ⟨oid', body, o', n, rfl, hm, hp', hx, hr⟩
      · exact ih o p c hf hp (e.1 hc)
      · obtain ⟨hro, hlen⟩ := hup g oid' body (by simp)
        have hk : D.fold o' = D.fold oid' := lfsUnder_keyed D E s0 h (fresh_keyed D hs) _ _ _ hm
        have hpl := hD o oid ho hf
        have hpl' := hD o' oid' hro hk
        have heq : o' = o := storePath_inj E ⟨hpl'.1, hpl'.2.1, hpl'.2.2.1⟩ ⟨hpl.1, hpl.2.1, hpl.2.2.1⟩ hp' hp
        subst heq
        have hoid : oid' = oid := (hD oid' oid ho (hk.symm.trans hf)).2.2.2 hro
        subst hoid
        rcases hr with hr | ⟨-, hr⟩
        · exfalso
          obtain ⟨n1, n2⟩ := hrej h g body [] rfl
          unfold uploadUnder at n1 n2
          simp only at n1 n2
          split at n1
          · rename_i e
            rw [if_pos e] at n2
            exact n2 rfl
          · exact n1 hr
        · have := (hx _).1 hc
          cases this
          rw [List.take_of_length_le hlen]
          exact hr
  obtain ⟨o, n, p, hm, hp, hf⟩ := downloadObject_ok_inv D E _ oid c hd
  have hfold := lfsUnder_keyed D E s0 h (fresh_keyed D hs) _ _ _ hm
  have hdig := inv o p c hfold hp hf
  have hr : Spec.RouteOid o := hdig ▸ hexDigest_route hE c
  rw [hdig]
  exact (hD o oid ho hfold).2.2.2 hr

/-- The database carries out everything, or nothing. -/
def metaWorks : MetaFault := ⟨fun _ _ => true, true⟩
def metaDown : MetaFault := ⟨fun _ _ => false, false⟩

/-- **C167 is false** for uploads of wrong bytes: the object is announced, wrong bytes are uploaded while the database fails, and the upload is not answered. From then on downloads deliver the wrong bytes, also to clients that never
announced anything, and who wants to upload the right ones is told that the object is there already. -/
theorem C167_wrong_false : ∃ (h : List (MetaFault × LfsReq)) (oid right wrong : Bytes), Spec.RouteOid oid ∧ demoStore.digest right = oid ∧
    (uploadUnder exactDb demoStore metaDown (lfsUnder exactDb demoStore freshLfs h) oid wrong).1 = .panic ∧
    (downloadObject exactDb demoStore (lfsUnder exactDb demoStore freshLfs (h ++ [(metaDown, .upload oid wrong)])) oid).1 = .ok wrong ∧ wrong ≠ right ∧
    ∃ r link, (processBatch exactDb demoStore (lfsUnder exactDb demoStore freshLfs (h ++ [(metaDown, .upload oid wrong)])) (ascii "upload") [{ oid := oid, size := 5 }]).1 = .ok [r] ∧ r.offer = .download link := by
  refine ⟨[(metaWorks, .batch (ascii "upload") [{ oid := rightOid, size := 5 }])], rightOid, ascii "right", ascii "wrong", hexDigest_route demoStore_digest _, rfl, by decide +kernel, by decide +kernel, by decide,
    { oid := rightOid, size := 5, offer := .download (ascii "http://host/objects/" ++ rightOid) }, ascii "http://host/objects/" ++ rightOid, by decide +kernel, rfl⟩

/-- Two objects are announced while the database fails, then one when it works, and it is uploaded; then the database fails again. -/
def faultyObjects : List (MetaFault × LfsReq) :=
  [(metaDown, .batch (ascii "upload") [{ oid := rightOid, size := 5 }, { oid := ascii "abcdef", size := 3 }]), (metaWorks, .batch (ascii "upload") [{ oid := rightOid, size := 5 }])]

/-- C167 at work. -/
example : (downloadObject lowerDb demoStore (lfsUnder lowerDb demoStore freshLfs (faultyObjects ++ (metaDown, .upload rightOid (ascii "right")) ::
    [(metaDown, .batch (ascii "upload") [{ oid := ascii "abcdef", size := 3 }]), (metaDown, .download (ascii "abcdef"))])) rightOid).1 = .ok (ascii "right") :=
  C167_kept_partial lowerDb demoStore lowerDb_ok demoStore_digest freshLfs (freshLfs_fresh _) faultyObjects _ metaDown rightOid (ascii "right") (hexDigest_route demoStore_digest _) (by decide) (by decide +kernel)
    (fun _ _ _ h => by simp at h)

/-- `C167_accepted_partial` at work: announced while the database works, uploaded while it fails. -/
example : (uploadUnder lowerDb demoStore metaDown (lfsUnder lowerDb demoStore freshLfs faultyObjects) rightOid (ascii "right")).1 = .ok () :=
  C167_accepted_partial lowerDb demoStore lowerDb_ok freshLfs (freshLfs_fresh _) faultyObjects (by
    intro x hx
    simp only [faultyObjects, List.mem_cons, List.not_mem_nil, or_false] at hx
    rcases hx with rfl | rfl
    · intro v hv
      simp only [List.mem_cons, List.not_mem_nil, or_false] at hv
      rcases hv with rfl | rfl <;> decide +kernel
    · intro v hv
      simp only [List.mem_cons, List.not_mem_nil, or_false] at hv
      subst hv
      decide +kernel) metaDown rightOid (ascii "right") (hexDigest_route demoStore_digest _) (by decide +kernel) rfl (by decide)

/-- `C167_content_partial` at work: the object is uploaded while the database fails. -/
example : demoStore.digest (ascii "right") = rightOid :=
  C167_content_partial lowerDb demoStore lowerDb_ok demoStore_digest freshLfs (freshLfs_fresh _) (faultyObjects ++ [(metaDown, .upload rightOid (ascii "right"))]) (by
    intro f o b hm
    simp [faultyObjects] at hm
    obtain ⟨-, rfl, rfl⟩ := hm
    exact ⟨hexDigest_route demoStore_digest _, by decide⟩) rightOid (hexDigest_route demoStore_digest _) (by
    intro pre f body post e
    rcases pre with _ | ⟨a, _ | ⟨b, _ | ⟨c, pre⟩⟩⟩ <;> simp [faultyObjects] at e
    obtain ⟨rfl, rfl, ⟨rfl, rfl⟩, rfl⟩ := e
    exact ⟨by decide +kernel, by decide +kernel⟩) _ (by decide +kernel)

end Gust

import Verif.Props.LfsConcurrent
import Verif.Base.Tactics

/-! # C114: overlapping requests on LFS objects are answered -/

namespace Gust

/-- The uploads of the object carry its content, the announcements of it state its size, and nothing with a very short oid is announced. -/
def Spec.Honest (D : DbExt) (E : StoreExt) (oid body : Bytes) (q : LfsReq) : Prop :=
  Spec.OneBody D E oid body q ∧ Spec.LongOids q ∧
  ∀ op vs, q = .batch op vs → ∀ v ∈ vs, D.fold v.oid = D.fold oid → v.oid = oid ∧ v.size = (body.length : Int)

/-- How often task `i` gets a turn. -/
def Spec.turns (i : Nat) : List LfsEv → Nat
  | [] => 0
  | .run j _ :: es => (if j = i then 1 else 0) + Spec.turns i es
  | .arrive _ :: es => Spec.turns i es

/-! ## What stays -/

/-- The object is on record. -/
def OnRecord (D : DbExt) (oid body : Bytes) (s : LfsServer) : Prop := s.state.metas (D.fold oid) = some (oid, (body.length : Int))

/-- Where the object is stored. -/
def placeOf (E : StoreExt) (oid : Bytes) : Bool × List Bytes := ((components E.base).1, (components E.base).2 ++ oidParts oid)

/-- There is a file for the object. -/
def HasFile (E : StoreExt) (oid : Bytes) (s : LfsServer) : Prop := ∃ c, s.state.disk (placeOf E oid) = some (.file c)

/-- How far an upload of the object can be. -/
def UpPhase (D : DbExt) (E : StoreExt) (oid body : Bytes) (s : LfsServer) : LfsPhase → Prop
  | .dirs row => row = (oid, (body.length : Int)) ∧ OnRecord D oid body s
  | .create row p => row = (oid, (body.length : Int)) ∧ p = placeOf E oid ∧ OnRecord D oid body s
  | .write row p => row = (oid, (body.length : Int)) ∧ p = placeOf E oid ∧ OnRecord D oid body s ∧ HasFile E oid s
  | .reject => False
  | .done (.ok .stored) => OnRecord D oid body s ∧ HasFile E oid s
  | .done (.status _) => False
  | _ => True

/-- The rows of uploads have long oids. -/
def LongPhase : LfsPhase → Prop
  | .dirs row => 5 ≤ row.1.length
  | .create row _ => 5 ≤ row.1.length
  | .write row _ => 5 ≤ row.1.length
  | _ => True

/-- What is on record once a batch has come to the object. -/
def AnnPhase (D : DbExt) (oid : Bytes) (K : Prop) (vs : List RequestVars) : LfsPhase → Prop
  | .next rest _ => ∃ pre, vs = pre ++ rest ∧ ((∃ v ∈ pre, D.fold v.oid = D.fold oid) → K)
  | .look _ v rest _ => ∃ pre, vs = pre ++ v :: rest ∧ ((∃ w ∈ pre ++ [v], D.fold w.oid = D.fold oid) → K)
  | .check v rest _ => ∃ pre, vs = pre ++ v :: rest ∧ ((∃ w ∈ pre, D.fold w.oid = D.fold oid) → K)
  | .insert v rest _ => ∃ pre, vs = pre ++ v :: rest ∧ ((∃ w ∈ pre, D.fold w.oid = D.fold oid) → K)
  | .done (.ok (.entries _)) => (∃ v ∈ vs, D.fold v.oid = D.fold oid) → K
  | _ => True

structure Alive (D : DbExt) (E : StoreExt) (oid body : Bytes) (s : LfsServer) : Prop where
  ord : Orderly D E s
  tr : Transfers D E oid body s
  reqs : ∀ (i : Nat) (t : LfsTask), s.tasks[i]? = some t → Spec.Honest D E oid body t.req
  row : ∀ r, s.state.metas (D.fold oid) = some r → r = (oid, (body.length : Int))
  ups : ∀ (i : Nat) (t : LfsTask) o b, s.tasks[i]? = some t → t.req = .upload o b → D.fold o = D.fold oid → UpPhase D E oid body s t.phase
  anns : ∀ (i : Nat) (t : LfsTask) vs, s.tasks[i]? = some t → t.req = .batch (ascii "upload") vs → AnnPhase D oid (OnRecord D oid body s) vs t.phase
  longs : ∀ (i : Nat) (t : LfsTask), s.tasks[i]? = some t → LongPhase t.phase
  rows : LongRows s.state.metas
  shape : Shape E s.state.disk

theorem honest_routed {D : DbExt} {E : StoreExt} {oid body : Bytes} {q : LfsReq} (h : Spec.Honest D E oid body q) : Spec.RoutedReq q :=
  fun o b e => (h.1 o b e).1

theorem step_weaken {D : DbExt} {E : StoreExt} {R R' : LfsReq → Prop} (h : ∀ q, R q → R' q) {s s' : LfsServer} (hs : LfsServer.Step D E R s s') :
    LfsServer.Step D E R' s s' := by
  cases hs with
  | arrive q hq => exact .arrive _ q (h q hq)
  | run i n t ht => exact .run _ i n t ht

theorem storePath_place (E : StoreExt) {oid : Bytes} (ho : Spec.RouteOid oid) : storePath E oid = .ok (placeOf E oid) :=
  storePath_ascii E (routeOid_plain ho) (routeOid_ascii ho)

/-- The place of an object is no other object's. -/
theorem place_key {D : DbExt} (hD : Spec.CollationOk D) {E : StoreExt} {oid oid' o : Bytes} {p : Bool × List Bytes} (ho : Spec.RouteOid oid) (ho' : Spec.RouteOid oid')
    (hf : D.fold o = D.fold oid') (hp : storePath E o = .ok p) (e : p = placeOf E oid) : D.fold oid' = D.fold oid :=
  path_key hD ho ho' rfl hf (storePath_place E ho) (e ▸ hp)

/-! ## Steps -/

section

variable {D : DbExt} {E : StoreExt} {oid body : Bytes}

theorem record_step {s : LfsServer} (h : Alive D E oid body s) {i n : Nat} {t : LfsTask} (ht : s.tasks[i]? = some t)
    (hk : s.state.metas (D.fold oid) = some (oid, (body.length : Int))) : (t.step D E n s.state).2.metas (D.fold oid) = some (oid, (body.length : Int)) := by
  rcases step_metas D E n s.state t with e | ⟨o, b, h1, h2, e⟩ | ⟨v, vs, acc, h1, h2, e⟩
  · rw [e]; exact hk
  · rw [e, setAt_eq]
    split
    · rename_i hkey
      have := h.ups i t o b ht h2 hkey.symm
      rw [h1] at this
      exact this.elim
    · exact hk
  · rw [e, setAt_eq]
    split
    · rename_i hkey
      rw [← hkey, hk] at h2
      cases h2
    · exact hk

theorem row_step {s : LfsServer} (h : Alive D E oid body s) {i n : Nat} {t : LfsTask} (ht : s.tasks[i]? = some t) {r : Bytes × Int}
    (hr : (t.step D E n s.state).2.metas (D.fold oid) = some r) : r = (oid, (body.length : Int)) := by
  rcases step_metas D E n s.state t with e | ⟨o, b, h1, h2, e⟩ | ⟨v, vs, acc, h1, h2, e⟩
  · rw [e] at hr; exact h.row r hr
  · rw [e, setAt_eq] at hr
    split at hr
    · cases hr
    · exact h.row r hr
  · rw [e, setAt_eq] at hr
    split at hr
    · rename_i hkey
      cases hr
      have hkd := h.ord.phases i t ht
      rw [h1] at hkd
      obtain ⟨op, ws, hq⟩ := hkd
      have hb := h.ord.batches i t op ws ht hq
      rw [h1] at hb
      obtain ⟨pre, ev, _⟩ := hb
      obtain ⟨e1, e2⟩ := (h.reqs i t ht).2.2 op ws hq v (by rw [ev]; simp) hkey.symm
      rw [e1, e2]
    · exact h.row r hr

theorem rows_step {s : LfsServer} (h : Alive D E oid body s) {i n : Nat} {t : LfsTask} (ht : s.tasks[i]? = some t) : LongRows (t.step D E n s.state).2.metas := by
  intro k o m hk
  rcases step_metas D E n s.state t with e | ⟨_, b, h1, h2, e⟩ | ⟨v, vs, acc, h1, h2, e⟩
  · rw [e] at hk; exact h.rows k o m hk
  · rw [e, setAt_eq] at hk
    split at hk
    · cases hk
    · exact h.rows k o m hk
  · rw [e, setAt_eq] at hk
    split at hk
    · cases hk
      have hkd := h.ord.phases i t ht
      rw [h1] at hkd
      obtain ⟨op, ws, hq⟩ := hkd
      have hb := h.ord.batches i t op ws ht hq
      rw [h1] at hb
      obtain ⟨pre, ev, _⟩ := hb
      have := (h.reqs i t ht).2.1
      rw [hq] at this
      exact this v (by rw [ev]; simp)
    · exact h.rows k o m hk

theorem file_step {s : LfsServer} {n : Nat} {t : LfsTask} (hk : ∃ c, s.state.disk (placeOf E oid) = some (.file c)) :
    ∃ c, (t.step D E n s.state).2.disk (placeOf E oid) = some (.file c) := by
  obtain ⟨c, hc⟩ := hk
  rcases step_disk D E n s.state t with hg | ⟨row, p', h1, h2, h3⟩ | ⟨row, p', oid', body', old, h1, h2, h3, h4⟩
  · exact ⟨c, hg.file.2 hc⟩
  · rw [h3]
    by_cases e : placeOf E oid = p'
    · rw [e, setAt_same]; exact ⟨_, rfl⟩
    · rw [setAt_other _ _ e]; exact ⟨c, hc⟩
  · rw [h4]
    by_cases e : placeOf E oid = p'
    · rw [e, setAt_same]; exact ⟨_, rfl⟩
    · rw [setAt_other _ _ e]; exact ⟨c, hc⟩

/-- Writing a file at the depth of the files. -/
theorem shape_file {d : Disk} (h : Shape E d) {a b c : Bytes} (x : Bytes) :
    Shape E (setAt d ((components E.base).1, (components E.base).2 ++ [a, b, c]) (some (.file x))) := by
  refine ⟨fun k c' => ?_, fun tl htl c' => ?_, fun tl htl => ?_⟩
  · rw [setAt_other]
    · exact h.1 k c'
    · intro e
      rw [Prod.mk.injEq] at e
      have := congrArg List.length e.2
      simp only [List.length_take, List.length_append, List.length_cons, List.length_nil] at this
      omega
  · rw [setAt_other]
    · exact h.2.1 tl htl c'
    · intro e
      rw [Prod.mk.injEq] at e
      have := congrArg List.length e.2
      simp only [List.length_append, List.length_cons, List.length_nil] at this
      omega
  · rw [setAt_eq]
    split
    · simp
    · exact h.2.2 tl htl

/-- The place of a long routed oid. -/
theorem long_path (hD : Spec.CollationOk D) {o o' : Bytes} {p : Bool × List Bytes} (ho : Spec.RouteOid o') (hf : D.fold o = D.fold o') (hl : 5 ≤ o.length)
    (hp : storePath E o = .ok p) : ∃ a b c, p = ((components E.base).1, (components E.base).2 ++ [a, b, c]) := by
  have hpl := hD o o' ho hf
  obtain ⟨a, b, c, e⟩ := oidParts_long hl
  exact ⟨a, b, c, by rw [storePath_plain E ⟨hpl.1, hpl.2.1, hpl.2.2.1⟩ hp, e]⟩

theorem shape_step (hD : Spec.CollationOk D) {s : LfsServer} (h : Alive D E oid body s) {i n : Nat} {t : LfsTask} (ht : s.tasks[i]? = some t) :
    Shape E (t.step D E n s.state).2.disk := by
  have hph := h.ord.phases i t ht
  have hl := h.longs i t ht
  have hreq := h.ord.reqs i t ht
  rcases step_disk D E n s.state t with hg | ⟨row, p', h1, h2, h3⟩ | ⟨row, p', oid', body', old, h1, h2, h3, h4⟩
  · refine shape_grown h.shape hg (fun q => ?_)
    obtain ⟨r, ph⟩ := t
    dsimp only at hph hl hreq
    have nodir : s.state.disk q = none → ∀ {x}, s.state.disk q = x → x = some .dir → False := by
      intro e1 x e2 e3
      rw [e1] at e2
      subst e2
      cases e3
    have nodir' : s.state.disk q = none → ∀ {p : Bool × List Bytes} {c : Bytes}, setAt s.state.disk p (some (.file c)) q = some .dir → False := by
      intro e1 p c e2
      rw [setAt_eq] at e2
      split at e2
      · cases e2
      · rw [e1] at e2; cases e2
    cases ph with
    | start =>
      have := storeNew_short E s.state.disk q
      simp only [LfsTask.step]
      cases hn : storeNew E s.state.disk with
      | mk d ok =>
        rw [hn] at this
        cases ok with
        | false => exact this
        | true => cases r <;> exact this
    | dirs row =>
      obtain ⟨o, b, rfl, hf⟩ := hph
      simp only [LfsTask.step]
      split
      · rename_i p hp
        obtain ⟨a, b', c, rfl⟩ := long_path hD (hreq o b rfl) hf hl hp
        have := mkdirs_only (components E.base).1 ((components E.base).2 ++ [a, b', c]).dropLast [] s.state.disk q
        cases hn : mkdirs (components E.base).1 s.state.disk [] ((components E.base).2 ++ [a, b', c]).dropLast with
        | mk d ok =>
          rw [hn] at this
          have key : d q = s.state.disk q ∨ q.2.length ≤ (components E.base).2.length + 2 := by
            rcases this with e | ⟨k, hk, rfl⟩
            · exact .inl e
            · refine .inr ?_
              simp only [List.nil_append, List.length_take, List.length_dropLast, List.length_append, List.length_cons, List.length_nil] at hk ⊢
              omega
          cases ok <;> exact key
      · exact .inl rfl
    | create row p =>
      obtain ⟨o, b, rfl, hf, hp⟩ := hph
      left
      rcases hg q with e | ⟨e1, e2⟩
      · exact e
      · simp only [LfsTask.step] at e2
        split at e2
        · exact (nodir e1 (show s.state.disk q = some .dir from e2) rfl).elim
        · exact (nodir' e1 (show setAt s.state.disk p (some (.file [])) q = some .dir from e2)).elim
    | write row p =>
      left
      rcases hg q with e | ⟨e1, e2⟩
      · exact e
      · simp only [LfsTask.step] at e2
        split at e2
        · exfalso
          split at e2 <;> [exact nodir' e1 e2; (split at e2 <;> exact nodir' e1 e2)]
        · exact (nodir e1 (show s.state.disk q = some .dir from e2) rfl).elim
    | lookup =>
      left
      simp only [LfsTask.step]
      cases r <;> simp only <;> (split <;> rfl)
    | reject => left; simp only [LfsTask.step]; cases r <;> rfl
    | «open» row =>
      left
      simp only [LfsTask.step]
      split
      · split <;> rfl
      · rfl
    | read p acc =>
      left
      simp only [LfsTask.step]
      split
      · split <;> rfl
      · rfl
    | next vs acc =>
      left
      cases vs with
      | nil => rfl
      | cons v vs => simp only [LfsTask.step]; split <;> rfl
    | look row v vs acc => left; simp only [LfsTask.step]; split <;> rfl
    | check v vs acc => left; simp only [LfsTask.step]; split <;> rfl
    | insert v vs acc =>
      left
      simp only [LfsTask.step]
      split
      · rfl
      · split <;> rfl
    | done r => exact .inl rfl
  · rw [h1] at hph hl
    obtain ⟨o, b, hq, hf, hp⟩ := hph
    obtain ⟨a, b', c, rfl⟩ := long_path hD (hreq o b hq) hf hl hp
    rw [h3]
    exact shape_file h.shape _
  · rw [h1] at hph hl
    obtain ⟨o, b, hq, hf, hp⟩ := hph
    obtain ⟨a, b', c, rfl⟩ := long_path hD (hreq o b hq) hf hl hp
    rw [h4]
    exact shape_file h.shape _

/-- Every step leaves the rows of uploads long. -/
theorem longs_step {s : LfsServer} (h : Alive D E oid body s) {i n : Nat} {t : LfsTask} (ht : s.tasks[i]? = some t) : LongPhase (t.step D E n s.state).1 := by
  have hl := h.longs i t ht
  obtain ⟨r, ph⟩ := t
  dsimp only at hl
  have nf : ∀ b v vs acc, LongPhase (notFound b v vs acc) := by
    intro b v vs acc
    unfold notFound
    split <;> trivial
  cases ph with
  | start =>
    simp only [LfsTask.step]
    cases storeNew E s.state.disk with
    | mk d ok =>
      cases ok with
      | false => trivial
      | true => cases r <;> trivial
  | dirs row =>
    simp only [LfsTask.step]
    split
    · rename_i p hp
      cases mkdirs p.1 s.state.disk [] p.2.dropLast with
      | mk d ok =>
        cases ok with
        | false => trivial
        | true => exact hl
    · trivial
  | create row p =>
    simp only [LfsTask.step]
    split
    · trivial
    · exact hl
  | write row p =>
    simp only [LfsTask.step]
    split
    · split <;> [trivial; (split <;> trivial)]
    · trivial
  | lookup =>
    simp only [LfsTask.step]
    cases r with
    | batch op vs => trivial
    | upload o b =>
      simp only
      split
      · trivial
      · rename_i row hr
        exact h.rows _ row.1 row.2 hr
    | download o => simp only; split <;> trivial
  | reject => simp only [LfsTask.step]; cases r <;> trivial
  | «open» row =>
    simp only [LfsTask.step]
    split
    · split <;> trivial
    · trivial
  | read p acc =>
    simp only [LfsTask.step]
    split
    · split <;> trivial
    · trivial
  | next vs acc =>
    cases vs with
    | nil => trivial
    | cons v vs =>
      simp only [LfsTask.step]
      split
      · trivial
      · exact nf _ _ _ _
  | look row v vs acc =>
    simp only [LfsTask.step]
    split
    · trivial
    · exact nf _ _ _ _
    · trivial
  | check v vs acc => simp only [LfsTask.step]; split <;> trivial
  | insert v vs acc =>
    simp only [LfsTask.step]
    split
    · trivial
    · split <;> trivial
  | done r => trivial

/-- An upload of the object after its own step. -/
theorem up_own (ho : Spec.RouteOid oid) (hdig : E.digest body = oid) {s : LfsServer} (h : Alive D E oid body s) {i n : Nat} {o b : Bytes} {ph : LfsPhase}
    (ht : s.tasks[i]? = some { req := .upload o b, phase := ph }) (hf : D.fold o = D.fold oid) {l : List LfsTask} :
    UpPhase D E oid body { state := (LfsTask.step D E n s.state { req := .upload o b, phase := ph }).2, tasks := l }
      (LfsTask.step D E n s.state { req := .upload o b, phase := ph }).1 := by
  have hu := h.ups i _ o b ht rfl hf
  have hb : b = body := ((h.reqs i _ ht).1 o b rfl).2.2 hf
  have hlen : b.length ≤ E.maxWrite := ((h.reqs i _ ht).1 o b rfl).2.1
  have hkd := h.ord.phases i _ ht
  have hkeep := record_step (n := n) h ht
  have hfile := file_step (D := D) (E := E) (oid := oid) (s := s) (n := n) (t := { req := .upload o b, phase := ph })
  dsimp only at hu hkd
  subst hb
  cases ph with
  | start =>
    simp only [LfsTask.step]
    cases storeNew E s.state.disk with
    | mk d ok => cases ok <;> trivial
  | lookup =>
    simp only [LfsTask.step]
    split
    · trivial
    · rename_i row hr
      have hr : s.state.metas (D.fold oid) = some row := by rw [← hf]; exact hr
      have := h.row row hr
      subst this
      exact ⟨rfl, hr⟩
  | dirs row =>
    obtain ⟨rfl, hk⟩ := hu
    have := hkeep hk
    simp only [LfsTask.step, storePath_place E ho] at this ⊢
    cases hm : mkdirs (placeOf E oid).1 s.state.disk [] (placeOf E oid).2.dropLast with
    | mk d ok =>
      rw [hm] at this
      cases ok with
      | false => trivial
      | true => exact ⟨rfl, rfl, hk⟩
  | create row p =>
    obtain ⟨rfl, rfl, hk⟩ := hu
    simp only [LfsTask.step]
    split
    · trivial
    · exact ⟨rfl, rfl, hk, [], setAt_same _ _ _⟩
  | write row p =>
    obtain ⟨rfl, rfl, hk, hc⟩ := hu
    have h1 := hkeep hk
    have h2 := hfile hc
    obtain ⟨c, hc⟩ := hc
    simp only [LfsTask.step, hc, Nat.min_eq_left hlen, hdig, ne_eq, not_true, if_false] at h1 h2 ⊢
    exact ⟨h1, h2⟩
  | reject => exact hu.elim
  | «open» row => obtain ⟨_, e, _⟩ := hkd; cases e
  | read p acc => obtain ⟨_, _, e, _⟩ := hkd; cases e
  | next vs acc => obtain ⟨_, _, e⟩ := hkd; cases e
  | look row v vs acc => obtain ⟨_, _, e⟩ := hkd; cases e
  | check v vs acc => obtain ⟨_, _, e⟩ := hkd; cases e
  | insert v vs acc => obtain ⟨_, _, e⟩ := hkd; cases e
  | done r => exact hu

theorem UpPhase.mono {s s' : LfsServer} (h1 : OnRecord D oid body s → OnRecord D oid body s') (h2 : HasFile E oid s → HasFile E oid s') {ph : LfsPhase}
    (h : UpPhase D E oid body s ph) : UpPhase D E oid body s' ph := by
  cases ph with
  | dirs row => exact ⟨h.1, h1 h.2⟩
  | create row p => exact ⟨h.1, h.2.1, h1 h.2.2⟩
  | write row p => exact ⟨h.1, h.2.1, h1 h.2.2.1, h2 h.2.2.2⟩
  | reject => exact h
  | done r =>
    cases r with
    | ok out =>
      cases out with
      | stored => exact ⟨h1 h.1, h2 h.2⟩
      | _ => trivial
    | status c => exact h
    | panic => trivial
  | _ => trivial

theorem AnnPhase.mono {K K' : Prop} (h1 : K → K') {vs : List RequestVars} {ph : LfsPhase} (h : AnnPhase D oid K vs ph) : AnnPhase D oid K' vs ph := by
  cases ph with
  | next rest acc => exact h.imp fun _ h => ⟨h.1, h1 ∘ h.2⟩
  | look r v rest acc => exact h.imp fun _ h => ⟨h.1, h1 ∘ h.2⟩
  | check v rest acc => exact h.imp fun _ h => ⟨h.1, h1 ∘ h.2⟩
  | insert v rest acc => exact h.imp fun _ h => ⟨h.1, h1 ∘ h.2⟩
  | done r =>
    cases r with
    | ok out =>
      cases out with
      | entries l => exact h1 ∘ h
      | _ => trivial
    | _ => trivial
  | _ => trivial

/-- An announcement after its own step. -/
theorem ann_own {s : LfsServer} (h : Alive D E oid body s) {i n : Nat} {vs : List RequestVars} {ph : LfsPhase}
    (ht : s.tasks[i]? = some { req := .batch (ascii "upload") vs, phase := ph }) {l : List LfsTask} :
    AnnPhase D oid (OnRecord D oid body { state := (LfsTask.step D E n s.state { req := .batch (ascii "upload") vs, phase := ph }).2, tasks := l }) vs
      (LfsTask.step D E n s.state { req := .batch (ascii "upload") vs, phase := ph }).1 := by
  have ha := h.anns i _ vs ht rfl
  have hb := h.ord.batches i _ _ vs ht rfl
  have hkeep := record_step (n := n) h ht
  have found : ∀ {v : RequestVars} {row}, s.state.metas (D.fold v.oid) = some row → D.fold v.oid = D.fold oid → OnRecord D oid body s := by
    intro v row hr e
    rw [e] at hr
    have := h.row row hr
    subst this
    exact hr
  dsimp only at ha hb
  cases ph with
  | start =>
    simp only [LfsTask.step]
    cases storeNew E s.state.disk with
    | mk d ok =>
      cases ok with
      | false => trivial
      | true => exact ⟨[], rfl, by rintro ⟨v, hv, _⟩; cases hv⟩
  | next rest acc =>
    obtain ⟨pre, e, hp⟩ := ha
    cases rest with
    | nil =>
      rw [List.append_nil] at e
      subst e
      exact hp
    | cons v rest =>
      simp only [LfsTask.step]
      split
      · rename_i row hr
        refine ⟨pre, e, ?_⟩
        rintro ⟨w, hw, hwf⟩
        rcases List.mem_append.1 hw with hw | hw
        · exact hp ⟨w, hw, hwf⟩
        · rw [List.mem_singleton.1 hw] at hwf
          exact found hr hwf
      · exact ⟨pre, e, hp⟩
  | look row v rest acc =>
    obtain ⟨pre, e, hp⟩ := ha
    simp only [LfsTask.step]
    split
    · exact ⟨pre ++ [v], by rw [e]; simp, hp⟩
    · exact ⟨pre, e, fun ⟨w, hw, hwf⟩ => hp ⟨w, by simp [hw], hwf⟩⟩
    · trivial
  | check v rest acc =>
    obtain ⟨pre, e, hp⟩ := ha
    simp only [LfsTask.step]
    split
    · rename_i row hr
      refine ⟨pre ++ [v], by rw [e]; simp, ?_⟩
      rintro ⟨w, hw, hwf⟩
      rcases List.mem_append.1 hw with hw | hw
      · exact hp ⟨w, hw, hwf⟩
      · rw [List.mem_singleton.1 hw] at hwf
        exact found hr hwf
    · exact ⟨pre, e, hp⟩
  | insert v rest acc =>
    obtain ⟨pre, e, hp⟩ := ha
    simp only [LfsTask.step] at hkeep ⊢
    split
    · trivial
    · rename_i hr
      simp only [hr] at hkeep
      split
      · rename_i hfit
        rw [if_pos hfit] at hkeep
        refine ⟨pre ++ [v], by rw [e]; simp, ?_⟩
        rintro ⟨w, hw, hwf⟩
        rcases List.mem_append.1 hw with hw | hw
        · exact hkeep (hp ⟨w, hw, hwf⟩)
        · rw [List.mem_singleton.1 hw] at hwf
          obtain ⟨e1, e2⟩ := (h.reqs i _ ht).2.2 _ _ rfl v (by rw [e]; simp) hwf
          show setAt s.state.metas (D.fold v.oid) (some (v.oid, v.size)) (D.fold oid) = _
          rw [← e1, ← e2, setAt_same]
      · trivial
  | done r => exact ha
  | _ => cases hb

theorem alive_step (hD : Spec.CollationOk D) (ho : Spec.RouteOid oid) (hdig : E.digest body = oid) {s s' : LfsServer} (h : Alive D E oid body s)
    (hs : LfsServer.Step D E (Spec.Honest D E oid body) s s') :
    Alive D E oid body s' ∧ (OnRecord D oid body s → OnRecord D oid body s') ∧ (HasFile E oid s → HasFile E oid s') := by
  have h1 := orderly_step hD h.ord (step_weaken (fun q => honest_routed) hs)
  have h2 := transfers_step hD ho h.tr (step_weaken (fun q hq => hq.1) hs)
  cases hs with
  | arrive q hq =>
    have new : ∀ (i : Nat) (t : LfsTask), (s.tasks ++ [{ req := q, phase := .start }])[i]? = some t → s.tasks[i]? = some t ∨ t = ({ req := q, phase := .start } : LfsTask) := by
      intro i t ht
      rw [List.getElem?_append] at ht
      split at ht
      · exact .inl ht
      · refine .inr (List.mem_singleton.1 (List.mem_of_getElem? ht))
    refine ⟨⟨h1, h2, ?_, h.row, ?_, ?_, ?_, h.rows, h.shape⟩, id, id⟩
    · intro i t ht
      rcases new i t ht with ht | rfl
      · exact h.reqs i t ht
      · exact hq
    · intro i t o b ht hr hf
      rcases new i t ht with ht | rfl
      · exact h.ups i t o b ht hr hf
      · trivial
    · intro i t vs ht hr
      rcases new i t ht with ht | rfl
      · exact h.anns i t vs ht hr
      · trivial
    · intro i t ht
      rcases new i t ht with ht | rfl
      · exact h.longs i t ht
      · trivial
  | run i n t ht =>
    have hk : OnRecord D oid body s → OnRecord D oid body { state := (t.step D E n s.state).2, tasks := s.tasks.set i { t with phase := (t.step D E n s.state).1 } } :=
      record_step h ht
    have hf : HasFile E oid s → HasFile E oid { state := (t.step D E n s.state).2, tasks := s.tasks.set i { t with phase := (t.step D E n s.state).1 } } :=
      file_step
    refine ⟨⟨h1, h2, ?_, fun r => row_step h ht, ?_, ?_, ?_, rows_step h ht, shape_step hD h ht⟩, hk, hf⟩
    · intro j u hu
      rcases getElem?_set_cases hu with ⟨rfl, rfl⟩ | ⟨_, hu⟩
      · exact h.reqs j t ht
      · exact h.reqs j u hu
    · intro j u o b hu hr hfo
      rcases getElem?_set_cases hu with ⟨rfl, rfl⟩ | ⟨_, hu⟩
      · obtain ⟨q, ph⟩ := t
        dsimp only at hr
        subst hr
        exact up_own ho hdig h ht hfo
      · exact UpPhase.mono hk hf (h.ups j u o b hu hr hfo)
    · intro j u vs hu hr
      rcases getElem?_set_cases hu with ⟨rfl, rfl⟩ | ⟨_, hu⟩
      · obtain ⟨q, ph⟩ := t
        dsimp only at hr
        subst hr
        exact ann_own h ht
      · exact AnnPhase.mono hk (h.anns j u vs hu hr)
    · intro j u hu
      rcases getElem?_set_cases hu with ⟨rfl, rfl⟩ | ⟨_, hu⟩
      · exact longs_step h ht
      · exact h.longs j u hu

theorem alive_new (hD : Spec.CollationOk D) (ho : Spec.RouteOid oid) {s0 : LfsState} (hs : Spec.FreshStore E s0) : Alive D E oid body (.new s0) :=
  ⟨orderly_new hs, transfers_new hD ho hs, fun i t h => (by cases h), fun r hr => (by rw [show (LfsServer.new s0).state.metas = s0.metas from rfl, hs.1] at hr; cases hr),
    fun i t o b h => (by cases h), fun i t vs h => (by cases h), fun i t h => (by cases h),
    fun k o n e => (by rw [show (LfsServer.new s0).state.metas = s0.metas from rfl, hs.1] at e; cases e), fresh_shape hs⟩

theorem alive_runs (hD : Spec.CollationOk D) (ho : Spec.RouteOid oid) (hdig : E.digest body = oid) {s s' : LfsServer} (h : Alive D E oid body s)
    (hr : LfsServer.Runs D E (Spec.Honest D E oid body) s s') : Alive D E oid body s' := by
  induction hr with
  | refl => exact h
  | step t u _ hs ih => exact (alive_step hD ho hdig ih hs).1

/-! ## Progress -/

/-- A task that comes nearer to its end with every turn gets there. -/
theorem finishes (hD : Spec.CollationOk D) (ho : Spec.RouteOid oid) (hdig : E.digest body = oid) (G : LfsServer → Prop)
    (hG : ∀ s s', Alive D E oid body s → G s → LfsServer.Step D E (Spec.Honest D E oid body) s s' → G s')
    (q : LfsReq) (i : Nat) (P : LfsPhase → Prop) (rank : LfsPhase → Nat)
    (own : ∀ s n ph, Alive D E oid body s → G s → s.tasks[i]? = some { req := q, phase := ph } → P ph →
      P (LfsTask.step D E n s.state { req := q, phase := ph }).1 ∧ rank (LfsTask.step D E n s.state { req := q, phase := ph }).1 ≤ rank ph - 1) :
    ∀ (es : List LfsEv) (s : LfsServer) (ph : LfsPhase), (∀ q', .arrive q' ∈ es → Spec.Honest D E oid body q') → Alive D E oid body s → G s →
      s.tasks[i]? = some { req := q, phase := ph } → P ph →
      ∃ ph', (s.schedule D E es).tasks[i]? = some { req := q, phase := ph' } ∧ P ph' ∧ rank ph' ≤ rank ph - Spec.turns i es
  | [], s, ph, _, _, _, ht, hp => ⟨ph, ht, hp, Nat.le_refl _⟩
  | .arrive q' :: es, s, ph, hes, ha, hg, ht, hp => by
    have hst := LfsServer.Step.arrive (D := D) (E := E) (R := Spec.Honest D E oid body) s q' (hes q' (by simp))
    refine finishes hD ho hdig G hG q i P rank own es _ ph (fun q hq => hes q (by simp [hq])) (alive_step hD ho hdig ha hst).1 (hG _ _ ha hg hst) ?_ hp
    rw [List.getElem?_append_left (List.getElem?_eq_some_iff.1 ht).1]
    exact ht
  | .run j n :: es, s, ph, hes, ha, hg, ht, hp => by
    simp only [LfsServer.schedule]
    have hes' : ∀ q', .arrive q' ∈ es → Spec.Honest D E oid body q' := fun q hq => hes q (by simp [hq])
    by_cases e : j = i
    · subst e
      simp only [ht]
      have hst := LfsServer.Step.run (D := D) (E := E) (R := Spec.Honest D E oid body) s j n _ ht
      obtain ⟨o1, o2⟩ := own s n ph ha hg ht hp
      obtain ⟨ph', r1, r2, r3⟩ := finishes hD ho hdig G hG q j P rank own es _ _ hes' (alive_step hD ho hdig ha hst).1 (hG _ _ ha hg hst)
        (by rw [List.getElem?_set_self (List.getElem?_eq_some_iff.1 ht).1]) o1
      refine ⟨ph', r1, r2, ?_⟩
      simp only [Spec.turns, if_true]
      omega
    · have ht0 : Spec.turns i (.run j n :: es) = Spec.turns i es := by simp [Spec.turns, e]
      rw [ht0]
      cases hj : s.tasks[j]? with
      | none => exact finishes hD ho hdig G hG q i P rank own es s ph hes' ha hg ht hp
      | some t =>
        have hst := LfsServer.Step.run (D := D) (E := E) (R := Spec.Honest D E oid body) s j n t hj
        exact finishes hD ho hdig G hG q i P rank own es _ ph hes' (alive_step hD ho hdig ha hst).1 (hG _ _ ha hg hst)
          (by rw [List.getElem?_set_ne e]; exact ht) hp

/-- A download on its way. -/
def DownPhase (E : StoreExt) (oid body : Bytes) : LfsPhase → Prop
  | .start => True
  | .lookup => True
  | .open row => row = (oid, (body.length : Int))
  | .read p _ => p = placeOf E oid
  | .done (.ok (.content _)) => True
  | _ => False

/-- How many turns a download needs. -/
def downRank (body : Bytes) : LfsPhase → Nat
  | .start => body.length + 4
  | .lookup => body.length + 3
  | .open _ => body.length + 2
  | .read _ acc => body.length + 1 - acc.length
  | _ => 0

theorem down_own (ho : Spec.RouteOid oid) {s : LfsServer} (h : Alive D E oid body s) (hk : OnRecord D oid body s) (hf : HasFile E oid s) {i n : Nat} {ph : LfsPhase}
    (ht : s.tasks[i]? = some { req := .download oid, phase := ph }) (hp : DownPhase E oid body ph) :
    DownPhase E oid body (LfsTask.step D E n s.state { req := .download oid, phase := ph }).1 ∧
      downRank body (LfsTask.step D E n s.state { req := .download oid, phase := ph }).1 ≤ downRank body ph - 1 := by
  cases ph with
  | start =>
    have ok := storeNew_ok h.shape
    simp only [LfsTask.step]
    cases hn : storeNew E s.state.disk with
    | mk d b =>
      rw [hn] at ok
      dsimp only at ok
      subst ok
      exact ⟨trivial, by simp [downRank]⟩
  | lookup =>
    unfold OnRecord at hk
    simp only [LfsTask.step, lfsGetMeta, hk]
    exact ⟨rfl, by simp [downRank]⟩
  | «open» row =>
    obtain rfl := hp
    obtain ⟨c, hc⟩ := hf
    simp only [LfsTask.step, storePath_place E ho, hc]
    exact ⟨rfl, by simp [downRank]⟩
  | read p acc =>
    obtain rfl := hp
    obtain ⟨c, hc⟩ := hf
    have hpre := h.tr.reading i _ _ acc oid ht rfl rfl rfl
    have hb := h.tr.files oid _ c rfl (storePath_place E ho) hc
    simp only [LfsTask.step, hc]
    split
    · exact ⟨trivial, by simp [downRank]⟩
    · rename_i hlt
      refine ⟨rfl, ?_⟩
      simp only [downRank, List.length_append, List.length_take, List.length_drop]
      omega
  | done r =>
    refine ⟨hp, ?_⟩
    simp [LfsTask.step, downRank]
  | _ => exact hp.elim

/-- An upload on its way. -/
def UploadPhase (E : StoreExt) (oid body : Bytes) : LfsPhase → Prop
  | .start => True
  | .lookup => True
  | .dirs row => row = (oid, (body.length : Int))
  | .create row p => row = (oid, (body.length : Int)) ∧ p = placeOf E oid
  | .write row p => row = (oid, (body.length : Int)) ∧ p = placeOf E oid
  | .done (.ok .stored) => True
  | _ => False

/-- How many turns an upload needs. -/
def upRank : LfsPhase → Nat
  | .start => 5
  | .lookup => 4
  | .dirs _ => 3
  | .create _ _ => 2
  | .write _ _ => 1
  | _ => 0

theorem upload_own (ho : Spec.RouteOid oid) (hdig : E.digest body = oid) {s : LfsServer} (h : Alive D E oid body s) (hk : OnRecord D oid body s) {i n : Nat}
    {ph : LfsPhase} (ht : s.tasks[i]? = some { req := .upload oid body, phase := ph }) (hp : UploadPhase E oid body ph) :
    UploadPhase E oid body (LfsTask.step D E n s.state { req := .upload oid body, phase := ph }).1 ∧
      upRank (LfsTask.step D E n s.state { req := .upload oid body, phase := ph }).1 ≤ upRank ph - 1 := by
  have hlen : body.length ≤ E.maxWrite := ((h.reqs i _ ht).1 oid body rfl).2.1
  have hl := h.rows _ _ _ hk
  obtain ⟨a, b, c, habc⟩ := oidParts_long hl
  cases ph with
  | start =>
    have ok := storeNew_ok h.shape
    simp only [LfsTask.step]
    cases hn : storeNew E s.state.disk with
    | mk d b =>
      rw [hn] at ok
      dsimp only at ok
      subst ok
      exact ⟨trivial, by simp [upRank]⟩
  | lookup =>
    unfold OnRecord at hk
    simp only [LfsTask.step, lfsGetMeta, hk]
    exact ⟨rfl, by simp [upRank]⟩
  | dirs row =>
    obtain rfl := hp
    have hdl : (((components E.base).2 ++ [a, b, c])).dropLast = (components E.base).2 ++ [a, b] := by
      rw [List.dropLast_append_of_ne_nil (by simp)]; rfl
    have hmk : (mkdirs (placeOf E oid).1 s.state.disk [] (placeOf E oid).2.dropLast).2 = true := by
      unfold placeOf
      rw [habc, hdl]
      refine mkdirs_ok _ _ _ _ (fun k hk c' => ?_)
      rw [List.nil_append]
      by_cases hkl : k + 1 ≤ (components E.base).2.length
      · rw [List.take_append_of_le_length hkl]
        exact h.shape.1 _ c'
      · rw [List.take_append, List.take_of_length_le (by omega)]
        exact h.shape.2.1 _ (by simp) c'
    simp only [LfsTask.step, storePath_place E ho]
    cases hm : mkdirs (placeOf E oid).1 s.state.disk [] (placeOf E oid).2.dropLast with
    | mk d ok =>
      rw [hm] at hmk
      dsimp only at hmk
      subst hmk
      exact ⟨⟨rfl, rfl⟩, by simp [upRank]⟩
  | create row p =>
    obtain ⟨rfl, rfl⟩ := hp
    have : s.state.disk (placeOf E oid) ≠ some .dir := by
      unfold placeOf
      rw [habc]
      exact h.shape.2.2 _ rfl
    simp only [LfsTask.step]
    exact ⟨⟨rfl, rfl⟩, by simp [upRank]⟩
  | write row p =>
    obtain ⟨rfl, rfl⟩ := hp
    obtain ⟨_, _, _, c, hc⟩ := h.ups i _ oid body ht rfl rfl
    simp only [LfsTask.step, hc, Nat.min_eq_left hlen, hdig, ne_eq, not_true, if_false]
    exact ⟨trivial, by simp [upRank]⟩
  | done r =>
    refine ⟨hp, ?_⟩
    simp [LfsTask.step, upRank]
  | _ => exact hp.elim

end

/-! ## C114 -/

theorem answer_of {s : LfsServer} {i : Nat} {q : LfsReq} {r : Reply LfsOut} (h : s.tasks[i]? = some { req := q, phase := .done r }) : s.answer i = some r := by
  simp only [LfsServer.answer, h]

/-- **C114 (partial)** On a new server on which the uploads of an object carry its content and the announcements of it its size: after one announcement of the
object was answered, every upload of it is answered with success as soon as it has had five turns, whatever requests overlap with it in whatever way. (Missing: wrong sizes, wrong contents and
very short oids, see `C114_size_false`, `C114_deleted_false` and `C68_short_oid_false`. Assumed: one `write` takes the content.) -/
theorem C114_upload_partial (D : DbExt) (hD : Spec.CollationOk D) (E : StoreExt) (s0 : LfsState) (hs : Spec.FreshStore E s0) (oid body : Bytes) (ho : Spec.RouteOid oid)
    (hdig : E.digest body = oid) (hlen : body.length ≤ E.maxWrite) (s : LfsServer) (hr : LfsServer.Runs D E (Spec.Honest D E oid body) (.new s0) s)
    (j : Nat) (vs : List RequestVars) (v : RequestVars) (l : List Rep)
    (ha : s.tasks[j]? = some { req := .batch (ascii "upload") vs, phase := .done (.ok (.entries l)) }) (hv : v ∈ vs) (hvo : v.oid = oid)
    (es : List LfsEv) (hes : ∀ q, .arrive q ∈ es → Spec.Honest D E oid body q) (ht : 5 ≤ Spec.turns s.tasks.length es) :
    (s.schedule D E (.arrive (.upload oid body) :: es)).answer s.tasks.length = some (.ok .stored) := by
  have h := alive_runs hD ho hdig (alive_new hD ho hs) hr
  have hk : OnRecord D oid body s := h.anns j _ vs ha rfl ⟨v, hv, by rw [hvo]⟩
  have hq : Spec.Honest D E oid body (.upload oid body) := by
    refine ⟨?_, ho, by intro op vs e; cases e⟩
    intro o b e
    cases e
    exact ⟨ho, hlen, fun _ => rfl⟩
  have hst := LfsServer.Step.arrive (D := D) (E := E) (R := Spec.Honest D E oid body) s _ hq
  obtain ⟨a1, a2, _⟩ := alive_step hD ho hdig h hst
  obtain ⟨ph, r1, r2, r3⟩ := finishes hD ho hdig (OnRecord D oid body) (fun s s' h hk hst => (alive_step hD ho hdig h hst).2.1 hk) (.upload oid body) s.tasks.length
    (UploadPhase E oid body) upRank (fun s n ph h hk ht hp => upload_own ho hdig h hk ht hp) es _ .start hes a1 (a2 hk) (by simp) trivial
  have r0 : upRank ph = 0 := by
    have : upRank .start = 5 := rfl
    omega
  refine answer_of (q := .upload oid body) (r1.trans ?_)
  match ph, r2, r0 with
  | .done (.ok .stored), _, _ => rfl

/-- **C114 (partial)** On such a server, after one upload of the object was answered with success, every download of it is answered with success as soon as it has had
as many turns as the content has bytes, and four more, whatever requests overlap with it in whatever way; and it delivers the beginning of the content. -/
theorem C114_download_partial (D : DbExt) (hD : Spec.CollationOk D) (E : StoreExt) (s0 : LfsState) (hs : Spec.FreshStore E s0) (oid body : Bytes) (ho : Spec.RouteOid oid)
    (hdig : E.digest body = oid) (s : LfsServer) (hr : LfsServer.Runs D E (Spec.Honest D E oid body) (.new s0) s) (j : Nat) (b : Bytes)
    (ha : s.tasks[j]? = some { req := .upload oid b, phase := .done (.ok .stored) })
    (es : List LfsEv) (hes : ∀ q, .arrive q ∈ es → Spec.Honest D E oid body q) (ht : body.length + 4 ≤ Spec.turns s.tasks.length es) :
    ∃ c, (s.schedule D E (.arrive (.download oid) :: es)).answer s.tasks.length = some (.ok (.content c)) ∧ c <+: body ∧
      (Spec.NoUpload D oid s → (∀ q, .arrive q ∈ es → Spec.NotUploaded D oid q) → c = body) := by
  have h := alive_runs hD ho hdig (alive_new hD ho hs) hr
  obtain ⟨hk, hf⟩ := h.ups j _ oid b ha rfl rfl
  have hq : Spec.Honest D E oid body (.download oid) :=
    ⟨(by intro o b e; cases e), trivial, by intro op vs e; cases e⟩
  have hst := LfsServer.Step.arrive (D := D) (E := E) (R := Spec.Honest D E oid body) s _ hq
  obtain ⟨a1, a2, a3⟩ := alive_step hD ho hdig h hst
  obtain ⟨ph, r1, r2, r3⟩ := finishes hD ho hdig (fun s => OnRecord D oid body s ∧ HasFile E oid s)
    (fun s s' h hk hst => ⟨(alive_step hD ho hdig h hst).2.1 hk.1, (alive_step hD ho hdig h hst).2.2 hk.2⟩) (.download oid) s.tasks.length
    (DownPhase E oid body) (downRank body) (fun s n ph h hk ht hp => down_own ho h hk.1 hk.2 ht hp) es _ .start hes a1 ⟨a2 hk, a3 hf⟩ (by simp) trivial
  have r0 : downRank body ph = 0 := by
    have : downRank body .start = body.length + 4 := rfl
    omega
  have hes' : ∀ q, .arrive q ∈ (.arrive (.download oid) :: es : List LfsEv) → Spec.Honest D E oid body q := by
    intro q hq'
    rcases List.mem_cons.1 hq' with e | e
    · cases e; exact hq
    · exact hes q e
  have hr2 := schedule_runs (D := D) (E := E) (.arrive (.download oid) :: es) s hes'
  have h2 := alive_runs hD ho hdig h hr2
  match ph, r1, r2, r0 with
  | .read p acc, r1, _, r0 =>
    have hpre := h2.tr.reading s.tasks.length _ p acc oid r1 rfl rfl rfl
    have := hpre.length_le
    simp only [downRank] at r0
    omega
  | .done (.ok (.content c)), r1, _, _ =>
    refine ⟨c, answer_of r1, h2.tr.answered s.tasks.length _ c oid r1 rfl rfl rfl, fun hn hno => ?_⟩
    have hr3 : LfsServer.Runs D E (fun q => Spec.OneBody D E oid body q ∧ Spec.NotUploaded D oid q) s (s.schedule D E (.arrive (.download oid) :: es)) := by
      refine schedule_runs _ s fun q hq' => ⟨(hes' q hq').1, ?_⟩
      rcases List.mem_cons.1 hq' with e | e
      · cases e
        intro o b e; cases e
      · exact hno q e
    have weak : LfsServer.Runs D E (Spec.OneBody D E oid body) (.new s0) s := by
      clear * - hr
      induction hr with
      | refl => exact .refl _
      | step t u _ hst ih => exact .step _ _ _ ih (step_weaken (fun q hq => hq.1) hst)
    exact C101_quiet_partial D hD E s0 hs oid body ho s _ weak hn hr3 s.tasks.length (Nat.le_refl _) c r1

theorem honest_right {q : LfsReq} (h : q = announceRight ∨ q = .upload rightOid (ascii "right") ∨ q = .download rightOid) :
    Spec.Honest lowerDb demoStore rightOid (ascii "right") q := by
  refine ⟨oneBody_right h, ?_, ?_⟩
  · rcases h with rfl | rfl | rfl
    · intro v hv
      rw [List.mem_singleton.1 hv]
      decide +kernel
    · exact rightOid_route
    · trivial
  · intro op vs e v hv _
    rcases h with rfl | rfl | rfl <;> cases e
    rw [List.mem_singleton.1 hv]
    exact ⟨rfl, by decide⟩

/-- Two uploads and a download that overlap: all are answered with success, the download delivers the beginning (here nothing). -/
example : ∃ s : LfsServer, s = (LfsServer.new freshLfs).schedule lowerDb demoStore ([.arrive announceRight] ++ stepsOf 0 5 ++ [.arrive (.upload rightOid (ascii "right"))] ++
    stepsOf 1 5 ++ [.arrive (.upload rightOid (ascii "right"))] ++ stepsOf 2 4 ++ [.arrive (.download rightOid)] ++ stepsOf 3 4 ++ stepsOf 2 1 ++ stepsOf 3 5) ∧
    s.answer 1 = some (.ok .stored) ∧ s.answer 2 = some (.ok .stored) ∧ s.answer 3 = some (.ok (.content [])) :=
  ⟨_, rfl, by decide +kernel, by decide +kernel, by decide +kernel⟩

/-- The theorem applied to an upload that overlaps with another one. -/
example (es : List LfsEv) (hes : ∀ q, .arrive q ∈ es → q = announceRight ∨ q = .upload rightOid (ascii "right") ∨ q = .download rightOid) (ht : 5 ≤ Spec.turns 1 es) :
    ((LfsServer.new freshLfs).schedule lowerDb demoStore ([.arrive announceRight] ++ stepsOf 0 5 ++ .arrive (.upload rightOid (ascii "right")) :: es)).answer 1 =
      some (.ok .stored) := by
  have h0 : ∀ q, .arrive q ∈ ([.arrive announceRight] ++ stepsOf 0 5 : List LfsEv) → q = announceRight ∨ q = .upload rightOid (ascii "right") ∨ q = .download rightOid := by
    intro q hq
    simp [stepsOf] at hq
    exact .inl hq
  have hr := schedule_runs (D := lowerDb) (E := demoStore) ([.arrive announceRight] ++ stepsOf 0 5) (.new freshLfs) (fun q hq => honest_right (h0 q hq))
  exact C114_upload_partial lowerDb lowerDb_ok demoStore freshLfs (freshLfs_fresh _) rightOid (ascii "right") rightOid_route (by decide +kernel) (by decide) _ hr 0
    [{ oid := rightOid, size := 5 }] { oid := rightOid, size := 5 } [{ oid := rightOid, size := 5, offer := .upload (internalLink demoStore.origin { oid := rightOid, size := 5 }) }]
    rfl (by simp) rfl es (fun q hq => honest_right (hes q hq)) ht

/-- **C114 is false** when another client sends wrong content: it is rejected, but with it the record of the object, which was uploaded before, is gone, and downloads get no answer. -/
theorem C114_deleted_false : ∃ s, LfsServer.Runs lowerDb demoStore Spec.RoutedReq (.new freshLfs) s ∧ s.answer 1 = some (.ok .stored) ∧ s.answer 2 = some (.status 406) ∧
    s.answer 3 = some .panic := by
  refine ⟨_, schedule_runs ([.arrive announceRight] ++ stepsOf 0 5 ++ [.arrive (.upload rightOid (ascii "right")), .arrive (.upload rightOid (ascii "wrong"))] ++ stepsOf 1 5 ++
    stepsOf 2 6 ++ [.arrive (.download rightOid)] ++ stepsOf 3 4) _ ?_, by decide +kernel, by decide +kernel, by decide +kernel⟩
  intro q hq o b e
  subst e
  simp [stepsOf, announceRight] at hq
  rcases hq with hq | hq <;> rw [hq.1] <;> exact rightOid_route

/-- **C114 is false** when another client announced the object with a wrong size: the upload of the right content is rejected. -/
theorem C114_size_false : ∃ s, LfsServer.Runs lowerDb demoStore Spec.RoutedReq (.new freshLfs) s ∧ (∃ l, s.answer 1 = some (.ok (.entries l))) ∧
    s.answer 2 = some (.status 406) := by
  refine ⟨_, schedule_runs ([.arrive (.batch (ascii "upload") [{ oid := rightOid, size := 7 }])] ++ stepsOf 0 5 ++ [.arrive announceRight] ++ stepsOf 1 5 ++
    [.arrive (.upload rightOid (ascii "right"))] ++ stepsOf 2 6) _ ?_,
    ⟨[{ oid := rightOid, size := 7, offer := .upload (internalLink demoStore.origin { oid := rightOid, size := 5 }) }], by decide +kernel⟩, by decide +kernel⟩
  intro q hq o b e
  subst e
  simp [stepsOf, announceRight] at hq
  rw [hq.1]
  exact rightOid_route

end Gust

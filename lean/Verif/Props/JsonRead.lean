import Verif.Lemmas.JsonReq
import Verif.Props.LfsShared

/-! # C131: requests of the LFS API are read whatever way they are written -/

namespace Gust

/-! ## What the server reads -/

theorem ref_iff {l : List (Bytes × Json)} (h : (Json.obj l).Written) (name : Bytes) : (Json.obj l).ref = some name ↔ Spec.IsRef (.obj l) name := by
  rw [Json.ref]
  simp only [Option.bind_eq_bind, Option.bind_eq_some_iff]
  constructor
  · rintro ⟨f, hf, hr⟩
    obtain ⟨hn, l', rfl, hl⟩ := (fields_names h 1 f).1 hf
    obtain ⟨v, hs, ht⟩ := (need_iff hl _ _ _ _).1 hr
    exact ⟨l, v, rfl, hn, hs, (text_iff (says_written h hs) name).1 ht⟩
  · rintro ⟨l1, w, e, hn, hs, ht⟩
    cases e
    obtain ⟨l', hf, hl⟩ := names_fields h hn 1
    exact ⟨_, hf, (need_iff hl _ _ _ _).2 ⟨w, hs, (text_iff (says_written h hs) name).2 ht⟩⟩

theorem ref_of {v : Json} {name : Bytes} (h : v.Written) (hr : Spec.IsRef v name) : v.ref = some name := by
  obtain ⟨l, w, rfl, h1⟩ := hr
  exact (ref_iff h name).2 ⟨l, w, rfl, h1⟩

theorem lock_read {s ref path : Bytes} (h : Spec.LockBody s ref path) : serdeJson.lock s = some (ref, path) := by
  obtain ⟨l, p, r, hd, hn, hp, ht, hr, hi⟩ := h
  have hw := doc_written hd
  obtain ⟨l', hf, hl⟩ := names_fields hw hn 2
  show (parseJson s).bind Json.lockRequest = _
  rw [(parseJson_iff s _).2 hd, Option.bind_some, Json.lockRequest, hf]
  simp only [Option.bind_eq_bind, Option.bind_some, (need_iff hl 0 _ _ path).2 ⟨p, hp, (text_iff (says_written hw hp) path).2 ht⟩,
    (need_iff hl 1 _ _ ref).2 ⟨r, hr, ref_of (says_written hw hr) hi⟩]
  rfl

theorem maySay_map {α : Type} {l : List (Bytes × Json)} {k : Bytes} {is is' : Json → α → Prop} {o : Option α} (h : ∀ v a, Spec.Says l k v → is v a → is' v a)
    (hs : Spec.MaySay l k is o) : Spec.MaySay l k is' o := by
  cases o with
  | none => exact hs
  | some a =>
    obtain ⟨v, h1, h2⟩ := hs
    exact ⟨v, h1, h v a h1 h2⟩

theorem unlock_read {s ref : Bytes} {force : Option Bool} (h : Spec.UnlockBody s ref force) : serdeJson.unlock s = some (ref, force) := by
  obtain ⟨l, r, hd, hn, hp, hr, hi⟩ := h
  have hw := doc_written hd
  obtain ⟨l', hf, hl⟩ := names_fields hw hn 2
  show (parseJson s).bind Json.unlockRequest = _
  rw [(parseJson_iff s _).2 hd, Option.bind_some, Json.unlockRequest, hf]
  simp only [Option.bind_eq_bind, Option.bind_some, (opt_iff hl 0 _ Json.flag rfl force).2 (maySay_map (fun v a _ e => (flag_iff v a).2 e) hp),
    (need_iff hl 1 _ _ ref).2 ⟨r, hr, ref_of (says_written hw hr) hi⟩]
  rfl

theorem verify_read {s ref : Bytes} {cursor : Option Bytes} {limit : Option Int} (h : Spec.VerifyBody s ref cursor limit) :
    serdeJson.verify s = some (ref, cursor, limit) := by
  obtain ⟨l, r, hd, hn, hr, hi, hc, hm⟩ := h
  have hw := doc_written hd
  obtain ⟨l', hf, hl⟩ := names_fields hw hn 3
  show (parseJson s).bind Json.verifyRequest = _
  rw [(parseJson_iff s _).2 hd, Option.bind_some, Json.verifyRequest, hf]
  simp only [Option.bind_eq_bind, Option.bind_some,
    (need_iff hl 0 _ _ ref).2 ⟨r, hr, ref_of (says_written hw hr) hi⟩,
    (opt_iff hl 1 _ Json.text rfl cursor).2 (maySay_map (fun v a hs e => (text_iff (says_written hw hs) a).2 e) hc),
    (opt_iff hl 2 _ Json.int rfl limit).2 (maySay_map (fun v a hs e => (int_iff (says_written hw hs) a).2 e) hm)]
  rfl

theorem object_read {v : Json} {o : RequestVars} (h : v.Written) (hi : Spec.IsObject v o) : v.requestVars = some o := by
  obtain ⟨l, i, z, rfl, hn, h1, h2, h3, h4, h5, ⟨c, h6⟩, h7, d, h8⟩ := hi
  obtain ⟨l', hf, hl⟩ := names_fields h hn 6
  have hw := fun m hm => (obj_written h m hm).2
  rw [Json.requestVars, hf]
  simp only [Option.bind_eq_bind, Option.bind_some,
    (need_iff hl 0 _ _ o.oid).2 ⟨i, h1, (text_iff (says_written h h1) _).2 h2⟩,
    (need_iff hl 1 _ _ o.size).2 ⟨z, h3, (int_iff (says_written h h3) _).2 h4⟩,
    (dflt_iff hl 2 _ hw _).2 h5, (dflt_iff hl 3 _ hw _).2 h6, (dflt_iff hl 4 _ hw _).2 h7, (dflt_iff hl 5 _ hw _).2 h8]
  rfl

theorem batch_read {s operation : Bytes} {objects : List RequestVars} (h : Spec.BatchBody s operation objects) : serdeJson.batch s = some (operation, objects) := by
  obtain ⟨l, ts, o, vs, hd, hn, h1, h2, h3, h4, h5, h6⟩ := h
  have hw := doc_written hd
  obtain ⟨l', hf, hl⟩ := names_fields hw hn 3
  have htr : ∃ cs, Json.vec Json.text (.arr ts) = some cs := by
    have hwt := arr_written (says_written hw h1)
    rw [Json.vec]
    clear h1
    induction ts with
    | nil => exact ⟨[], rfl⟩
    | cons t ts ih =>
      obtain ⟨c, hc⟩ := h2 t (by simp)
      obtain ⟨cs, hcs⟩ := ih (fun x hx => h2 x (by simp [hx])) (fun x hx => hwt x (by simp [hx]))
      exact ⟨c :: cs, by rw [List.mapM_cons, (text_iff (hwt t (by simp)) c).2 hc]; simp only [Option.bind_eq_bind, Option.bind_some, hcs]; rfl⟩
  obtain ⟨cs, hcs⟩ := htr
  have hob : Json.vec Json.requestVars (.arr vs) = some objects := by
    have hwt := arr_written (says_written hw h5)
    rw [Json.vec]
    clear h5
    induction h6 with
    | nil => rfl
    | cons hx hl ih =>
      rename_i v o vs os
      rw [List.mapM_cons, object_read (hwt v (by simp)) hx]
      simp only [Option.bind_eq_bind, Option.bind_some, ih (fun x hx => hwt x (by simp [hx]))]
      rfl
  show (parseJson s).bind Json.batchVars = _
  rw [(parseJson_iff s _).2 hd, Option.bind_some, Json.batchVars, hf]
  simp only [Option.bind_eq_bind, Option.bind_some, (need_iff hl 0 _ _ cs).2 ⟨_, h1, hcs⟩,
    (need_iff hl 1 _ _ operation).2 ⟨o, h3, (text_iff (says_written hw h3) _).2 h4⟩, (need_iff hl 2 _ _ objects).2 ⟨_, h5, hob⟩]
  rfl

/-! ## The server -/

/-- What a client asks, apart from the way it is written. -/
inductive Spec.LfsCall
  | lock (ref path : Bytes)
  | unlock (id ref : Bytes) (force : Option Bool)
  | verify (ref : Bytes) (cursor : Option Bytes) (limit : Option Int)
  | batch (operation : Bytes) (objects : List RequestVars)

/-- The request says this. -/
def Spec.LfsCall.WrittenAs : Spec.LfsCall → Spec.LfsAsk → Prop
  | lock ref path, .lock body => Spec.LockBody body ref path
  | unlock id ref force, .unlock id' body => id' = id ∧ (0x2f : UInt8) ∉ id ∧ Spec.UnlockBody body ref force
  | verify ref cursor limit, .verify body => Spec.VerifyBody body ref cursor limit
  | batch operation objects, .batch body => Spec.BatchBody body operation objects
  | _, _ => False

theorem doc_nonempty {v : Json} {s : Bytes} (h : Spec.JsonDoc v s) : s ≠ [] := by
  obtain ⟨w, t, w', -, ht, -, rfl⟩ := h
  obtain ⟨c, t', rfl, -⟩ := value_head v t ht
  simp

/-- What the handlers make of what is asked. -/
def callAnswer (P : ServerExt) (m : Moment) (s : ServerState) : Spec.LfsCall → Outcome × ServerState
  | .lock ref path => ((createLock P.D s.locks ref path m.lockId m.now).1.outcome .lock, { s with locks := (createLock P.D s.locks ref path m.lockId m.now).2 })
  | .unlock id ref force =>
    if id = [] then (.reply (.status 400), s) else ((deleteLock P.D s.locks ref id force).1.outcome .lock, { s with locks := (deleteLock P.D s.locks ref id force).2 })
  | .verify ref cursor limit => ((verifyLock P.D s.locks ref cursor limit).outcome .verified, s)
  | .batch operation objects =>
    ((processBatch P.D P.S s.lfs operation objects).1.outcome .objects, { s with lfs := (processBatch P.D P.S s.lfs operation objects).2 })

theorem serve_call (P : ServerExt) (hJ : P.J = serdeJson) (m : Moment) (s : ServerState) (u : Bytes) (c : Spec.LfsCall) (a : Spec.LfsAsk) (h : c.WrittenAs a) :
    serve P m s (a.to u) = callAnswer P m s c := by
  have hok : a.Ok := by
    cases c <;> cases a <;> first | exact h.elim | trivial | (obtain ⟨rfl, h1, -⟩ := h; exact h1)
  unfold serve
  rw [lfs_route u a hok, hJ]
  cases c with
  | lock ref path =>
    cases a with
    | lock body => simp only [Spec.LfsAsk.handler, Spec.LfsAsk.to, callAnswer, lock_read h]
    | _ => exact h.elim
  | unlock id ref force =>
    cases a with
    | unlock id' body =>
      obtain ⟨rfl, -, hb⟩ := h
      have hne : body ≠ [] := by obtain ⟨_, _, hd, _⟩ := hb; exact doc_nonempty hd
      simp only [Spec.LfsAsk.handler, Spec.LfsAsk.to, callAnswer, unlock_read hb, hne, or_false]
    | _ => exact h.elim
  | verify ref cursor limit =>
    cases a with
    | verify body => simp only [Spec.LfsAsk.handler, Spec.LfsAsk.to, callAnswer, verify_read h]
    | _ => exact h.elim
  | batch operation objects =>
    cases a with
    | batch body => simp only [Spec.LfsAsk.handler, Spec.LfsAsk.to, callAnswer, batch_read h]
    | _ => exact h.elim

/-- **C131**, partial: two requests that say the same are answered alike and change the same. -/
theorem C131_layout_partial (P : ServerExt) (hJ : P.J = serdeJson) (m : Moment) (s : ServerState) (u : Bytes) (c : Spec.LfsCall) (a a' : Spec.LfsAsk) (h : c.WrittenAs a)
    (h' : c.WrittenAs a') : serve P m s (a.to u) = serve P m s (a'.to u) :=
  (serve_call P hJ m s u c a h).trans (serve_call P hJ m s u c a' h').symm

/-- **C131**, partial, locks: a successful request gives a lock for the path that it names, and until somebody deletes a lock no other request for the same path and ref is successful, whatever way it is
written. -/
theorem C131_lock_partial (P : ServerExt) (hJ : P.J = serdeJson) (m : Moment) (s : ServerState) (u body ref path : Bytes) (l : Lock) (hb : Spec.LockBody body ref path)
    (hok : (serve P m s ((Spec.LfsAsk.lock body).to u)).1 = .reply (.ok (.lock l))) :
    l.path = path ∧ ∀ (h : List (Moment × HttpReq)) (m' : Moment) (v body' : Bytes), (∀ p ∈ h, ∀ id, route p.2.method p.2.path p.2.service ≠ .deleteLock id) →
      Spec.LockBody body' ref path →
      (serve P m' (runServer P (serve P m s ((Spec.LfsAsk.lock body).to u)).2 h) ((Spec.LfsAsk.lock body').to v)).1 = .reply (.status 409) := by
  rw [serve_call P hJ m s u (.lock ref path) (.lock body) hb] at hok ⊢
  have hc : (createLock P.D s.locks ref path m.lockId m.now).1 = .ok l := by
    change (createLock P.D s.locks ref path m.lockId m.now).1.outcome .lock = _ at hok
    cases e : (createLock P.D s.locks ref path m.lockId m.now).1 with
    | ok x => rw [e] at hok; cases hok; rfl
    | status c => rw [e] at hok; cases hok
    | panic => rw [e] at hok; cases hok
  refine ⟨?_, fun h m' v body' hh hb' => ?_⟩
  · rcases createLock_cases P.D s.locks ref path m.lockId m.now with ⟨-, e⟩ | ⟨-, -, e⟩ | ⟨-, t', -, e⟩
    · rw [e] at hc; cases hc
    · rw [e] at hc; cases hc
    · rw [e] at hc; cases hc; rfl
  · have hk := run_keeps P h (callAnswer P m s (.lock ref path)).2 hh (created_holds hc)
    rw [serve_call P hJ m' _ v (.lock ref path) (.lock body') hb']
    show (createLock P.D _ ref path m'.lockId m'.now).1.outcome .lock = _
    rw [held_conflict hk]
    rfl

/-- A request whose body is read by the server as JSON. -/
def Spec.LfsAsk.body? : Spec.LfsAsk → Option Bytes
  | .lock body | .unlock _ body | .verify body | .batch body => some body
  | _ => none

/-- No change, and no answer that a client could use. -/
def Spec.Dropped (P : ServerExt) (m : Moment) (s : ServerState) (r : HttpReq) : Prop :=
  (serve P m s r).2 = s ∧ ((serve P m s r).1 = .reply .panic ∨ (serve P m s r).1 = .reply (.status 400))

theorem dropped_of (P : ServerExt) (m : Moment) (s : ServerState) (u : Bytes) (a : Spec.LfsAsk) (ha : a.Ok) (body : Bytes) (hb : a.body? = some body)
    (h1 : ∀ b, a = .lock b → P.J.lock b = none) (h2 : ∀ i b, a = .unlock i b → P.J.unlock b = none) (h3 : ∀ b, a = .verify b → P.J.verify b = none)
    (h4 : ∀ b, a = .batch b → P.J.batch b = none) : Spec.Dropped P m s (a.to u) := by
  unfold Spec.Dropped serve
  rw [lfs_route u a ha]
  cases a with
  | lock b => simp only [Spec.LfsAsk.handler, Spec.LfsAsk.to, h1 b rfl]; simp
  | unlock i b =>
    simp only [Spec.LfsAsk.handler, Spec.LfsAsk.to, h2 i b rfl]
    split <;> simp
  | verify b => simp only [Spec.LfsAsk.handler, Spec.LfsAsk.to, h3 b rfl]; simp
  | batch b => simp only [Spec.LfsAsk.handler, Spec.LfsAsk.to, h4 b rfl]; simp
  | _ => cases hb

/-- **C131**, malformed requests: what is no JSON text changes nothing. -/
theorem C131_malformed (P : ServerExt) (hJ : P.J = serdeJson) (m : Moment) (s : ServerState) (u : Bytes) (a : Spec.LfsAsk) (ha : a.Ok) (body : Bytes) (hb : a.body? = some body)
    (hbad : ∀ v, ¬ Spec.JsonDoc v body) : Spec.Dropped P m s (a.to u) := by
  have hp : parseJson body = none := by
    cases e : parseJson body with
    | none => rfl
    | some v => exact absurd ((parseJson_iff body v).1 e) (hbad v)
  refine dropped_of P m s u a ha body hb ?_ ?_ ?_ ?_
  all_goals
    intros
    rename_i e
    subst e
    rw [hJ]
    cases hb
    simp only [serdeJson, hp, Option.bind_none]

theorem doc_unique {v v' : Json} {s : Bytes} (h : Spec.JsonDoc v s) (h' : Spec.JsonDoc v' s) : v = v' := by
  have := (parseJson_iff s v).2 h
  rw [(parseJson_iff s v').2 h'] at this
  cases this; rfl

theorem says_unique {l : List (Bytes × Json)} {k : Bytes} {v w : Json} (hv : Spec.Says l k v) (hw : Spec.Says l k w) : v = w := by
  obtain ⟨pre, raw, post, rfl, h1, h2⟩ := hv
  obtain ⟨pre', raw', post', e, h3, h4⟩ := hw
  have hm : (raw', w) ∈ pre ++ (raw, v) :: post := by rw [e]; simp
  rcases List.mem_append.1 hm with hm | hm
  · exact absurd h3 (h2 (raw', w) (by simp [hm]))
  · rcases List.mem_cons.1 hm with hm | hm
    · cases hm; rfl
    · exact absurd h3 (h2 (raw', w) (by simp [hm]))

/-- **C131**, nothing else: an object (whose `ref` is not an array, which is taken for an object without names) is a request for a lock exactly when it says one ref and one path. -/
theorem C131_exact (s : Bytes) (l : List (Bytes × Json)) (hd : Spec.JsonDoc (.obj l) s) (ha : ∀ a, ¬ Spec.Says l (ascii "ref") (.arr a)) (ref path : Bytes) :
    serdeJson.lock s = some (ref, path) ↔ Spec.LockBody s ref path := by
  refine ⟨fun h => ?_, lock_read⟩
  have hw := doc_written hd
  change (parseJson s).bind Json.lockRequest = _ at h
  rw [(parseJson_iff s _).2 hd, Option.bind_some, Json.lockRequest] at h
  simp only [Option.bind_eq_bind, Option.bind_eq_some_iff] at h
  obtain ⟨f, hf, p, hp, r, hr, e⟩ := h
  cases e
  obtain ⟨hn, l', rfl, hl⟩ := (fields_names hw 2 f).1 hf
  obtain ⟨v, hv, ht⟩ := (need_iff hl _ _ _ _).1 hp
  obtain ⟨w, hw', hr'⟩ := (need_iff hl _ _ _ _).1 hr
  refine ⟨l, v, w, hd, hn, hv, (text_iff (says_written hw hv) _).1 ht, hw', ?_⟩
  cases w with
  | obj lr => exact (ref_iff (says_written hw hw') ref).1 hr'
  | arr a => exact absurd hw' (ha a)
  | _ => cases hr'

theorem need_lacks {α : Type} {l : List (Bytes × Json)} {n i : Nat} {k : Bytes} {rd : Json → Option α} {f : Fields} (hw : (Json.obj l).Written) (hk : Spec.Lacks l k)
    (hf : (Json.obj l).fields n = some f) : f.need i k rd = none := by
  obtain ⟨-, l', rfl, hl⟩ := (fields_names hw n f).1 hf
  rw [Fields.need, (find_cases hl i k).1.2 hk]

/-- **C131 is false**, batches: the API lets clients leave out `transfers` (they mean the basic way then). A batch request without it is never answered. -/
theorem C131_transfers_false (P : ServerExt) (hJ : P.J = serdeJson) (m : Moment) (s : ServerState) (u body : Bytes) (l : List (Bytes × Json))
    (hd : Spec.JsonDoc (.obj l) body) (hk : Spec.Lacks l (ascii "transfers")) : serve P m s ((Spec.LfsAsk.batch body).to u) = (.reply .panic, s) := by
  have hb : serdeJson.batch body = none := by
    show (parseJson body).bind Json.batchVars = none
    rw [(parseJson_iff body _).2 hd, Option.bind_some, Json.batchVars]
    cases hf : (Json.obj l).fields 3 with
    | none => rfl
    | some f => simp only [Option.bind_eq_bind, Option.bind_some, need_lacks (doc_written hd) hk hf, Option.bind_none]
  unfold serve
  rw [lfs_route u _ (by trivial), hJ]
  simp only [Spec.LfsAsk.handler, Spec.LfsAsk.to, hb]

/-- **C131 is false**, locks: the API lets clients leave out `ref`. A request to create a lock, or for the locks before a push, without it is never answered; nor is a deletion. -/
theorem C131_ref_false (P : ServerExt) (hJ : P.J = serdeJson) (m : Moment) (s : ServerState) (u body : Bytes) (l : List (Bytes × Json))
    (hd : Spec.JsonDoc (.obj l) body) (hk : Spec.Lacks l (ascii "ref")) :
    serve P m s ((Spec.LfsAsk.lock body).to u) = (.reply .panic, s) ∧ serve P m s ((Spec.LfsAsk.verify body).to u) = (.reply .panic, s) ∧
      ∀ id, id ≠ [] → (0x2f : UInt8) ∉ id → serve P m s ((Spec.LfsAsk.unlock id body).to u) = (.reply .panic, s) := by
  have h1 : serdeJson.lock body = none := by
    show (parseJson body).bind Json.lockRequest = none
    rw [(parseJson_iff body _).2 hd, Option.bind_some, Json.lockRequest]
    cases hf : (Json.obj l).fields 2 with
    | none => rfl
    | some f =>
      simp only [Option.bind_eq_bind, Option.bind_some, need_lacks (doc_written hd) hk hf, Option.bind_none]
      cases f.need 0 (ascii "path") Json.text <;> rfl
  have h2 : serdeJson.verify body = none := by
    show (parseJson body).bind Json.verifyRequest = none
    rw [(parseJson_iff body _).2 hd, Option.bind_some, Json.verifyRequest]
    cases hf : (Json.obj l).fields 3 with
    | none => rfl
    | some f => simp only [Option.bind_eq_bind, Option.bind_some, need_lacks (doc_written hd) hk hf, Option.bind_none]
  have h3 : serdeJson.unlock body = none := by
    show (parseJson body).bind Json.unlockRequest = none
    rw [(parseJson_iff body _).2 hd, Option.bind_some, Json.unlockRequest]
    cases hf : (Json.obj l).fields 2 with
    | none => rfl
    | some f =>
      simp only [Option.bind_eq_bind, Option.bind_some, need_lacks (doc_written hd) hk hf, Option.bind_none]
      cases f.opt 0 (ascii "force") Json.flag <;> rfl
  refine ⟨?_, ?_, fun id hid hok => ?_⟩
  · unfold serve
    rw [lfs_route u _ (by trivial), hJ]
    simp only [Spec.LfsAsk.handler, Spec.LfsAsk.to, h1]
  · unfold serve
    rw [lfs_route u _ (by trivial), hJ]
    simp only [Spec.LfsAsk.handler, Spec.LfsAsk.to, h2]
  · unfold serve
    rw [lfs_route u _ (show (Spec.LfsAsk.unlock id body).Ok from hok), hJ]
    simp only [Spec.LfsAsk.handler, Spec.LfsAsk.to, h3]
    rw [if_neg (by rintro (h | h); exacts [hid h, doc_nonempty hd h])]

/-! ## Examples -/

/-- `{ "ref" : {"name":"refs\/heads\/main"}, "force": [1, -2.5e3, {}], "path": "bär 😀.zip" }` -/
def oddLockBody : Bytes :=
  ascii "{ \"ref\" : {\"name\":\"refs\\/heads\\/main\"},\t\"force\": [1, -2.5e3, {}], \"p\\u0061th\": \"b\\u00e4r \\ud83d\\ude00.zip\" }\r\n"

/-- The same, as git-lfs writes it. -/
def plainLockBody : Bytes := ascii "{\"path\":\"b" ++ [0xc3, 0xa4] ++ ascii "r " ++ [0xf0, 0x9f, 0x98, 0x80] ++ ascii ".zip\",\"ref\":{\"name\":\"refs/heads/main\"}}"

/-- What both say. -/
def oddPath : Bytes := ascii "b" ++ [0xc3, 0xa4] ++ ascii "r " ++ [0xf0, 0x9f, 0x98, 0x80] ++ ascii ".zip"

/-- The text is an object whose `ref` is no array. -/
def namedRef (s : Bytes) : Bool :=
  match parseJson s with
  | some (.obj l) => l.all (fun m => match m.2 with
    | .arr _ => jsonContent m.1 != some (ascii "ref")
    | _ => true)
  | _ => false

theorem lockBody_of {s ref path : Bytes} (h : serdeJson.lock s = some (ref, path)) (hn : namedRef s = true) : Spec.LockBody s ref path := by
  rw [namedRef] at hn
  split at hn
  · rename_i l e
    refine (C131_exact s l ((parseJson_iff s _).1 e) (fun a ha => ?_) ref path).1 h
    obtain ⟨pre, raw, post, rfl, hr, -⟩ := ha
    have := List.all_eq_true.1 hn (raw, .arr a) (by simp)
    simp only [jsonContent_reads _ _ hr, bne_self_eq_false] at this
    cases this
  · cases hn

theorem odd_body : Spec.LockBody oddLockBody (ascii "refs/heads/main") oddPath := lockBody_of (by decide +kernel) (by decide +kernel)
theorem plain_body : Spec.LockBody plainLockBody (ascii "refs/heads/main") oddPath := lockBody_of (by decide +kernel) (by decide +kernel)

/-- Two ways to ask for the same lock. -/
example (P : ServerExt) (hJ : P.J = serdeJson) (m : Moment) (s : ServerState) (u : Bytes) :
    serve P m s ((Spec.LfsAsk.lock oddLockBody).to u) = serve P m s ((Spec.LfsAsk.lock plainLockBody).to u) :=
  C131_layout_partial P hJ m s u (.lock (ascii "refs/heads/main") oddPath) _ _ odd_body plain_body

/-- The request of the documentation of the API, without `ref`. -/
def docLockBody : Bytes := ascii "{\"path\": \"foo/bar.zip\"}"

/-- The batch request of the documentation of the API, without `transfers`. -/
def docBatchBody : Bytes :=
  ascii "{\"operation\": \"download\", \"objects\": [{\"oid\": \"12345678\", \"size\": 123}]}"

theorem lacks_of {s k : Bytes} (h : (match parseJson s with
    | some (.obj l) => l.all (fun m => jsonContent m.1 != some k)
    | _ => false) = true) : ∃ l, Spec.JsonDoc (.obj l) s ∧ Spec.Lacks l k := by
  split at h
  · rename_i l e
    refine ⟨l, (parseJson_iff s _).1 e, fun m hm hr => ?_⟩
    have := List.all_eq_true.1 h m hm
    simp only [jsonContent_reads _ _ hr, bne_self_eq_false] at this
    cases this
  · cases h

example (P : ServerExt) (hJ : P.J = serdeJson) (m : Moment) (s : ServerState) (u : Bytes) : serve P m s ((Spec.LfsAsk.lock docLockBody).to u) = (.reply .panic, s) := by
  obtain ⟨l, hd, hk⟩ := lacks_of (s := docLockBody) (k := ascii "ref") (by decide +kernel)
  exact (C131_ref_false P hJ m s u docLockBody l hd hk).1

example (P : ServerExt) (hJ : P.J = serdeJson) (m : Moment) (s : ServerState) (u : Bytes) : serve P m s ((Spec.LfsAsk.batch docBatchBody).to u) = (.reply .panic, s) := by
  obtain ⟨l, hd, hk⟩ := lacks_of (s := docBatchBody) (k := ascii "transfers") (by decide +kernel)
  exact C131_transfers_false P hJ m s u docBatchBody l hd hk

/-- A request that is cut off. -/
example (P : ServerExt) (hJ : P.J = serdeJson) (m : Moment) (s : ServerState) (u : Bytes) : Spec.Dropped P m s ((Spec.LfsAsk.lock (ascii "{\"path\":\"a\"")).to u) :=
  C131_malformed P hJ m s u _ (by trivial) _ rfl (fun v hv => by
    have := (parseJson_iff _ v).2 hv
    rw [show parseJson (ascii "{\"path\":\"a\"") = none from Option.isNone_iff_eq_none.1 (by decide +kernel)] at this
    cases this)

end Gust

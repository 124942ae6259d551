import Verif.Props.NoMaster
import Verif.Props.BothConfined
import Verif.Props.SchemaExamples

/-! # C145: what makes the database grow -/

namespace Gust

/-! ## How long a generated commit is -/

theorem parseDigits_lt {dv : UInt8 → Option Nat} {b : Nat} (hd : ∀ c d, dv c = some d → d < b) : ∀ (s : Bytes) (acc v : Nat), parseDigits dv b acc s = some v → v < (acc + 1) * b ^ s.length
  | [], acc, v, h => by
    simp only [parseDigits, Option.some.injEq] at h
    simp [h]
  | c :: s, acc, v, h => by
    rw [parseDigits] at h
    cases hc : dv c with
    | none => rw [hc] at h; cases h
    | some d =>
      rw [hc] at h
      have h1 := parseDigits_lt hd s _ v h
      have h2 := hd c d hc
      refine Nat.lt_of_lt_of_le h1 ?_
      rw [List.length_cons, Nat.pow_succ', ← Nat.mul_assoc]
      apply Nat.mul_le_mul_right
      rw [Nat.add_mul]
      omega

theorem toDigits_length : ∀ (k n : Nat), 0 < k → n < 10 ^ k → (toDigits 10 n).length ≤ k
  | 0, _, h, _ => absurd h (by omega)
  | k + 1, n, _, h => by
    rw [toDigits]
    split
    · simp
    · rename_i hn
      have h1 : n / 10 < 10 ^ k := by
        rw [Nat.pow_succ] at h
        omega
      have h2 : 0 < k := by
        rcases Nat.eq_zero_or_pos k with rfl | h
        · simp at h1
          omega
        · exact h
      have := toDigits_length k (n / 10) h2 h1
      simp
      omega

theorem parseUsize_length {s : Bytes} {n : Nat} (h : parseUsize s = some n) : (decStr n).length ≤ s.length := by
  unfold parseUsize parseUnsigned at h
  simp only at h
  split at h
  · cases h
  · rename_i hne
    split at h
    · rename_i v hv
      split at h
      · cases h
        have h1 := parseDigits_lt (dv := decCharValue) (b := 10) (by
          intro c d hd
          unfold decCharValue at hd
          split at hd
          · cases hd; omega
          · cases hd) _ _ _ hv
        have h2 : (stripPlus s).length ≤ s.length := by
          cases s with
          | nil => simp [stripPlus]
          | cons c s => simp only [stripPlus]; split <;> simp
        have h3 : 0 < (stripPlus s).length := List.length_pos_iff.2 hne
        have := toDigits_length _ n h3 (by simpa using h1)
        rw [decStr, List.length_map]
        omega
      · cases h
    · cases h

theorem slice_length {α : Type} {data s : List α} {i j : Nat} (h : slice data i j = .ok s) : i ≤ j ∧ j ≤ data.length ∧ s.length = j - i := by
  obtain ⟨h1, h2, rfl⟩ := slice_ok h
  refine ⟨h1, h2, ?_⟩
  rw [List.length_drop, List.length_take]
  omega

theorem sliceFrom_length {α : Type} {data s : List α} {i : Nat} (h : sliceFrom data i = .ok s) : i ≤ data.length ∧ s.length = data.length - i := by
  obtain ⟨h1, rfl⟩ := sliceFrom_ok h
  exact ⟨h1, List.length_drop⟩

/-- Writing a line of author or committer again does not make it longer. -/
theorem sign_length {d : Bytes} {s : AuthorSign} (h : AuthorSign.decode d = .ok s) : s.encode.length ≤ d.length := by
  unfold AuthorSign.decode at h
  simp only [Res.bind_eq_ok] at h
  obtain ⟨a, _, t, h2, t', h3, es, _, ee, _, h⟩ := h
  split at h
  · cases h
  · rename_i hes
    simp only [Res.bind_eq_ok, Res.pure_eq, Res.ok.injEq] at h
    obtain ⟨n, k1, n', k2, e, k3, e', k4, r, k5, sp, _, ts, k6, ts', k7, v, k8, tz, k9, tz', k10, rfl⟩ := h
    have := (toStr_eq_ok h3).1
    have := (toStr_eq_ok k2).1
    have := (toStr_eq_ok k4).1
    have := (toStr_eq_ok k7).1
    have := (toStr_eq_ok k10).1
    subst t' n' e' ts' tz'
    have k8 : parseUsize ts = some v := by
      cases hv : parseUsize ts with
      | none => rw [hv] at k8; cases k8
      | some w => rw [hv] at k8; cases k8; rfl
    have l8 := parseUsize_length k8
    have b2 := slice_length h2
    have b1 := slice_length k1
    have b3 := slice_length k3
    have b5 := sliceFrom_length k5
    have b6 := slice_length k6
    have b9 := sliceFrom_length k9
    simp only [AuthorSign.encode, List.length_append, List.length_cons, List.length_nil]
    omega

/-- Writing a commit again, without its parents and with another tree, makes it at most four bytes longer. -/
theorem commit_length {d : Bytes} {c : Commit} (h : Commit.decode d = .ok c) (t : Hash) : (Commit.encode { c with treeId := t, parents := [] }).length ≤ d.length + 4 := by
  unfold Commit.decode at h
  simp only [Res.bind_eq_ok, Res.pure_eq, Res.ok.injEq] at h
  obtain ⟨tb, _, te, _, text, h1, tree, h2, d1, h3, ab, _, ps, _, d2, h4, nl, _, ad, h5, au, h6, d3, h7, nl2, _, cd, h8, co, h9, ms, h10, ms', h11, rfl⟩ := h
  have := (toStr_eq_ok h11).1
  subst ms'
  have h2 : text.length = 40 := by
    cases hx : Hash.fromBytes text with
    | none => rw [hx] at h2; cases h2
    | some x => exact (Hash.fromBytes_some hx).2.1
  have := slice_length h1
  have := sliceFrom_length h3
  have := sliceFrom_length h4
  have := slice_length h5
  have := sign_length h6
  have := sliceFrom_length h7
  have := slice_length h8
  have := sign_length h9
  have := sliceFrom_length h10
  have ht : (Hash.toPlainStr t).length = 40 := Hash.toPlainStr_length t
  have e4 : (ascii "tree").length = 4 := rfl
  simp only [Commit.encode, List.length_append, List.length_cons, List.length_nil, List.flatMap_nil, ht, e4]
  omega

/-! ## Reading -/

/-- A step that carries no pack: the database stays, or a HEAD has been asked for, for the path that the request names. -/
theorem both_read (P : ServerExt) (m : Moment) (s : Both) (v : Visit) (hs : ∀ a file, ¬ Sends s a file v) :
    (bothStep P m s v).web.db = s.web.db ∨ ∃ a, v.repo = some a ∧ (bothStep P m s v).web.db = (getHeadObjectId P.X m.sql s.web.db a).2 := by
  cases v with
  | http r =>
    rcases http_effect P m s.web r with h | ⟨a, h1, h2⟩
    · exact .inl h
    · show (serve P m s.web r).2.db = s.web.db ∨ ∃ a, _ ∧ (serve P m s.web r).2.db = _
      revert h2
      generalize (serve P m s.web r).2.db = db'
      intro h2
      cases h2 with
      | same => exact .inl rfl
      | head => exact .inr ⟨a, h1, rfl⟩
      | push file p h _ => exact absurd h (hs a file)
      | pushRef file p cmd h _ => exact absurd h (hs a file)
  | ssh i e =>
    show (sshLinkStep P.X m s.web.db (s.link i) e).2.2 = s.web.db ∨ ∃ a, _ ∧ (sshLinkStep P.X m s.web.db (s.link i) e).2.2 = _
    cases hl : s.link i with
    | fresh => cases e <;> exact .inl rfl
    | hung => exact .inl rfl
    | closed => exact .inl rfl
    | ready p =>
      cases e with
      | auth u s => exact .inl rfl
      | exec ch command =>
        simp only [sshLinkStep, sshExec, Visit.repo]
        cases hc : sshCommand command with
        | ok r =>
          obtain ⟨path, t⟩ := r
          refine .inr ⟨path, rfl, ?_⟩
          simp only [advertise_db]
        | err e => exact .inl (by simp only)
        | panic => exact .inl (by simp only)
        | spin => exact .inl (by simp only)
      | data ch bytes =>
        cases p with
        | none => exact .inl rfl
        | some p =>
          cases hp : p.service with
          | uploadPack =>
            simp only [sshLinkStep, sshData, hp]
            exact .inl trivial
          | receivePack => exact absurd ⟨rfl, p, hl, rfl, hp⟩ (hs p.path bytes)

/-- The path has a branch master of its own. -/
def OwnMaster (fold : Bytes → Bytes) (refs : List RefRow) (a : Bytes) : Prop := ∃ r ∈ refs, r.repoPath = a ∧ Spec.isMaster fold r

/-- Asking for a HEAD leaves the database as it is, or adds the branch master of the path and its commit. -/
theorem head_grows {X : Ext} {E : SqlExt} (hE : Spec.SchemaOnly E) {a : Bytes} (hb : (0x5c : UInt8) ∉ a) (ha : chars a ≤ 64) {db : Db}
    (hw : ∀ r ∈ db.refs, Spec.isMaster E.fold r → chars r.refName ≤ 32) :
    (getHeadObjectId X E db a).2 = db ∨ ¬ OwnMaster E.fold db.refs a ∧ (getHeadObjectId X E db a).2.nodes = db.nodes ∧
      (getHeadObjectId X E db a).2.commits.length ≤ db.commits.length + 1 ∧
      ∃ row : RefRow, (getHeadObjectId X E db a).2.refs = db.refs ++ [row] ∧ row.repoPath = a ∧ Spec.isMaster E.fold row ∧ chars row.refName ≤ 32 := by
  unfold getHeadObjectId
  split
  · exact .inl rfl
  · rename_i hno
    split
    · rename_i ref href
      obtain ⟨hmem, _, hmaster⟩ := mem_searchRefs.1 (List.mem_of_find?_eq_some href)
      unfold generateChild
      split
      · exact .inl rfl
      · split
        · split
          · rename_i child _
            simp only [saveChild_eq]
            refine .inr ⟨?_, trivial, ?_, { repoPath := a, refName := ref.refName, refGitId := Hash.toPlainStr child.base.id }, ?_, rfl, hmaster, hw ref hmem hmaster⟩
            · rintro ⟨x, hx, hp, hn⟩
              have hl : E.like a x.repoPath = true := by rw [hp]; simpa using E.like_prefix a [] hb
              have := List.find?_eq_none.1 hno x (mem_searchRefs.2 ⟨hx, hl, hn⟩)
              simp [hp] at this
            · split <;> simp
            · rw [if_pos]
              refine hE.refs_ok _ _ (by simp) ?_
              intro r hr
              rw [List.mem_singleton.1 hr]
              simp only [RefRow.fits, Bool.and_eq_true, decide_eq_true_eq]
              exact ⟨⟨ha, hw ref hmem hmaster⟩, hexId_chars (Hash.toPlainStr_length _)⟩
          · exact .inl rfl
          · exact .inl rfl
        · exact .inl rfl
        · exact .inl rfl
        · exact .inl rfl
    · exact .inl rfl

theorem filter_fewer {α : Type} {p q : α → Bool} (h : ∀ x, p x = true → q x = true) {a : α} (hq : q a = true) (hp : p a = false) :
    ∀ l : List α, a ∈ l → (l.filter p).length + 1 ≤ (l.filter q).length
  | [], ha => by cases ha
  | x :: l, ha => by
    have key : (l.filter p).length ≤ (l.filter q).length := by
      rw [← List.countP_eq_length_filter, ← List.countP_eq_length_filter]
      exact List.countP_mono_left (fun x _ => h x)
    rcases List.mem_cons.1 ha with rfl | ha
    · rw [List.filter_cons_of_pos hq, List.filter_cons_of_neg (by simp [hp])]
      simpa using key
    · have ih := filter_fewer h hq hp l ha
      rw [List.filter_cons, List.filter_cons]
      cases hx : p x with
      | true =>
        rw [h x hx]
        simpa using ih
      | false => cases q x <;> simp <;> omega

open Classical in
theorem reads_bound (P : ServerExt) (L : List Bytes) : ∀ (h : BothHist) (s : Both),
    (∀ h1 m v h2, h = h1 ++ (m, v) :: h2 → ∀ a file, ¬ Sends (runBoth P s h1) a file v) →
    (∀ p ∈ h, Spec.SchemaOnly p.1.sql ∧ p.1.sql.fold = P.D.fold ∧ ∀ a, p.2.repo = some a → a ∈ L ∧ (0x5c : UInt8) ∉ a ∧ chars a ≤ 64) →
    (∀ r ∈ s.web.db.refs, Spec.isMaster P.D.fold r → chars r.refName ≤ 32) →
    (runBoth P s h).web.db.nodes = s.web.db.nodes ∧
    (runBoth P s h).web.db.refs.length ≤ s.web.db.refs.length + (L.filter (fun a => ¬ OwnMaster P.D.fold s.web.db.refs a)).length ∧
    (runBoth P s h).web.db.commits.length ≤ s.web.db.commits.length + (L.filter (fun a => ¬ OwnMaster P.D.fold s.web.db.refs a)).length
  | [], s, _, _, _ => ⟨rfl, Nat.le_add_right .., Nat.le_add_right ..⟩
  | (m, v) :: h, s, hs, hp, hw => by
    obtain ⟨q1, q2, q3⟩ := hp (m, v) (by simp)
    have ih := reads_bound P L h (bothStep P m s v) (fun h1 m' v' h2 e a file => by
        subst e
        exact hs ((m, v) :: h1) m' v' h2 rfl a file) (fun p hp' => hp p (by simp [hp']))
    rw [runBoth_cons]
    rcases both_read P m s v (hs [] m v h rfl) with e | ⟨a, ha, e⟩
    · rw [e] at ih
      exact ih hw
    · obtain ⟨ha1, ha2, ha3⟩ := q3 a ha
      rw [e] at ih
      rcases head_grows (X := P.X) q1 ha2 ha3 (db := s.web.db) (by rw [q2]; exact hw) with e' | ⟨k1, k2, k3, row, k4, k5, k6, k7⟩
      · rw [e'] at ih
        exact ih hw
      · rw [q2] at k1 k6
        have ih := ih (by
          intro r hr hm
          rw [k4] at hr
          rcases List.mem_append.1 hr with hr | hr
          · exact hw r hr hm
          · rw [List.mem_singleton.1 hr]
            exact k7)
        have hlt : (L.filter (fun b => ¬ OwnMaster P.D.fold (getHeadObjectId P.X m.sql s.web.db a).2.refs b)).length + 1 ≤
            (L.filter (fun b => ¬ OwnMaster P.D.fold s.web.db.refs b)).length := by
          refine filter_fewer ?_ (a := a) (by simpa using k1) ?_ L ha1
          · intro x hx
            simp only [decide_eq_true_eq] at hx ⊢
            rintro ⟨r, hr, hr'⟩
            exact hx ⟨r, by rw [k4]; exact List.mem_append_left _ hr, hr'⟩
          · simp only [decide_eq_false_iff_not, not_not]
            exact ⟨row, by rw [k4]; simp, k5, k6⟩
        have hl : (getHeadObjectId P.X m.sql s.web.db a).2.refs.length = s.web.db.refs.length + 1 := by rw [k4]; simp
        simp only at k3
        rw [k2, hl] at ih
        obtain ⟨i1, i2, i3⟩ := ih
        exact ⟨i1, by omega, by omega⟩

/-! ## C145 -/

/-- After the history `h`, nobody pushes in `h2`. -/
def Spec.ReadOnly (h h2 : BothHist) : Prop := ∀ h3 m v h4, h2 = h3 ++ (m, v) :: h4 → ∀ a file, ¬ Spec.Carries (h ++ h3) a file v

open Classical in
/-- **C145 (partial)** After any history of both servers, with the tables of the dump, in any sequence of requests and messages in which nobody pushes, no file or directory is stored, and at most
one branch and one commit for every path that is named, however often each is asked for. (Missing from the full claim: paths of more than 64 characters, see `C145_deep_false`, and pushes, see
`C145_push_false`. A path has no backslash, see `C54_backslash_false`; the names of the stored branches have at most 32 characters, as the dump wants it, spaces at their ends included.) -/
theorem C145_reads_partial (P : ServerExt) (h h2 : BothHist) (hr : Spec.ReadOnly h h2) (hE : ∀ p ∈ h2, Spec.SchemaOnly p.1.sql ∧ p.1.sql.fold = P.D.fold)
    (paths : List Bytes) (hp : ∀ p ∈ h2, ∀ a, p.2.repo = some a → a ∈ paths ∧ (0x5c : UInt8) ∉ a ∧ chars a ≤ 64)
    (hn : ∀ r ∈ (runBoth P .empty h).web.db.refs, chars r.refName ≤ 32) :
    (runBoth P .empty (h ++ h2)).web.db.nodes = (runBoth P .empty h).web.db.nodes ∧
    (runBoth P .empty (h ++ h2)).web.db.refs.length ≤ (runBoth P .empty h).web.db.refs.length + paths.length ∧
    (runBoth P .empty (h ++ h2)).web.db.commits.length ≤ (runBoth P .empty h).web.db.commits.length + paths.length := by
  rw [runBoth_append]
  obtain ⟨h1, h3, h4⟩ := reads_bound P paths h2 (runBoth P .empty h) (fun h3 m v h4 e a file hs => by
      rw [← runBoth_append] at hs
      refine hr h3 m v h4 e a file ?_
      cases v with
      | http r => exact .http r hs.1 hs.2
      | ssh i ev =>
        cases ev with
        | data ch bytes =>
          obtain ⟨rfl, p, hl, e1, e2⟩ := hs
          refine .ssh i ch ?_
          rw [openFor_link P _ i p hl, e1, e2]
        | _ => cases hs) (fun p hp' => ⟨(hE p hp').1, (hE p hp').2, hp p hp'⟩) (fun r hr _ => hn r hr)
  have hl := List.length_filter_le (fun a => decide (¬ OwnMaster P.D.fold (runBoth P .empty h).web.db.refs a)) paths
  exact ⟨h1, by omega, by omega⟩

/-- **C145 is false** for a path of more than 64 characters, with the tables of the dump: whenever a client asks for the refs of such a path, over HTTP, and is told a HEAD, one more commit is
stored, and nothing that would make the next request find it. (The stored refs have paths that fit. The refs that are told can be told in one line each, and the stored commits have at most 65531 bytes.) -/
theorem C145_deep_false (P : ServerExt) (u g : Bytes) (hu : Spec.CleanUrl u) (hg : g = [] ∨ g = ascii ".git") (hlong : overlong 64 u = true) (hl : chars u ≤ 128) (s : ServerState)
    (hs : ∀ r ∈ s.db.refs, overlong 64 r.repoPath = false) (hc : ∀ c ∈ s.db.commits, c.data.length ≤ 65531) (m : Moment) (hE : Spec.SchemaOnly m.sql) (t : ServiceType)
    (ht : ∀ r ∈ Spec.refsAt m.sql.fold s.db.refs u, Spec.RefText r) (out head : Bytes) (refs : List (Bytes × Bytes)) (s' : ServerState)
    (ha : serve P m s (Spec.refsReq (u ++ g) t) = (.reply (.ok (.bytes out)), s')) (hh : Spec.clientHttp t out = some ((head, ascii "HEAD") :: refs)) :
    ∃ row : CommitRow, row.gitId = head ∧ row.repoPath = u ∧ s'.db.commits = s.db.commits ++ [row] ∧ s'.db.refs = s.db.refs ∧ s'.db.nodes = s.db.nodes := by
  have hr : route .get (u ++ g ++ ascii "/info/refs") (some t.display) = .infoRefs u t := route_discover hu hg t
  have e1 := congrArg Prod.fst ha
  have e2 := congrArg (fun x => x.2.db) ha
  simp only [serve_db, Spec.refsReq, hr] at e2
  simp only [serve, Spec.refsReq, hr] at e1
  obtain ⟨reply, e3, e4⟩ := Res.outcome_ok e1
  cases e4
  obtain ⟨id, db', hgh⟩ : ∃ id db', getHeadObjectId P.X m.sql s.db u = (.ok id, db') := by
    unfold advertise at e3
    split at e3
    · exact ⟨_, _, by assumption⟩
    · cases e3
    · cases e3
  have e5 : out = gitInfoRefs .http t id (getRefObjectId m.sql db' u) := by
    simp only [advertise, hgh, Res.ok.injEq] at e3
    exact e3.symm
  rw [hgh] at e2
  simp only at e2
  subst e2
  have hgen := hgh
  unfold getHeadObjectId at hgen
  split at hgen
  · rename_i r hf
    have h1 := List.find?_some hf
    have h2 := (mem_searchRefs.1 (List.mem_of_find?_eq_some hf)).1
    simp only [beq_iff_eq] at h1
    rw [h1, hs r h2] at hlong
    cases hlong
  · have hnil : ∀ r : RefRow, r.repoPath = u → ∀ n, m.sql.acceptRefs n [r] = false := by
      intro r e n
      refine hE.refs n _ ⟨r, by simp, ?_⟩
      simp [RefRow.refused, e, hlong]
    have hid : s'.db.refs = s.db.refs → id ≠ zeroId ∧ head = id := by
      intro e
      rw [e5, client_http hgh (by rw [e]; exact ht)] at hh
      split at hh
      · split at hh <;> cases hh
      · rename_i hz
        cases hh
        exact ⟨hz, rfl⟩
    split at hgen
    · rcases generateChild_ok hgen with ⟨⟨g⟩⟩ | ⟨_, e, e'⟩
      · have hrefs : s'.db.refs = s.db.refs := by
          rw [g.db_eq]
          exact if_neg (by rw [hnil _ (by rfl)]; exact Bool.false_ne_true)
        obtain ⟨_, rfl⟩ := hid hrefs
        obtain ⟨c, k1, k2, k3, k4, k5, k6, k7, k8, k9⟩ := C61_generated_fields _ _ _ _ g.built
        refine ⟨g.child.row u, g.id_eq.symm, rfl, ?_, hrefs, by rw [g.db_eq]⟩
        refine (congrArg Db.commits g.db_eq).trans (if_pos ?_)
        refine hE.commits_ok _ _ (by simp) ?_
        intro r hr
        rw [List.mem_singleton.1 hr]
        have hlen : g.child.base.data.length ≤ 65535 := by
          have h1 := commit_length k1 g.child.commit.treeId
          have h2 := hc _ g.commit_mem
          have h3 : g.child.commit = { c with treeId := g.child.commit.treeId, parents := [] } := by
            generalize g.child.commit = cc at *
            cases cc
            simp only at k2 k3 k4 k5
            subst k2 k3 k4 k5
            rfl
          rw [k8, h3]
          omega
        simp only [CommitRow.fits, CommitObj.row, Bool.and_eq_true]
        refine ⟨⟨⟨decide_eq_true ?_, decide_eq_true ?_⟩, decide_eq_true hlen⟩, decide_eq_true hl⟩
        all_goals exact hexId_chars (Hash.toPlainStr_length _)
      · exact absurd e (hid (by rw [e'])).1
    · simp only [Prod.mk.injEq, Res.ok.injEq] at hgen
      exact absurd hgen.1.symm (hid (by rw [hgen.2])).1

/-- **C145 is false** for pushes: whatever is stored already, an answered push over HTTP or SSH stores all the files and directories of its pack once more. (`ids`: any different files and
directories that are reachable in the pack.) -/
theorem C145_push_false (P : ServerExt) (u : Bytes) (c : Spec.PushCmd) (hc : c.Ok) (caps : Bytes) (hcaps : caps.length ≤ 4000) (hascii : ∀ x ∈ caps, x.toNat < 128)
    (pack rep : Bytes) (hpack : (ascii "PACK").isPrefixOf pack = true) (m : Moment) (h h' : BothHist) (hpush : Spec.PushedAny P u c caps pack rep m h h') (p : Pack)
    (hdec : decodePack P.X (getHashObject P.X m.sql (runBoth P .empty h).web.db) m.fuel pack = .ok p) (ids : List Hash) (hn : ids.Nodup)
    (hids : ∀ x ∈ ids, Spec.PackReach p.result.hashObject x) :
    (runBoth P .empty h).web.db.nodes.length + ids.length ≤ (runBoth P .empty h').web.db.nodes.length := by
  obtain ⟨st', e1, e2, _⟩ := pushedAny_http hc hcaps hascii hpush
  rw [push_answer _ u _ c hc caps hcaps hascii pack hpack] at e1
  obtain ⟨p', db1, h1, h2, h3, _⟩ := receiveData_ok rfl (Res.unwrap_eq_ok.1 e1)
  simp only at h1 h2 h3
  rw [hdec] at h1
  cases h1
  obtain ⟨rows, n1, n2, n3⟩ := push_names hdec h2
  have e3 := (handleRefs_only m.sql { RefCommand.new c.old c.new (c.name ++ [0]) with ok := true } u db1).1
  rw [h3] at e3
  rw [e2, e3, n1, List.length_append]
  have hsub : (ids.map Hash.toPlainStr).Subperm (rows.map NodeRow.gitId) := by
    refine List.subperm_of_subset (hn.map (fun _ _ e => Hash.toPlainStr_injective e)) ?_
    intro x hx
    obtain ⟨y, hy, rfl⟩ := List.mem_map.1 hx
    obtain ⟨r, hr, e⟩ := n2 y (hids y hy)
    exact List.mem_map.2 ⟨r, hr, e⟩
  have := hsub.length_le
  simp only [List.length_map] at this
  omega

end Gust

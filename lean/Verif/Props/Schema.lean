import Verif.Lemmas.Schema
import Verif.Props.Both
import Verif.Props.Report
import Verif.Props.Publish
import Verif.Props.RefsShown

/-! # What the limits of the columns mean for users (C117, C118, C119) -/

namespace Gust

/-! ## Lengths -/

theorem chars_ascii {s : Bytes} (h : ∀ x ∈ s, x.toNat < 128) : chars s = s.length := by
  unfold chars
  rw [List.filter_eq_self.2]
  intro x hx
  have := h x hx
  simp only [ne_eq, decide_eq_true_eq]
  omega

theorem chars_le (s : Bytes) : chars s ≤ s.length := List.length_filter_le ..

theorem dropSpaces_concat {s : Bytes} {x : UInt8} (h : x ≠ 0x20) : dropSpaces (s ++ [x]) = s ++ [x] := by
  unfold dropSpaces
  rw [List.reverse_append, List.reverse_singleton, List.singleton_append, List.dropWhile_cons_of_neg (by simpa using h)]
  simp

theorem dropSpaces_sublist (s : Bytes) : (dropSpaces s).Sublist s := by
  unfold dropSpaces
  have := (List.dropWhile_sublist (l := s.reverse) (fun b => b == 0x20)).reverse
  rwa [List.reverse_reverse] at this

/-- What fits is not refused. -/
theorem not_overlong {n : Nat} {s : Bytes} (h : chars s ≤ n) : overlong n s = false := by
  have : chars (dropSpaces s) ≤ chars s := ((dropSpaces_sublist s).filter _).length_le
  simp only [overlong, decide_eq_false_iff_not]
  omega

theorem refName_length {c : Spec.PushCmd} (hc : c.Ok) : chars (c.name ++ [0]) = c.name.length + 1 := by
  rw [chars_ascii, List.length_append]
  · rfl
  · intro x hx
    rcases List.mem_append.1 hx with h | h
    · have := hc.2.2.2.2.2.2 x h
      omega
    · rw [List.mem_singleton.1 h]
      decide

theorem refName_overlong {c : Spec.PushCmd} (hc : c.Ok) : overlong 32 (c.name ++ [0]) = decide (32 ≤ c.name.length) := by
  unfold overlong
  rw [dropSpaces_concat (by decide), refName_length hc]
  exact decide_eq_decide.2 (by omega)

theorem hexId_chars {id : Bytes} (h : id.length = 40) : chars id ≤ 40 := h ▸ chars_le id

/-! ## C117 -/

/-- How an answered push that creates a ref ended. -/
theorem created_effect {P : ServerExt} {u : Bytes} {c : Spec.PushCmd} (hc : c.Ok) (hcreate : c.old = zeroId) {caps : Bytes} (hcaps : caps.length ≤ 4000)
    (hascii : ∀ x ∈ caps, x.toNat < 128) {pack rep : Bytes} (hpack : (ascii "PACK").isPrefixOf pack = true) {m : Moment} {h h' : BothHist}
    (hpush : Spec.PushedAny P u c caps pack rep m h h') :
    Spec.reportLines (decide (.sideBand ∈ parseCapabilities caps ∨ .sideBand64k ∈ parseCapabilities caps)) rep =
        some [ascii "unpack ok\n", Spec.statusLine (c.name ++ [0]) none] ∧
      ∃ n, (runBoth P .empty h').web.db.refs =
        if m.sql.acceptRefs n [{ repoPath := u, refName := c.name ++ [0], refGitId := c.new }]
          then (runBoth P .empty h).web.db.refs ++ [{ repoPath := u, refName := c.name ++ [0], refGitId := c.new }]
          else (runBoth P .empty h).web.db.refs := by
  obtain ⟨st', e1, e2, _⟩ := pushedAny_http hc hcaps hascii hpush
  have e3 := e1
  rw [push_answer _ u _ c hc caps hcaps hascii pack hpack] at e3
  obtain ⟨p, db1, h1, h2, h3, _⟩ := receiveData_ok rfl (Res.unwrap_eq_ok.1 e3)
  simp only at h1 h2 h3
  obtain ⟨rep', st'', r1, _, r2⟩ := (C70_report_partial (mysqlPush P.X m.sql m.fuel) u _ db1 c hc caps hcaps hascii pack hpack p h1).1 st'.db h2 h3
  rw [e1] at r1
  simp only [Res.ok.injEq, Prod.mk.injEq] at r1
  rw [r1.1]
  refine ⟨r2, db1.inserts, ?_⟩
  have hrefs : db1.refs = (runBoth P .empty h).web.db.refs := by
    have := savePackfile_refs m.sql m.fuel p u (runBoth P .empty h).web.db
    rwa [h2] at this
  rw [e2]
  unfold handleRefs at h3
  simp only [RefCommand.new, if_pos hcreate.symm, Prod.mk.injEq, true_and] at h3
  rw [← h3, ← hrefs]
  simp [saveRefs, chunks, insertRefs]

/-- **C117 is false**, with the tables of the dump and otherwise whatever the database does: a push over HTTP or SSH that creates a ref whose name has 32 or more
characters (`refs/heads/` included), or any ref of a repository whose path has more than 64, is answered with `ok`, and no ref is stored. -/
theorem C117_long_false (P : ServerExt) (u : Bytes) (c : Spec.PushCmd) (hc : c.Ok) (hcreate : c.old = zeroId) (caps : Bytes) (hcaps : caps.length ≤ 4000)
    (hascii : ∀ x ∈ caps, x.toNat < 128) (pack rep : Bytes) (hpack : (ascii "PACK").isPrefixOf pack = true) (m : Moment) (hE : Spec.Schema m.sql) (h h' : BothHist)
    (hpush : Spec.PushedAny P u c caps pack rep m h h') (hlong : 32 ≤ c.name.length ∨ overlong 64 u = true) :
    Spec.reportLines (decide (.sideBand ∈ parseCapabilities caps ∨ .sideBand64k ∈ parseCapabilities caps)) rep =
        some [ascii "unpack ok\n", Spec.statusLine (c.name ++ [0]) none] ∧
      (runBoth P .empty h').web.db.refs = (runBoth P .empty h).web.db.refs := by
  obtain ⟨h1, n, h2⟩ := created_effect hc hcreate hcaps hascii hpack hpush
  refine ⟨h1, ?_⟩
  rw [h2, hE.refs n _ ⟨_, List.mem_singleton.2 rfl, ?_⟩]
  · rfl
  · unfold RefRow.refused
    simp only [refName_overlong hc]
    rcases hlong with h | h <;> simp [h]

/-- **C117 (partial)** With the tables of the dump and a database that does not fail otherwise, a push over HTTP or SSH that creates a ref whose name has at most 31
characters, in a repository whose path has at most 64, and is answered, stores the ref with the pushed id. (Missing from the full claim: longer names and paths,
see `C117_long_false`; the name has a NUL byte appended, see C23.) -/
theorem C117_created_partial (P : ServerExt) (u : Bytes) (c : Spec.PushCmd) (hc : c.Ok) (hcreate : c.old = zeroId) (caps : Bytes) (hcaps : caps.length ≤ 4000)
    (hascii : ∀ x ∈ caps, x.toNat < 128) (pack rep : Bytes) (hpack : (ascii "PACK").isPrefixOf pack = true) (m : Moment) (hE : Spec.SchemaOnly m.sql) (h h' : BothHist)
    (hpush : Spec.PushedAny P u c caps pack rep m h h') (hname : c.name.length ≤ 31) (hpath : chars u ≤ 64) :
    (runBoth P .empty h').web.db.refs = (runBoth P .empty h).web.db.refs ++ [{ repoPath := u, refName := c.name ++ [0], refGitId := c.new }] := by
  obtain ⟨_, n, h2⟩ := created_effect hc hcreate hcaps hascii hpack hpush
  rw [h2, hE.refs_ok n _ (by simp) ?_]
  · rfl
  · intro r hr
    rw [List.mem_singleton.1 hr]
    have h1 := refName_length hc
    have h2 := hexId_chars hc.2.2.1
    simp only [RefRow.fits, Bool.and_eq_true, decide_eq_true_eq]
    omega

/-- **C117 is false**: with the tables of the dump, no client is ever told a ref name that has more than 32 characters (NUL byte included), or an id of more than 40, whatever has been pushed, over HTTP and SSH. (The
refs of the repository have different ids, see C52, and can be told in one line each.) -/
theorem C117_never_shown (P : ServerExt) (u g : Bytes) (hu : Spec.CleanUrl u) (hg : g = [] ∨ g = ascii ".git") (h : BothHist) (hh : Spec.SchemaAny h) (m : Moment)
    (hE : Spec.Schema m.sql) (hm : m.sql.fold = P.D.fold) (t : ServiceType) (out : Bytes) (s : ServerState)
    (hout : serve P m (runBoth P .empty h).web (Spec.refsReq (u ++ g) t) = (.reply (.ok (.bytes out)), s))
    (hid : ((Spec.refsAt P.D.fold s.db.refs u).map RefRow.refGitId).Nodup) (ht : ∀ r ∈ Spec.refsAt P.D.fold s.db.refs u, Spec.RefText r) :
    ∃ head refs, Spec.Shows t out head refs ∧ ∀ p ∈ refs, overlong 32 p.2 = false ∧ overlong 40 p.1 = false := by
  have hw := runBoth_within P h .empty hh ⟨(by intro r hr; cases hr), (by intro r hr; cases hr), (by intro r hr; cases hr)⟩
  have hr : route .get (u ++ g ++ ascii "/info/refs") (some t.display) = .infoRefs u t := route_discover hu hg t
  have e1 := congrArg Prod.fst hout
  have e2 := congrArg (fun x => x.2.db) hout
  simp only [serve_db, Spec.refsReq, hr] at e2
  simp only [serve, Spec.refsReq, hr] at e1
  obtain ⟨reply, e3, e4⟩ := Res.outcome_ok e1
  cases e4
  have e5 : advertise P.X m.sql .http t (runBoth P .empty h).web.db u = (.ok out, s.db) := by
    refine Prod.ext e3 ?_
    rw [← e2, advertise_db]
  rw [← hm] at hid ht
  obtain ⟨head, refs, pkts, _, k2, k3, k4⟩ := C52_advertised_partial P.X m.sql _ s.db t u out e5 hid ht
  refine ⟨head, refs, ⟨pkts, k2, k3⟩, ?_⟩
  intro q hq
  obtain ⟨r, hr', rfl⟩ := List.mem_map.1 (k4.mem_iff.1 hq)
  have : Spec.Within s.db := by rw [← e2]; exact getHead_within hE u hw
  obtain ⟨⟨_, k⟩, k'⟩ := RefRow.refused_iff.1 (this.refs r (List.mem_filter.1 hr').1)
  exact ⟨k, k'⟩

/-! ## C118 -/

theorem chunks_within {α : Type} [DecidableEq α] {n : Nat} {l : List α} (hn : l.length ≤ n) (fuel : Nat) : ∀ b ∈ chunks n fuel l, b = l := by
  intro b hb
  cases fuel with
  | zero => cases hb
  | succ fuel =>
    rw [chunks] at hb
    split at hb
    · cases hb
    · rw [List.take_of_length_le hn, List.drop_of_length_le hn] at hb
      rcases List.mem_cons.1 hb with h | h
      · exact h
      · cases fuel <;> simp [chunks] at h

theorem chunks_sub {α : Type} [DecidableEq α] {n : Nat} : ∀ (fuel : Nat) (l : List α), ∀ b ∈ chunks n fuel l, ∀ x ∈ b, x ∈ l
  | 0, _, _, hb, _, _ => by cases hb
  | fuel + 1, l, b, hb, x, hx => by
    rw [chunks] at hb
    split at hb
    · cases hb
    · rcases List.mem_cons.1 hb with h | h
      · subst h
        exact List.mem_of_mem_take hx
      · exact List.mem_of_mem_drop (chunks_sub fuel _ b h x hx)

theorem chunks_nonempty {α : Type} [DecidableEq α] {n : Nat} (hn : 0 < n) : ∀ (fuel : Nat) (l : List α), ∀ b ∈ chunks n fuel l, b ≠ []
  | 0, _, _, hb => by cases hb
  | fuel + 1, l, b, hb => by
    rw [chunks] at hb
    split at hb
    · cases hb
    · rename_i hne
      rcases List.mem_cons.1 hb with h | h
      · subst h
        cases l with
        | nil => exact absurd rfl hne
        | cons x xs =>
          cases n with
          | zero => cases hn
          | succ n => simp
      · exact chunks_nonempty hn fuel _ b h

/-- If no statement is accepted, nothing is stored. -/
theorem insertCommits_none {E : SqlExt} : ∀ (bs : List (List CommitRow)) (db : Db), (∀ b ∈ bs, ∀ n, E.acceptCommits n b = false) → (insertCommits E bs db).commits = db.commits
  | [], _, _ => rfl
  | b :: bs, db, h => by
    rw [insertCommits, insertCommits_none bs _ (fun b' hb' => h b' (by simp [hb']))]
    simp [h b (by simp)]

theorem insertCommits_every {E : SqlExt} : ∀ (bs : List (List CommitRow)) (db : Db), (∀ b ∈ bs, ∀ n, E.acceptCommits n b = true) →
    (insertCommits E bs db).commits = db.commits ++ bs.flatten
  | [], _, _ => by simp [insertCommits]
  | b :: bs, db, h => by
    rw [insertCommits, insertCommits_every bs _ (fun b' hb' => h b' (by simp [hb']))]
    simp [h b (by simp)]

/-- How an answered push ended, as far as commits go. -/
theorem pushed_commits {P : ServerExt} {u : Bytes} {c : Spec.PushCmd} (hc : c.Ok) {caps : Bytes} (hcaps : caps.length ≤ 4000)
    (hascii : ∀ x ∈ caps, x.toNat < 128) {pack rep : Bytes} (hpack : (ascii "PACK").isPrefixOf pack = true) {m : Moment} {h h' : BothHist}
    (hpush : Spec.PushedAny P u c caps pack rep m h h') :
    ∃ (p : Pack) (D : ObjDecodedMap) (db1 : Db), decodePack P.X (getHashObject P.X m.sql (runBoth P .empty h).web.db) m.fuel pack = .ok p ∧ D.Holds p.result ∧
      db1.commits = (runBoth P .empty h).web.db.commits ∧ (runBoth P .empty h').web.db.commits = (saveCommits m.sql D.commits u db1).commits := by
  obtain ⟨st', e1, e2, _⟩ := pushedAny_http hc hcaps hascii hpush
  rw [push_answer _ u _ c hc caps hcaps hascii pack hpack] at e1
  obtain ⟨p, db1, h1, h2, h3, _⟩ := receiveData_ok rfl (Res.unwrap_eq_ok.1 e1)
  simp only at h1 h2 h3
  obtain ⟨D, rows, db0, p1, p2, p3, rfl⟩ := savePackfile_ok h2
  have hH : D.Holds p.result := C36_each_object_once h1 (by have := m.sql.pool_outcome p.result; rwa [p1] at this)
  refine ⟨p, D, db0, h1, hH, (saveNodes_ok p3).2.1, ?_⟩
  have := (handleRefs_only m.sql { RefCommand.new c.old c.new (c.name ++ [0]) with ok := true } u (saveCommits m.sql D.commits u db0)).2
  rw [h3] at this
  rw [e2, this]

/-- **C118 is false**, with the tables of the dump and otherwise whatever the database does: of a push of at most 100 commits over HTTP or SSH that is answered, no commit at all is stored if one of
them has more than 65535 bytes (long message, signature), or if the path of the repository has more than 128 characters. -/
theorem C118_big_false (P : ServerExt) (u : Bytes) (c : Spec.PushCmd) (hc : c.Ok) (caps : Bytes) (hcaps : caps.length ≤ 4000)
    (hascii : ∀ x ∈ caps, x.toNat < 128) (pack rep : Bytes) (hpack : (ascii "PACK").isPrefixOf pack = true) (m : Moment) (hE : Spec.Schema m.sql) (h h' : BothHist)
    (hpush : Spec.PushedAny P u c caps pack rep m h h') (p : Pack)
    (hdec : decodePack P.X (getHashObject P.X m.sql (runBoth P .empty h).web.db) m.fuel pack = .ok p)
    (hbad : overlong 128 u = true ∨ (∃ o, p.result.hashObject o.id = some o ∧ o.t = .commit ∧ 65535 < o.data.length) ∧
      ∃ l : List MetaData, l.length ≤ 100 ∧ ∀ o, p.result.hashObject o.id = some o → o.t = .commit → o ∈ l) :
    (runBoth P .empty h').web.db.commits = (runBoth P .empty h).web.db.commits := by
  obtain ⟨p', D, db1, h1, hH, e1, e2⟩ := pushed_commits hc hcaps hascii hpack hpush
  rw [hdec] at h1
  cases h1
  rw [e2, ← e1, saveCommits]
  refine insertCommits_none _ _ ?_
  rcases hbad with hp | ⟨⟨o, ho, ht, hb⟩, l, hl, hlist⟩
  · intro b hb n
    obtain ⟨r, hrb⟩ := List.exists_mem_of_ne_nil _ (chunks_nonempty (by simp) _ _ b hb)
    obtain ⟨co, _, rfl⟩ := List.mem_map.1 (chunks_sub _ _ _ hb r hrb)
    exact hE.commits n _ ⟨_, hrb, by simp [CommitRow.refused, CommitObj.row, hp]⟩
  · have hlen : D.commits.length ≤ 100 := by
      rw [← List.length_map (f := CommitObj.base)]
      refine le_trans ?_ hl
      refine (hH.commitsOnce.subperm ?_).length_le
      intro x hx
      obtain ⟨k1, k2⟩ := (hH.commits x).1 hx
      exact hlist x k2 k1
    intro b hb' n
    have := chunks_within (by simpa using hlen) _ b hb'
    subst this
    obtain ⟨co, hm, e⟩ := List.mem_map.1 ((hH.commits o).2 ⟨ht, ho⟩)
    refine hE.commits n _ ⟨_, List.mem_map_of_mem hm, ?_⟩
    simp [CommitRow.refused, CommitObj.row, e, hb]

/-- **C118 is false**: with the tables of the dump, whatever has been pushed, no commit of more than 65535 bytes is ever stored, nor a commit of a repository whose path has more than 128
characters. -/
theorem C118_never_stored (P : ServerExt) (h : BothHist) (hh : Spec.SchemaAny h) :
    ∀ r ∈ (runBoth P .empty h).web.db.commits, r.data.length ≤ 65535 ∧ overlong 128 r.repoPath = false := by
  intro r hr
  have hw := (runBoth_within P h .empty hh ⟨(by intro r hr; cases hr), (by intro r hr; cases hr), (by intro r hr; cases hr)⟩).commits r hr
  simp only [CommitRow.refused, Bool.or_eq_false_iff, decide_eq_false_iff_not, Nat.not_lt] at hw
  exact ⟨hw.1.2, hw.2⟩

/-- **C118 (partial)** With the tables of the dump and a database that does not fail otherwise, after a push over HTTP or SSH that is answered, every commit of the pack is stored for the repository with its exact
content, and those stored before still are, if no commit of the pack has more than 65535 bytes and the path of the repository has at most 128 characters. (Missing from the full claim: see `C118_big_false`.) -/
theorem C118_stored_partial (P : ServerExt) (u : Bytes) (c : Spec.PushCmd) (hc : c.Ok) (caps : Bytes) (hcaps : caps.length ≤ 4000)
    (hascii : ∀ x ∈ caps, x.toNat < 128) (pack rep : Bytes) (hpack : (ascii "PACK").isPrefixOf pack = true) (m : Moment) (hE : Spec.SchemaOnly m.sql) (h h' : BothHist)
    (hpush : Spec.PushedAny P u c caps pack rep m h h') (p : Pack)
    (hdec : decodePack P.X (getHashObject P.X m.sql (runBoth P .empty h).web.db) m.fuel pack = .ok p)
    (hpath : chars u ≤ 128) (hsmall : ∀ o, p.result.hashObject o.id = some o → o.t = .commit → o.data.length ≤ 65535) :
    (∀ o, p.result.hashObject o.id = some o → o.t = .commit →
      ∃ r ∈ (runBoth P .empty h').web.db.commits, r.gitId = Hash.toPlainStr o.id ∧ r.data = o.data ∧ r.repoPath = u) ∧
    ∀ r ∈ (runBoth P .empty h).web.db.commits, r ∈ (runBoth P .empty h').web.db.commits := by
  obtain ⟨p', D, db1, h1, hH, e1, e2⟩ := pushed_commits hc hcaps hascii hpack hpush
  rw [hdec] at h1
  cases h1
  have key : (saveCommits m.sql D.commits u db1).commits = db1.commits ++ D.commits.map (fun c => c.row u) := by
    rw [saveCommits, insertCommits_every, chunks_flatten 100 (by simp) _ _ (by simp)]
    intro b hb n
    have hsub := chunks_sub _ _ b hb
    refine hE.commits_ok n b (chunks_nonempty (by simp) _ _ b hb) ?_
    intro r hr
    obtain ⟨co, hm, rfl⟩ := List.mem_map.1 (hsub r hr)
    obtain ⟨k1, k2⟩ := (hH.commits _).1 (List.mem_map_of_mem hm)
    have := hsmall _ k2 k1
    have a1 := hexId_chars (Hash.toPlainStr_length co.base.id)
    have a2 := hexId_chars (Hash.toPlainStr_length co.commit.treeId)
    simp only [CommitRow.fits, CommitObj.row, Bool.and_eq_true, decide_eq_true_eq]
    exact ⟨⟨⟨decide_eq_true a1, decide_eq_true a2⟩, decide_eq_true this⟩, decide_eq_true hpath⟩
  rw [e2, key, e1]
  refine ⟨?_, fun r hr => List.mem_append_left _ hr⟩
  intro o ho ht
  obtain ⟨co, hm, e⟩ := List.mem_map.1 ((hH.commits o).2 ⟨ht, ho⟩)
  exact ⟨co.row u, List.mem_append_right _ (List.mem_map_of_mem hm), by rw [CommitObj.row, e], by rw [CommitObj.row, e], rfl⟩

/-! ## C119 -/

theorem insertNodes_taken_all {E : SqlExt} (hE : Spec.Schema E) : ∀ (bs : List (List NodeRow)) (db db' : Db), insertNodes E bs db = (.ok (), db') →
    ∀ r ∈ bs.flatten, r.refused = false
  | [], _, _, _, r, hr => by simp at hr
  | b :: bs, db, db', h, r, hr => by
    rw [insertNodes] at h
    split at h
    · rename_i ha
      rw [List.flatten_cons] at hr
      rcases List.mem_append.1 hr with hr | hr
      · exact hE.node ha r hr
      · exact insertNodes_taken_all hE bs _ _ h r hr
    · cases (Prod.mk.inj h).1

theorem insertNodes_every {E : SqlExt} : ∀ (bs : List (List NodeRow)) (db : Db), (∀ b ∈ bs, ∀ n, E.acceptNodes n b = true) → ∃ db', insertNodes E bs db = (.ok (), db')
  | [], db, _ => ⟨db, rfl⟩
  | b :: bs, db, h => by
    rw [insertNodes, if_pos (h b (by simp) _)]
    exact insertNodes_every bs _ (fun b' hb' => h b' (by simp [hb']))

/-- What an answered push tells of the objects that were pushed. -/
theorem pushed_rows {P : ServerExt} {u : Bytes} {c : Spec.PushCmd} (hc : c.Ok) {caps : Bytes} (hcaps : caps.length ≤ 4000)
    (hascii : ∀ x ∈ caps, x.toNat < 128) {pack rep : Bytes} (hpack : (ascii "PACK").isPrefixOf pack = true) {m : Moment} (hE : Spec.Schema m.sql) {h h' : BothHist}
    (hpush : Spec.PushedAny P u c caps pack rep m h h') {p : Pack}
    (hdec : decodePack P.X (getHashObject P.X m.sql (runBoth P .empty h).web.db) m.fuel pack = .ok p) (x : Hash) (hx : Spec.PackReach p.result.hashObject x) :
    ∃ r : NodeRow, r.refused = false ∧ (∀ o, p.result.hashObject x = some o → r.data = o.data) ∧
      ((∃ o c, p.result.hashObject o.id = some o ∧ o.t = .commit ∧ Commit.decode o.data = .ok c ∧ c.treeId = x) ∨
        ∃ o items i, p.result.hashObject o.id = some o ∧ o.t = .tree ∧ decodeTree o.data = .ok items ∧ i ∈ items ∧ i.id = x ∧ r.name = i.filename) := by
  obtain ⟨st', e1, e2, _⟩ := pushedAny_http hc hcaps hascii hpush
  rw [push_answer _ u _ c hc caps hcaps hascii pack hpack] at e1
  obtain ⟨p', db1, h1, h2, h3, _⟩ := receiveData_ok rfl (Res.unwrap_eq_ok.1 e1)
  simp only at h1 h2 h3
  rw [hdec] at h1
  cases h1
  obtain ⟨rows, n1, n2, n3⟩ := push_names hdec h2
  obtain ⟨rows', k1, _, k2, _⟩ := C48_stored_partial hdec m.sql m.fuel u _ _ h2
  obtain rfl : rows = rows' := List.append_cancel_left (n1.symm.trans k1)
  have hrows : ∀ r ∈ rows, r.refused = false := by
    obtain ⟨D, rows'', db0, p1, p2, p3, e⟩ := savePackfile_ok h2
    have : rows = rows'' := by
      refine List.append_cancel_left (as := (runBoth P .empty h).web.db.nodes) ?_
      rw [← n1, e, (saveCommits_eq m.sql D.commits u db0).1, (saveNodes_ok p3).1]
    subst this
    obtain ⟨bs, b1, _⟩ := C51_batches_partial m.sql rows (runBoth P .empty h).web.db
    have hf : (nodeBatches 0 [] rows).flatten = rows := nodeBatches_flatten rows 0 []
    intro r hr
    exact insertNodes_taken_all hE _ _ _ p3 r (by rw [hf]; exact hr)
  obtain ⟨r, hr, e⟩ := n2 x hx
  refine ⟨r, hrows r hr, ?_, ?_⟩
  · intro o ho
    obtain ⟨o', q1, q2, q3, _⟩ := k2 r hr
    have : o'.id = x := Hash.toPlainStr_injective (q2.symm.trans e)
    rw [this, ho] at q1
    cases q1
    exact q3
  · rcases n3 r hr with ⟨_, o, c, q1, q2, q3, q4⟩ | ⟨o, items, i, q1, q2, q3, q4, q5, _, q6⟩
    · exact .inl ⟨o, c, q1, q2, q3, Hash.toPlainStr_injective (q4.symm.trans e)⟩
    · exact .inr ⟨o, items, i, q1, q2, q3, q4, Hash.toPlainStr_injective (q6.symm.trans e), q5⟩

/-- **C119 is false**, with the tables of the dump and otherwise whatever the database does: no push over HTTP or SSH of a file of 16 MiB or more is ever answered. -/
theorem C119_big_false (P : ServerExt) (u : Bytes) (c : Spec.PushCmd) (hc : c.Ok) (caps : Bytes) (hcaps : caps.length ≤ 4000)
    (hascii : ∀ x ∈ caps, x.toNat < 128) (pack : Bytes) (hpack : (ascii "PACK").isPrefixOf pack = true) (m : Moment) (hE : Spec.Schema m.sql) (h : BothHist)
    (p : Pack) (hdec : decodePack P.X (getHashObject P.X m.sql (runBoth P .empty h).web.db) m.fuel pack = .ok p)
    (x : Hash) (hx : Spec.PackReach p.result.hashObject x) (o : MetaData) (ho : p.result.hashObject x = some o) (hbig : 16 * 1024 * 1024 ≤ o.data.length) :
    ∀ rep h', ¬ Spec.PushedAny P u c caps pack rep m h h' := by
  intro rep h' hpush
  obtain ⟨r, h1, h2, _⟩ := pushed_rows hc hcaps hascii hpack hE hpush hdec x hx
  simp only [NodeRow.refused, Bool.or_eq_false_iff, decide_eq_false_iff_not] at h1
  have := h1.2
  rw [h2 o ho] at this
  omega

/-- **C119 is false**, with the tables of the dump and otherwise whatever the database does: no push over HTTP or SSH of a file or directory whose name has more than 128 characters is ever answered (unless the same content
is there under a shorter name too, or is the root of a commit). -/
theorem C119_name_false (P : ServerExt) (u : Bytes) (c : Spec.PushCmd) (hc : c.Ok) (caps : Bytes) (hcaps : caps.length ≤ 4000)
    (hascii : ∀ x ∈ caps, x.toNat < 128) (pack : Bytes) (hpack : (ascii "PACK").isPrefixOf pack = true) (m : Moment) (hE : Spec.Schema m.sql) (h : BothHist)
    (p : Pack) (hdec : decodePack P.X (getHashObject P.X m.sql (runBoth P .empty h).web.db) m.fuel pack = .ok p)
    (x : Hash) (hx : Spec.PackReach p.result.hashObject x)
    (hroot : ∀ o c, p.result.hashObject o.id = some o → o.t = .commit → Commit.decode o.data = .ok c → c.treeId ≠ x)
    (hlong : ∀ o items i, p.result.hashObject o.id = some o → o.t = .tree → decodeTree o.data = .ok items → i ∈ items → i.id = x → overlong 128 i.filename = true) :
    ∀ rep h', ¬ Spec.PushedAny P u c caps pack rep m h h' := by
  intro rep h' hpush
  obtain ⟨r, h1, _, ⟨o, c, q1, q2, q3, q4⟩ | ⟨o, items, i, q1, q2, q3, q4, q5, q6⟩⟩ := pushed_rows hc hcaps hascii hpack hE hpush hdec x hx
  · exact hroot o c q1 q2 q3 q4
  · have := hlong o items i q1 q2 q3 q4 q5
    rw [← q6] at this
    simp [NodeRow.refused, this] at h1

theorem addChild_head {node c node' : RepoNode} (h : node.addChild c = .ok node') : node'.models.head? = node.models.head? := by
  cases node with
  | file i n m d => simp [RepoNode.addChild] at h
  | tree i n m d cs =>
    simp only [RepoNode.addChild, Res.ok.injEq] at h
    subst h
    rfl

theorem setChild_head (node c : RepoNode) (k : Nat) : (node.setChild k c).models.head? = node.models.head? := by
  cases node <;> rfl

theorem buildItem_head {R : Repo} {rec : TreeObj → RepoNode → List Hash → Res (RepoNode × List Hash)} {item : TreeItem} {node node' : RepoNode} {cache cache' : List Hash}
    (h : buildItem R rec item node cache = .ok (node', cache')) : node'.models.head? = node.models.head? := by
  unfold buildItem at h
  split at h
  · simp only [Res.bind_eq_ok, Res.unwrapOpt_eq_ok, Res.pure_eq, Res.ok.injEq, Prod.mk.injEq] at h
    obtain ⟨t, _, node1, h1, i, _, j, _, child, _, ⟨child', cache1⟩, _, rfl, _⟩ := h
    rw [setChild_head, addChild_head h1]
  · simp only [Res.bind_eq_ok, Res.unwrapOpt_eq_ok, Res.pure_eq, Res.ok.injEq, Prod.mk.injEq] at h
    obtain ⟨t, _, node1, h1, rfl, _⟩ := h
    exact addChild_head h1

theorem buildItems_head {R : Repo} {rec : TreeObj → RepoNode → List Hash → Res (RepoNode × List Hash)} : ∀ (items : List TreeItem) (node node' : RepoNode) (cache cache' : List Hash),
    buildItems R rec items node cache = .ok (node', cache') → node'.models.head? = node.models.head?
  | [], node, node', cache, cache', h => by
    simp only [buildItems, Res.ok.injEq, Prod.mk.injEq] at h
    rw [h.1]
  | item :: items, node, node', cache, cache', h => by
    rw [buildItems] at h
    split at h
    · exact buildItems_head items _ _ _ _ h
    · simp only [Res.bind_eq_ok] at h
      obtain ⟨⟨node1, cache1⟩, h1, h2⟩ := h
      exact (buildItems_head items _ _ _ _ h2).trans (buildItem_head h1)

/-- The first row of a push is the root directory of a commit. -/
theorem buildCommits_first {R : Repo} {fuel : Nat} {cs : List CommitObj} {rows : List NodeRow} (h : buildCommits R fuel cs [] = .ok rows) :
    ∀ r ∈ rows.head?, ∃ t x, R.treeMap x = some t ∧ r.data = t.base.data := by
  cases cs with
  | nil =>
    simp only [buildCommits, Res.ok.injEq] at h
    subst h
    simp
  | cons c cs =>
    simp only [buildCommits, Res.bind_eq_ok, Res.unwrapOpt_eq_ok] at h
    obtain ⟨t, ht, ⟨root, cache1⟩, hb, rest, hrest, he⟩ := h
    simp only [Res.pure_eq, Res.ok.injEq] at he
    subst he
    have e : root.models.head? = some { gitId := Hash.toPlainStr t.base.id, nodeType := ascii "tree", name := [], mode := [], data := t.base.data } := by
      cases fuel with
      | zero => simp [buildTree] at hb
      | succ fuel =>
        rw [buildTree] at hb
        exact buildItems_head _ _ _ _ _ hb
    intro r hr
    rw [List.head?_append, e] at hr
    simp only [Option.some_or, Option.mem_def, Option.some.injEq] at hr
    exact ⟨t, _, ht, by rw [← hr]⟩

/-- The files and directories of a pack have room in the columns. -/
structure Spec.Roomy (find : Hash → Option MetaData) : Prop where
  size : ∀ o, find o.id = some o → o.t = .blob → o.data.length < 16 * 1024 * 1024
  dir : ∀ o, find o.id = some o → o.t = .tree → o.data.length < 10 * 1024 * 1024
  entry : ∀ o items i, find o.id = some o → o.t = .tree → decodeTree o.data = .ok items → i ∈ items → chars i.filename ≤ 128

/-- A pack that has room in the columns is stored if it is stored by a database without limits. -/
theorem roomy_stored {E : SqlExt} (hE : Spec.SchemaOnly E) {X : Ext} {St : ObjectSource} {file : Bytes} {fuel0 : Nat} {p : Pack} (hdec : decodePack X St fuel0 file = .ok p)
    (hr : Spec.Roomy p.result.hashObject) {fuel : Nat} {path : Bytes} {db db' : Db}
    (hs : savePackfile { E with acceptNodes := fun _ _ => true } fuel p path db = (.ok (), db')) : ∃ db1, savePackfile E fuel p path db = (.ok (), db1) := by
  obtain ⟨D, rows, db0, p1, p2, p3, rfl⟩ := savePackfile_ok hs
  have hH : D.Holds p.result := C36_each_object_once hdec (by have := E.pool_outcome p.result; rwa [show E.pool p.result = .ok D from p1] at this)
  obtain ⟨r1, _⟩ := buildCommits_ok (repo_faithful hH) (repo_disjoint hH) D.commits [] rows (by intro h hh; cases hh) p2
  have r2 := buildCommits_names (repo_faithful hH) D.commits [] rows p2
  have hhead : ∀ n ∈ rows.head?, n.data.length < 10 * 1024 * 1024 := by
    intro n hn
    obtain ⟨t, x, ht, e⟩ := buildCommits_first p2 n hn
    obtain ⟨hm, _⟩ := (repo_tree hH x t).1 ht
    obtain ⟨q1, q2⟩ := (hH.trees t.base).1 (List.mem_map_of_mem hm)
    rw [e]
    exact hr.dir _ q2 q1
  have hfit : ∀ r ∈ rows, r.fits = true := by
    intro r hmem
    have hdata : chars r.gitId ≤ 64 ∧ chars r.nodeType ≤ 16 ∧ r.data.length ≤ 16777215 := by
      cases r1 r hmem with
      | tree h t _ ht e1 e2 e3 =>
        obtain ⟨hm, _⟩ := (repo_tree hH h t).1 ht
        obtain ⟨q1, q2⟩ := (hH.trees t.base).1 (List.mem_map_of_mem hm)
        have := hr.dir _ q2 q1
        have h1 := hexId_chars (Hash.toPlainStr_length t.base.id)
        rw [e1, e2, e3]
        exact ⟨by omega, by decide, by omega⟩
      | blob h t _ ht e1 e2 e3 =>
        obtain ⟨hm, _⟩ := (repo_blob hH h t).1 ht
        obtain ⟨q1, q2⟩ := (hH.blobs t.base).1 (List.mem_map_of_mem hm)
        have := hr.size _ q2 q1
        have h1 := hexId_chars (Hash.toPlainStr_length t.base.id)
        rw [e1, e2, e3]
        exact ⟨by omega, by decide, by omega⟩
    have hname : chars r.name ≤ 128 ∧ r.mode.length ≤ 65535 := by
      rcases r2 r hmem with ⟨e1, e2, _⟩ | ⟨h, t, i, ht, hi, e1, e2, _⟩
      · rw [e1, e2]
        exact ⟨by decide, by decide⟩
      · obtain ⟨hm, _⟩ := (repo_tree hH h t).1 ht
        obtain ⟨q1, q2⟩ := (hH.trees t.base).1 (List.mem_map_of_mem hm)
        rw [e1, e2]
        refine ⟨hr.entry _ _ i q2 q1 (hH.treeItems t hm) hi, ?_⟩
        have hmode : i.mode.length ≤ 6 := by
          rcases ((C08_tree_reencode X _ _ (hH.treeItems t hm)).2.1 i hi).1 with e | e | e | e | e | e | e <;> rw [(Prod.mk.inj e).1] <;> decide
        omega
    simp only [NodeRow.fits, Bool.and_eq_true]
    exact ⟨⟨⟨⟨decide_eq_true hdata.1, decide_eq_true hdata.2.1⟩, decide_eq_true hname.1⟩, decide_eq_true hname.2⟩, decide_eq_true hdata.2.2⟩
  have hflat : (nodeBatches 0 [] rows).flatten = rows := nodeBatches_flatten rows 0 []
  have hne : ∀ b ∈ nodeBatches 0 [] rows, b ≠ [] := by
    cases rows with
    | nil => simp [nodeBatches]
    | cons n nodes =>
      have := hhead n rfl
      rw [nodeBatches, if_pos ⟨by omega, by simp⟩]
      exact nodeBatches_nonempty nodes _ _ (by simp)
  obtain ⟨db2, h2⟩ := insertNodes_every (E := E) (nodeBatches 0 [] rows) db (by
    intro b hb n
    refine hE.nodes_ok n b (hne b hb) (fun r hrb => hfit r ?_)
    rw [← hflat]
    exact List.mem_flatten.2 ⟨b, hb, hrb⟩)
  refine ⟨saveCommits E D.commits path db2, ?_⟩
  unfold savePackfile
  rw [show E.pool p.result = .ok D from p1]
  simp only [p2, saveNodes, h2]

/-- The push of a complete project is answered, with the tables of the dump, for any storage in which rows have the ids of their objects. -/
theorem roomy_answered {X : Ext} {fold : Bytes → Bytes} (hfold : ∀ a b : Hash, fold (Hash.toPlainStr a) = fold (Hash.toPlainStr b) → a = b) {db : Db} (hn : NodesOk X db)
    (hun : UniqueIds X db) {E : SqlExt} (hf : E.fold = fold) (hE : Spec.SchemaOnly E) {u : Bytes} {c : Spec.PushCmd} (hc : c.Ok) {caps : Bytes} (hcaps : caps.length ≤ 4000)
    (hascii : ∀ x ∈ caps, x.toNat < 128) (happ : Spec.Applies fold db u c) {os : List (Nat × Spec.Obj)} {pack : Bytes} (hpack : Spec.PackOf X fold db pack os)
    (hproj : Spec.Project X os) (hroom : Spec.Roomy (Spec.found X os)) {fuel : Nat} (hfuel : os.length < fuel) :
    ∃ rep st', httpReceivePack (mysqlPush X E fuel) { caps := [], commands := [], path := u, db := db } (Spec.pushBody c [] caps pack) = .ok (rep, st') ∧
      Spec.reportLines (decide (.sideBand ∈ parseCapabilities caps ∨ .sideBand64k ∈ parseCapabilities caps)) rep =
        some [ascii "unpack ok\n", Spec.statusLine (c.name ++ [0]) none] := by
  obtain ⟨p, d1, d2⟩ := packOf_read hfold hn hun hf hpack (fuel := fuel) (by omega)
  obtain ⟨hist, e, _⟩ := decodePack_hist d1
  obtain ⟨db0, s0⟩ := C48_push_acyclic_partial (p := p) (by rw [e]; exact PackCache.keyed_run hist) (by rw [d2]; exact hproj.complete) (by rw [d2]; exact hproj.finite)
    (os.map (fun q => idOf X q.2)) (by
      intro x o ho
      rw [d2] at ho
      obtain ⟨q, hq, e1, e2⟩ := (found_iff hpack.ids _ _).1 ho
      exact List.mem_map.2 ⟨q, hq, by rw [← e2, ← e1]; rfl⟩) fuel (by rw [List.length_map]; omega) { E with acceptNodes := fun _ _ => true } (fun _ _ => rfl) u db
  obtain ⟨db1, s1⟩ := roomy_stored hE d1 (by rw [d2]; exact hroom) s0
  have hrefs : db1.refs = db.refs := by
    have := savePackfile_refs E fuel p u db
    rwa [s1] at this
  obtain ⟨db2, s2⟩ := handleRefs_applies (E := E) (by rw [hf]; exact happ) (fun n => hE.updates_ok n _ (hexId_chars hc.2.2.1)) db1 hrefs
  obtain ⟨rep, st', r1, _, r2⟩ := (C70_report_partial (mysqlPush X E fuel) u _ db1 c hc caps hcaps hascii pack (decodePack_magic d1) p d1).1 db2 s1 s2
  exact ⟨rep, st', r1, r2⟩

/-- **C119 (partial)** On a server that started empty, with the tables of the dump, and has handled any requests: every push of a complete project, in a well-formed pack, to create a ref or to update one from
a value some ref of the repository has, is answered with `ok` if its files are smaller than 16 MiB, its directory listings smaller than 10 MiB, and the names of files and directories have at most 128
characters. (Missing from the full claim: see `C119_big_false` and `C119_name_false`; otherwise as for `C111_accepted_partial`.) -/
theorem C119_accepted_partial (P : ServerExt) (hfold : ∀ a b : Hash, P.D.fold (Hash.toPlainStr a) = P.D.fold (Hash.toPlainStr b) → a = b)
    (u g : Bytes) (hu : Spec.CleanUrl u) (hg : g = [] ∨ g = ascii ".git") (h : List (Moment × HttpReq)) (m : Moment)
    (hun : UniqueIds P.X (runServer P .empty h).db) (hm : m.sql.fold = P.D.fold) (hE : Spec.SchemaOnly m.sql)
    (c : Spec.PushCmd) (hc : c.Ok) (caps : Bytes) (hcaps : caps.length ≤ 4000) (hascii : ∀ x ∈ caps, x.toNat < 128)
    (happ : Spec.Applies P.D.fold (runServer P .empty h).db u c)
    (os : List (Nat × Spec.Obj)) (pack : Bytes) (hpack : Spec.PackOf P.X P.D.fold (runServer P .empty h).db pack os) (hproj : Spec.Project P.X os)
    (hroom : Spec.Roomy (Spec.found P.X os)) (hfuel : os.length < m.fuel) :
    ∃ rep, (serve P m (runServer P .empty h) (Spec.pushReq (u ++ g) (Spec.pushBody c [] caps pack))).1 = .reply (.ok (.bytes rep)) ∧
      Spec.reportLines (decide (.sideBand ∈ parseCapabilities caps ∨ .sideBand64k ∈ parseCapabilities caps)) rep =
        some [ascii "unpack ok\n", Spec.statusLine (c.name ++ [0]) none] := by
  obtain ⟨rep, st', r1, r2⟩ := roomy_answered hfold (run_nodes P h _ (nodesOk_empty _)) hun hm hE hc hcaps hascii happ hpack hproj hroom hfuel
  refine ⟨rep, ?_, r2⟩
  have hroute := route_push hu hg
  simp only [serve, Spec.pushReq, hroute, r1]
  rfl

end Gust
